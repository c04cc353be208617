import Verif.Model.Keys
import Verif.Spec.Instance
import Verif.Spec.Class
/-
Specification of a dict whose keys are records: what was stored last under an equal record.
-/
namespace Records
variable {W : World} {R V : Type}

/-- two records are the same key: same class, equal fields -/
def SameKey (cls : R → RecClass W) (m : Mem W R) (a b : R) : Prop :=
  (cls a).cid = (cls b).cid ∧ SameFields (cls a) (m a) (m b)

/-- frozen classes, identified by their class object -/
structure ClsOK (cls : R → RecClass W) : Prop where
  creatable : ∀ r, Creatable (cls r)
  frozen : ∀ r, (cls r).frozen = true
  ident : ∀ a b, (cls a).cid = (cls b).cid → cls a = cls b

open Classical in
/-- the value under the key `r` after the steps `past` (the latest first): that of the latest assignment to the same key, if the key was
not removed since -/
noncomputable def valueOf (same : R → R → Prop) (r : R) : List (Act W R V) → Option V
  | [] => none
  | .put a v :: past => if same a r then some v else valueOf same r past
  | .pop a :: past => if same a r then none else valueOf same r past
  | _ :: past => valueOf same r past

/-- `keys` are representatives of the keys that have a value: each of them has one, no two are the same, and every record with a value is
the same as one of them -/
structure Represents (same : R → R → Prop) (past : List (Act W R V)) (keys : List R) : Prop where
  live : ∀ r ∈ keys, valueOf same r past ≠ none
  distinct : keys.Pairwise fun a b => ¬ same a b
  all : ∀ r, valueOf same r past ≠ none → ∃ a ∈ keys, same a r

/-- what the step `a` should answer after the steps `past` -/
def Expected (same : R → R → Prop) (past : List (Act W R V)) : Act W R V → Except Exc (Ans V) → Prop
  | .put _ _, x => x = .ok .none
  | .get r, x => x = .ok (.found (valueOf same r past))
  | .pop r, x => x = .ok (.found (valueOf same r past))
  | .len, x => ∃ keys, Represents same past keys ∧ x = .ok (.size keys.length)
  | .op _ _, _ => True

/-- what a program should answer after the steps `past` -/
def ExpectedAll (same : R → R → Prop) : List (Act W R V) → List (Act W R V) → List (Except Exc (Ans V)) → Prop
  | _, [], xs => xs = []
  | past, a :: as, xs => ∃ x xs', xs = x :: xs' ∧ Expected same past a x ∧ ExpectedAll same (a :: past) as xs'

end Records
