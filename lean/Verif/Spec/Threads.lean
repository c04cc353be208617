import Verif.Model.Threads
import Verif.Spec.Instance
import Verif.Spec.Class
import Verif.Spec.OneShot
/-
Specification of records and Selects used by several threads: every operation answers as it does in a single thread.
-/
namespace Records
open Spec
variable {W : World} {R S : Type}

/-- A record with all its fields; the cached hash of a frozen one, if there is one, is right. -/
structure Shareable (H : Hasher W) (C : RecClass W) (i : Inst W) : Prop where
  cls : i.cid = C.cid
  full : Full C i
  cache : C.frozen = true → i.hash = some none ∨
    (i.hash = some (some (recordHash H C i)) ∧ ∀ kv ∈ shown C i, W.hashable kv.2 = true)

/-- records and Selects as they are before the threads start -/
structure Ready (H : Hasher W) (cls : R → RecClass W) (sel : S → SelectArgs W.Obj) (m : Shared W R S) : Prop where
  creatable : ∀ r, Creatable (cls r)
  ident : ∀ a b, (cls a).cid = (cls b).cid → cls a = cls b
  record : ∀ r, Shareable H (cls r) (m.mem r)
  reiterable : ∀ x, Reiterable (sel x)
  truth : ∀ x b, m.truth x = some b → (b = true ↔ (argEdits (sel x)).script ≠ [])

/-- the operation does not change a field: attributes are assigned on frozen records only -/
def TOp.readOnly (cls : R → RecClass W) : TOp W R S → Prop
  | .set r _ _ => (cls r).frozen = true
  | _ => True

/-- `x` is what the operation answers in a single thread -/
def TOp.answer (E : Env W) (H : Hasher W) (cls : R → RecClass W) (sel : S → SelectArgs W.Obj) (m : Shared W R S) :
    TOp W R S → Except Exc (TAns W) → Prop
  | .hash r, x => ∀ s, x = (hashInst E H (cls r) (m.mem r) s).1.map .hash
  | .eq a b, x => ∀ s, x = (eqInst E H (cls a) (m.mem a) (m.mem b) s).1.map .bool
  | .export r o, x => ∀ s, x = (toDict (cls r) (.ofInst E (m.mem r)) o Sel.empty s).1.map .dict
  | .set _ _ _, x => x = .error .typeError
  | .apply y d, x => x = ((sel y).mk'.applyTo d).map .dict

/-- the operations have been performed, and each has answered as in a single thread -/
def Answers (E : Env W) (H : Hasher W) (cls : R → RecClass W) (sel : S → SelectArgs W.Obj) (m : Shared W R S) (ops : List (TOp W R S))
    (x : Except Exc (List (Except Exc (TAns W)))) : Prop :=
  ∃ xs, x = .ok xs ∧ xs.length = ops.length ∧ ∀ (j : Nat) op, ops[j]? = some op → ∃ y, xs[j]? = some y ∧ TOp.answer E H cls sel m op y

/-- how many accesses the operation makes at most -/
def TOp.cost (cls : R → RecClass W) : TOp W R S → Nat
  | .hash r => (cls r).fields.length + 3
  | .eq a _ => 4 * (cls a).fields.length + 6
  | .export r _ => (cls r).fields.length
  | .set _ _ _ => 0
  | .apply _ _ => 3

end Records
