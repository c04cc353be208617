import Verif.Spec.Sort
import Verif.Spec.Class
/-
Specification of the ordering of records of a class and its subclasses.
-/
namespace Records
variable {W : World}

/-- `Line B D`: `D` is `B`, or the first of its record parents is such a class -/
inductive Line (B : RecClass W) : RecClass W → Prop
  | refl : Line B B
  | step (sp : ClassSpec W) (C D : RecClass W) (rest : List (RecClass W)) : sp.OK → (∀ p ∈ sp.parents, Creatable p) → mkClass sp = .ok D →
      sp.parents = C :: rest → Line B C → Line B D

/-- `a` (whose fields that count are `na`) comes before `b` (whose are `nb`): the first field in which they differ is smaller in `a`; or
they agree in the fields of `a`, and `b` has more. -/
def KinLt (le : String → W.Obj → W.Obj → Prop) (na nb : List String) (a b : Inst W) : Prop :=
  (∃ pre k post post', na = pre ++ k :: post ∧ nb = pre ++ k :: post' ∧ (∀ j ∈ pre, SameField a b j) ∧ FieldLt le a b k) ∨
    ∃ k rest, nb = na ++ k :: rest ∧ ∀ j ∈ na, SameField a b j

/-- the same fields count for both records, and they agree in them -/
def KinEq (na nb : List String) (a b : Inst W) : Prop := na = nb ∧ ∀ k ∈ na, SameField a b k

/-- what an operator should answer -/
def KinAns (le : String → W.Obj → W.Obj → Prop) (na nb : List String) (a b : Inst W) : CmpOp → Prop
  | .lt => KinLt le na nb a b
  | .le => KinLt le na nb a b ∨ KinEq na nb a b
  | .gt => KinLt le nb na b a
  | .ge => KinLt le nb na b a ∨ KinEq nb na b a

/-- Ordered classes of one line of descent, the values of whose fields are totally ordered: `F` says which, `cls` gives the class. -/
structure Kin (O : ObjCmp W) (cls : W.Cls → RecClass W) (F : W.Cls → Prop) (le : String → W.Obj → W.Obj → Prop)
    (D : String → W.Obj → Prop) : Prop where
  ordered : ∀ c, F c → (cls c).ordered = true
  related : ∀ c d, F c → F d → (W.isSub d c = true ∧ Line (cls c) (cls d)) ∨ (W.isSub c d = true ∧ Line (cls d) (cls c))
  fields : ∀ c, F c → FieldsOrdered O (cls c) le D

/-- a record of one of these classes -/
structure OfKin (cls : W.Cls → RecClass W) (F : W.Cls → Prop) (D : String → W.Obj → Prop) (a : Inst W) : Prop where
  mem : F a.cid
  dom : InDomain (cls a.cid) D a

end Records
