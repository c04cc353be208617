import Verif.Spec.Pickling
import Verif.Spec.Nested
/-
Specification for the equality of copies.
-/
namespace Records
variable {W : World}

/-- no object reachable from `x` contains itself, at any depth -/
def Grounded (h : W.Obj → Node W) (x : W.Obj) : Prop :=
  ∃ rank : W.Obj → Nat, ∀ a, Reaches h x a → ∀ c ∈ (h a).children, rank c < rank a

/-- the numbers, strings … reachable from `x` are equal to themselves -/
def SelfEqual (h : W.Obj → Node W) (x : W.Obj) : Prop := ∀ a, Reaches h x a → h a = .atom → W.eq a a = true

/-- values of records reachable from `x` that are equal to the default of their field are trees of its shape (see C122) -/
def DefaultTrees (X : CopyEnv W) (h : W.Obj → Node W) (x : W.Obj) : Prop :=
  ∀ r i k f v d, Reaches h x r → h r = .record i → (k, f) ∈ (X.cls i.cid).fields → i.dict.get? k = some v → f.default = some (.value d) →
    W.eq d v = true → SameTree X.cls h v d

end Records
