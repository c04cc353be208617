import Verif.Model.Export
/-
Specification of exporting.
-/
namespace Records
variable {W : World}

/-- the value is the plain default of the field -/
def Field.isPlainDefault (f : Field W) (v : W.Obj) : Prop := ∃ d, f.default = some (.value d) ∧ W.eq d v = true

/-- field `f` with value `v` belongs into the export -/
def Exported (incl : Bool) (black : List Nat) (white : List String) (f : Field W) (v : W.Obj) : Prop :=
  f.name ∈ white ∨ ((∀ t ∈ f.tags, t ∉ black) ∧ (incl = true ∨ ¬ f.isPlainDefault v))

/-- `a` comes before `b` in the list -/
def Before {α : Type} (l : List α) (a b : α) : Prop := [a, b].Sublist l

end Records
