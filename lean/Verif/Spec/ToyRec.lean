import Verif.Spec.Class
import Verif.Spec.ToyTok
/-
Example record classes in the concrete world.
-/
namespace Records.Toy

/-- `class A(RecordBase): x: int; y: int = 3` -/
def spA : ClassSpec W :=
  { cid := .record 0, anns := [("x", .plain (.cls .int)), ("y", .plain (.cls .int))], attrs := [("y", .value (.int 3))] }

/-- the class object of a class statement, or `d` -/
def clsOf (sp : ClassSpec W) (d : RecClass W) : RecClass W := match mkClass sp with | .ok C => C | .error _ => d

/-- a dummy -/
def noClass : RecClass W :=
  { cid := .object, fields := [], isFieldDict := true, required := [], optional := [], style := .hollow, frozen := false,
    unary := false, ordered := false, parsers := [], postNew := fun i => M.pure (i, none), truthy := fun _ => true }

def A : RecClass W := clsOf spA noClass

theorem A_mk : mkClass spA = .ok A := rfl

theorem spA_ok : spA.OK := ⟨by decide, by decide, nofun⟩

theorem A_creatable : Creatable A := .intro spA A spA_ok nofun A_mk

/-- `class B(A, frozen=True): z: Final[str]` with `z` restricted to checked values -/
def spB : ClassSpec W :=
  { cid := .record 1, frozen := true, style := .check, anns := [("z", .final (.cls .str) []), ("k", .classVar)], parents := [A] }

def B : RecClass W := clsOf spB noClass

theorem B_mk : mkClass spB = .ok B := rfl

theorem spB_ok : spB.OK := by
  refine ⟨by decide, by decide, ?_⟩
  intro p hp kf hkf
  cases hp with
  | head =>
    cases hkf with
    | head => nofun
    | tail _ h => cases h with
      | head => nofun
      | tail _ h => cases h
  | tail _ h => cases h

theorem spB_parents : ∀ p ∈ spB.parents, Creatable p := by
  intro p hp
  cases hp with
  | head => exact A_creatable
  | tail _ h => cases h

theorem B_creatable : Creatable B := .intro spB B spB_ok spB_parents B_mk

end Records.Toy
