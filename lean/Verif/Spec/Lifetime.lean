import Verif.Model.Lifetime
import Verif.Spec.Copying
import Verif.Spec.Nested
/-
Specification for objects that do not change.
-/
namespace Records
variable {W : World}

/-- what the object contains, without the private slot of the hash -/
def Node.bare : Node W → Node W
  | .record i => .record { i with hash := none }
  | nd => nd

/-- everything reachable from `a` (itself included) is a number, string, ..., a tuple or a record of a frozen class -/
def Permanent (cls : W.Cls → RecClass W) (h : W.Obj → Node W) (a : W.Obj) : Prop :=
  ∀ x, Reaches h a x → h x = .atom ∨ (∃ xs, h x = .tuple xs) ∨ ∃ i, h x = .record i ∧ (cls i.cid).frozen = true

/-- the program does not delete attributes of objects in `S` -/
def KeepsAttrs (ops : List (LifeOp W)) (S : W.Obj → Prop) : Prop := ∀ b H k, LifeOp.use b H (.del k) ∈ ops → ¬ S b

/-- the program does not write the private slot of the hash of `a` -/
def KeepsSlot (ops : List (LifeOp W)) (a : W.Obj) : Prop := ∀ H n, LifeOp.use a H (.setHash n) ∉ ops

/-- wherever the program hashes or compares `a`, its field values have the hashes `H` -/
def SameHashes (H : Hasher W) (ops : List (LifeOp W)) (a : W.Obj) : Prop :=
  (∀ H' op, LifeOp.use a H' op ∈ ops → H' = H) ∧ (∀ H' b, LifeOp.compare a b H' ∈ ops → H' = H) ∧
    ∀ H' b, LifeOp.compare b a H' ∈ ops → H' = H

end Records
