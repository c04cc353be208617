import Verif.Model.Instance
import Verif.Spec.Export
/-
Specification of what a record answers along any use of it: assignments, deletions, hashing, comparing and exporting in any order.
-/
namespace Records
variable {W : World}

/-- the field objects are attributes of the class, `FO k` being the one of the field `k` (record.py:113) -/
def OnClass (E : Env W) (C : RecClass W) (FO : String → W.Obj) : Prop :=
  ∀ k ∈ C.fields.map (·.1), E.clsAttr C.cid k = some (FO k)

/-- a record of the class; if the class is frozen, its private slot was set (record.py:236-237) -/
structure InUse (C : RecClass W) (i : Inst W) : Prop where
  cls : i.cid = C.cid
  slot : C.frozen = true → i.hash ≠ none

/-- what reading the attribute `k` gives: the value, or the field object once the value has been deleted -/
def readAs (FO : String → W.Obj) (i : Inst W) (k : String) : W.Obj :=
  match i.dict.get? k with
  | some v => v
  | none => FO k

/-- exports whose blacklist is a tag or a set of tags, comparisons with records in use -/
def Op.fair (C : RecClass W) : Op W → Prop
  | .export o => ∃ l, o.blacklist = .tags l
  | .eq b => b.cid = C.cid → InUse C b
  | .eqBy b => b.cid = C.cid → InUse C b
  | _ => True

/-- which exceptions an operation may raise on the record `i` -/
def Op.mayRaise (C : RecClass W) (i : Inst W) (e : Exc) : Op W → Prop
  | .set _ _ => e = .typeError ∧ C.frozen = true
  | .del k => e = .attributeError ∧ i.dict.get? k = none
  | .hash => e = .typeError
  | .eq b => e = .typeError ∧ C.frozen = true ∧ b.cid = C.cid
  | .eqBy b => e = .typeError ∧ C.frozen = true ∧ b.cid = C.cid
  | .export _ => False
  | .setHash _ => False

end Records
