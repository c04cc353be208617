import Verif.Spec.Instance
import Verif.Spec.Export
/-
Specification of round trips: re-building a record from exported data.
-/
namespace Records
variable {W : World}

/-- the filler of the field accepts `v` and returns it -/
def Field.Keeps (f : Field W) (v : W.Obj) : Prop := ∀ s, ∃ s', f.filler.call v s = (.ok v, s')

/-- `post_new` does nothing -/
def PlainPost (C : RecClass W) : Prop := ∀ i s, C.postNew i s = (.ok (i, none), s)

/-- no field has the name of a parameter of `__new__` or `__init__` -/
def FreeNames (C : RecClass W) : Prop := ∀ k ∈ C.fields.map (·.1), k ∉ ["self", "cls", "arg"]

/-- The mapping describes the record: its keys are fields; for each field it has an equal value that the filler keeps, or the field
has its plain default and is left out. -/
structure Describes (C : RecClass W) (i : Inst W) (m : Dict W.Obj) : Prop where
  nodup : (m.map (·.1)).Nodup
  keys : ∀ k ∈ m.map (·.1), k ∈ C.fields.map (·.1)
  fields : ∀ k f v, (k, f) ∈ C.fields → i.dict.get? k = some v →
    (∃ w, (k, w) ∈ m ∧ W.eq v w = true ∧ Field.Keeps f w) ∨ (k ∉ m.map (·.1) ∧ f.isPlainDefault v)

/-- the values that a record made from the mapping would hash are hashable -/
def HashableIn (C : RecClass W) (m : Dict W.Obj) : Prop :=
  C.frozen = true → ∀ k f w, (k, f) ∈ C.fields → (k, w) ∈ m → ¬ f.isPlainDefault w → W.hashable w = true

/-- a fresh record of class `C`, equal to `i`, with no attributes but the fields, holding the values of `m` -/
structure Copied (E : Env W) (H : Hasher W) (C : RecClass W) (i : Inst W) (m : Dict W.Obj) (j : Inst W) : Prop where
  proper : Proper H C j
  equal : Equal E H C i j
  keys : (j.dict.map (·.1)).Perm (C.fields.map (·.1))
  values : ∀ k v, (k, v) ∈ m → j.dict.get? k = some v
  hash : j.hash = if C.frozen then some none else none

/-- `d'` has the keys of `d`, with equal values -/
structure Restores (d d' : Dict W.Obj) : Prop where
  nodup : (d'.map (·.1)).Nodup
  back : ∀ k ∈ d'.map (·.1), k ∈ d.map (·.1)
  values : ∀ k v, (k, v) ∈ d → ∃ w, (k, w) ∈ d' ∧ W.eq v w = true

/-- the options drop nothing of the record but defaults -/
def DropsOnlyDefaults (C : RecClass W) (i : Inst W) (black : List Nat) (white : List String) : Prop :=
  ∀ k f v, (k, f) ∈ C.fields → i.dict.get? k = some v → ¬ f.isPlainDefault v → k ∈ white ∨ ∀ t ∈ f.tags, t ∉ black

end Records
