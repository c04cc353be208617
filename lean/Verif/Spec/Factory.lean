import Verif.Model.New
import Verif.Spec.Export
import Verif.Spec.SelectArgs
/-
Specification of the factories `from_mapping` and `from_instance`: which entries the constructor is called with.
-/
namespace Records
open Spec
variable {W : World}

/-- `f` is tried first, then `g` -/
def Spec.AMap.orElse {V : Type} (f g : AMap V) : AMap V := fun k => match f k with
  | some v => some v
  | none => g k

/-- reading the attributes of `v` has no effects; `val k` is the attribute `k` (`none`: AttributeError) -/
def Reads (v : Carrier W) (val : String → Option W.Obj) : Prop :=
  ∀ k, match val k with
    | some x => ∀ s, v.attr k s = (.ok x, s)
    | none => ∃ e : Exc, e.kind = .attributeError ∧ ∀ s, v.attr k s = (.error e, s)

/-- the attribute `k` has to be looked at: it is a field, or the select removes or renames it; unless the select adds it -/
def Wanted (C : RecClass W) (e : Edits W.Obj) (k : String) : Prop :=
  k ∉ e.add.map (·.1) ∧
    (k ∈ C.fields.map (·.1) ∨ k ∈ e.remove ∨ k ∈ e.rename.map (·.1) ∨ k ∈ e.maybeRename.map (·.1))

/-- the attribute `k` may be missing -/
def MayMiss (C : RecClass W) (e : Edits W.Obj) (k : String) : Prop :=
  k ∈ C.optional ∨ k ∈ e.rename.map (·.2) ∨ k ∈ e.maybeRename.map (·.2) ∨ k ∈ e.maybeRename.map (·.1)

/-- the attribute `k` with value `x` is taken over: it is not the plain default of a field (other than a renamed one) -/
def Taken (C : RecClass W) (e : Edits W.Obj) (k : String) (x : W.Obj) : Prop :=
  Wanted C e k ∧ (k ∈ e.rename.map (·.1) ∨ k ∈ e.maybeRename.map (·.1) ∨ ¬ ∃ f, (k, f) ∈ C.fields ∧ f.isPlainDefault x)

open Classical in
/-- the attributes of `v` that `from_instance` takes over -/
noncomputable def takenMap (C : RecClass W) (e : Edits W.Obj) (val : String → Option W.Obj) : AMap W.Obj := fun k =>
  match val k with
  | some x => if Taken C e k x then some x else none
  | none => none

/-- `x` constructs from the mapping `m`: it is the call with entries `m`, or the failed edit -/
def CallsWith (call : Dict W.Obj → M W (Res W)) (r : Except ExcKind (AMap W.Obj)) (x : M W (Res W)) : Prop :=
  match r with
  | .error k => ∃ e : Exc, e.kind = k ∧ x = M.throw e
  | .ok am => ∃ m : Dict W.Obj, m.WF ∧ m.get? = am ∧ x = call m

end Records
