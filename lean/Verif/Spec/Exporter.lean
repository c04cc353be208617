import Verif.Model.Exporter
import Verif.Spec.SelectArgs
/-
Specification of bound exporters and factories: they are immutable values.  What a bound exporter is, is fixed by the calls that made it.
-/
namespace Records
open Spec
variable {W : World}

/-- an exporter as a value: positional options, keyword options, edits -/
structure XConf (W : World) where
  toClass : Bool
  pos : List W.Obj
  kw : String → Option W.Obj
  edits : Edits W.Obj

/-- What the program made so far, as values: its `Select`s, exporters and factories (a factory is what its select does). -/
structure XVals (W : World) where
  selects : List (Edits W.Obj)
  exporters : List (XConf W)
  factories : List (Edits W.Obj)

/-- keyword options given later win -/
def overlay {V : Type} (old : String → Option V) (new : Dict V) : String → Option V := fun k =>
  match new.get? k with
  | some v => some v
  | none => old k

/-- the edits of `x.select(*others, **kw)` -/
def moreEdits {V : Type} (e : Edits V) (others : List (Edits V)) (kw : Option (SelectArgs V)) : Edits V :=
  (others ++ (kw.map argEdits).toList).foldl Edits.append e

/-- one step of a program, on values: objects are made, none is changed -/
def XOp.vals {R : Type} (vs : XVals W) : XOp W R → XVals W
  | .newSelect a => { vs with selects := vs.selects ++ [argEdits a] }
  | .merge a others kw =>
    if others = [] ∧ kw.isNone then vs
    else { vs with selects := vs.selects ++
      [moreEdits (vs.selects.getD a {}) (others.map fun n => vs.selects.getD n {}) kw] }
  | .exporter b => { vs with exporters := vs.exporters ++ [⟨b, [], fun _ => none, {}⟩] }
  | .select x others kw => match vs.exporters[x]? with
    | none => vs
    | some c =>
      if others = [] ∧ kw.isNone then vs
      else { vs with exporters := vs.exporters ++
        [{ c with edits := moreEdits c.edits (others.map fun n => vs.selects.getD n {}) kw }] }
  | .exportWith x args kw => match vs.exporters[x]? with
    | none => vs
    | some c =>
      if "self" ∈ kw.map (·.1) then vs
      else { vs with exporters := vs.exporters ++ [{ c with pos := c.pos ++ args, kw := overlay c.kw kw }] }
  | .call .. => vs
  | .factory => { vs with factories := vs.factories ++ [{}] }
  | .fselect f others kw => match vs.factories[f]? with
    | none => vs
    | some e =>
      if others = [] ∧ kw.isNone then vs
      else { vs with factories := vs.factories ++ [moreEdits e (others.map fun n => vs.selects.getD n {}) kw] }
  | .fcall .. => vs

/-- the values after a program -/
def valsOf {R : Type} (ops : List (XOp W R)) : XVals W := ops.foldl XOp.vals ⟨[{}], [], []⟩

/-- no one-shot iterators, and keywords are given once -/
def XOp.ok {R : Type} : XOp W R → Prop
  | .newSelect a => Reiterable a
  | .merge _ _ kw | .select _ _ kw | .fselect _ _ kw => ∀ a ∈ kw, Reiterable a
  | .exportWith _ _ kw => (kw.map (·.1)).Nodup
  | _ => True

/-- the object given for parameter number `j` of `_to_dict` (after the exported object) -/
def given (pos : List W.Obj) (kw : String → Option W.Obj) (j : Nat) : Option W.Obj :=
  match pos[j]? with
  | some v => some v
  | none => match optNames[j]? with
    | some name => kw name
    | none => none

/-- the options can be bound: not too many, no unknown name, none both by position and by keyword -/
def Bindable (pos : List W.Obj) (kw : String → Option W.Obj) : Prop :=
  pos.length ≤ 5 ∧ ∀ name v, kw name = some v → ∃ j, optNames[j]? = some name ∧ pos.length ≤ j

/-- the options as `_to_dict` reads them -/
def optsFor (V : OptView W) (pos : List W.Obj) (kw : String → Option W.Obj) : ExportOpts where
  includeDefaults := match given pos kw 0 with | some v => V.includeDefaults v | none => false
  sort := match given pos kw 1 with | some v => V.sort v | none => .no
  blacklist := match given pos kw 2 with | some v => V.blacklist v | none => .tags []
  whitelist := match given pos kw 3 with | some v => V.whitelist v | none => []

/-- the private parameter `_rev_select` -/
def revFor (V : OptView W) (pos : List W.Obj) (kw : String → Option W.Obj) : Sel W.Obj :=
  match given pos kw 4 with | some v => V.revSelect v | none => Sel.empty

/-- the mapping `d` is edited, then given to `f` -/
def EditedThen {R : Type} (edits : Edits W.Obj) (d : Dict W.Obj) (f : Dict W.Obj → M W R) (s : LState W)
    (out : Except Exc R × LState W) : Prop :=
  match runScript edits.script d.get? with
  | .error k => out = (.error ⟨k, none⟩, s)
  | .ok am => ∃ d', d'.WF ∧ d'.get? = am ∧ out = f d' s

/-- The outcome of exporting with these options and edits, `f` being the wrapped function. -/
def ExportsAs {R : Type} (V : OptView W) (C : RecClass W) (obj : Carrier W) (pos : List W.Obj) (kw : String → Option W.Obj)
    (edits : Edits W.Obj) (f : Dict W.Obj → M W R) (s : LState W) (out : Except Exc R × LState W) : Prop :=
  (¬ Bindable pos kw → out = (.error .typeError, s)) ∧
  (Bindable pos kw → match toDict C obj (optsFor V pos kw) (revFor V pos kw) s with
    | (.error e, s') => out = (.error e, s')
    | (.ok d, s') => EditedThen edits d f s' out)

/-- the outcome of calling exporter number `n` -/
def XStore.outcome {R : Type} (V : OptView W) (st : XStore W) (n : Nat) (F : XFun W R) (C : RecClass W) (obj : Carrier W)
    (args : List W.Obj) (kw : Dict W.Obj) (s : LState W) : Option (Except Exc R × LState W) :=
  st.exporters[n]?.map fun b => (st.callX V b F C obj args kw s).1

/-- the outcome of calling factory number `n` -/
def XStore.foutcome (st : XStore W) (n : Nat) (h : Heap W.Obj) (m : MObj) : Option (Except Exc MObj × Heap W.Obj) :=
  st.factories[n]?.map fun b => (st.callF b h m).1

end Records
