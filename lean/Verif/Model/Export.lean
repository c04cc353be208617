import Verif.Model.Field
import Verif.Model.Select
/-
Model of `RecordBase._to_dict` (records/record.py:300-395), and the part of the Python world that only the record layer
uses.
-/
namespace Records
variable {W : World}

/-- What `type(e)(msg)` does for an exception of a user-defined class (record.py:221-224): works, raises TypeError, or
raises something else. -/
inductive Rewrap
  | ok
  | typeError
  | raises (e : Exc)

/-- Foreign operations the record layer relies on; the theorems quantify over all of them. -/
structure Env (W : World) where
  /-- `getattr(v, name)` of an object that is not modelled as `Inst` -/
  getattr : W.Obj → String → M W W.Obj
  /-- `getattr(cls, name)` for a record class; for a field it is the `RecordField` object (record.py:113) -/
  clsAttr : W.Cls → String → Option W.Obj
  /-- the entries a `ChainMap` sees in `v` -/
  chainView : W.Obj → M W (Dict W.Obj)
  /-- the entries of `f(**v)` -/
  starView : W.Obj → M W (Dict W.Obj)
  /-- `dict(v)` -/
  dictView : W.Obj → M W (Dict W.Obj)
  /-- `json.loads(v, **kwargs)` -/
  jsonLoads : W.Obj → Dict W.Obj → M W W.Obj
  /-- `type(e)(msg)` for user-defined exception classes -/
  rewrap : Nat → Rewrap
  /-- iteration order of a set of strings -/
  setOrder : List String → List String
  setOrder_perm : ∀ l, (setOrder l).Perm l

/-- An object as `_to_dict` and `from_instance` see it: attribute access and `isinstance(v, cls)`. -/
structure Carrier (W : World) where
  attr : String → M W W.Obj
  isInst : W.Cls → Bool

/-- a foreign object -/
def Carrier.ofObj (E : Env W) (v : W.Obj) : Carrier W := ⟨E.getattr v, W.isInstance v⟩

/-- attribute access on a record instance: `__dict__`, then the class -/
def Inst.attr (E : Env W) (i : Inst W) (k : String) : Except Exc W.Obj :=
  match i.dict.get? k with
  | some v => .ok v
  | none => match E.clsAttr i.cid k with
    | some v => .ok v
    | none => .error .attributeError

/-- a record instance -/
def Carrier.ofInst (E : Env W) (i : Inst W) : Carrier W := ⟨fun k => M.ofExcept (i.attr E k), W.isSub i.cid⟩

/-- the `sort` argument (record.py:386-393): falsy, -1, a key function (given by the preorder `le` of its keys), or another
truthy value. -/
inductive SortArg
  | no
  | desc
  | key (le : String → String → Bool)
  | asc

/-- the `blacklist_tags` argument: a tag or a set of tags, or another container (`set & container` raises TypeError,
record.py:339) -/
inductive BlackArg
  | tags (l : List Nat)
  | otherContainer

/-- the arguments of `_to_dict` except `_rev_select` (record.py:301-303; the conversions in 329-332 are part of the
representation) -/
structure ExportOpts where
  includeDefaults : Bool := false
  sort : SortArg := .no
  blacklist : BlackArg := .tags []
  whitelist : List String := []

/-- a field or `_MockField` (record.py:291-298) as `_to_dict` uses it -/
structure XField (W : World) where
  name : String
  tags : List Nat
  default : Option (Deflt W)

def Field.x (f : Field W) : XField W := ⟨f.name, f.tags, f.default⟩

/-- `cls._MockField(name)` -/
def mockField (n : String) : XField W := ⟨n, [], none⟩

/-- `missing_ok` and `extraction_dict` (record.py:345-363).
Simplification: the Select is built from re-iterable arguments (lifted in `OneShot`). -/
def extraction (C : RecClass W) (sel : Sel W.Obj) : List String × Dict (XField W) :=
  let x0 : Dict (XField W) := C.fields.map fun kf => (kf.1, kf.2.x)
  if !sel.truth.1 then (C.optional, x0)
  else
    let x1 := sel.remove.remaining.foldl
      (fun (x : Dict (XField W)) k => if C.fields.has k then x else x.set k (mockField k)) x0
    let x2 := sel.rename.remaining.foldl (fun x od => x.set od.1 (mockField od.1)) x1
    let x3 := sel.maybeRename.remaining.foldl (fun x od => x.set od.1 (mockField od.1)) x2
    let x4 := sel.add.remaining.foldl (fun x kv => x.erase kv.1) x3
    (C.optional ++ sel.rename.remaining.map (·.2) ++ sel.maybeRename.remaining.map (·.2)
      ++ sel.maybeRename.remaining.map (·.1), x4)

/-- `export_field` (record.py:337-339) -/
def exportField (o : ExportOpts) (f : XField W) : Except Exc Bool :=
  if f.name ∈ o.whitelist then .ok true
  else match o.blacklist with
    | .otherContainer => .error .typeError
    | .tags l => .ok (!f.tags.any fun t => decide (t ∈ l))

/-- `export_value` (record.py:341-343) -/
def exportValue (o : ExportOpts) (f : XField W) (v : W.Obj) : Bool :=
  decide (f.name ∈ o.whitelist) || o.includeDefaults ||
    !(match f.default with | none => false | some d => d.isDefault v)

/-- the body of the generator `tuples` (record.py:366-384) -/
def exportTuples (obj : Carrier W) (o : ExportOpts) (missingOk : List String) :
    List (XField W) → M W (List (String × W.Obj))
  | [] => M.pure []
  | f :: fs => fun s =>
    match exportField o f with
    | .error e => (.error e, s)
    | .ok false => exportTuples obj o missingOk fs s
    | .ok true =>
      match obj.attr f.name s with
      | (.ok v, s') =>
        if exportValue o f v then
          M.bind (exportTuples obj o missingOk fs) (fun l => M.pure ((f.name, v) :: l)) s'
        else exportTuples obj o missingOk fs s'
      | (.error e, s') =>
        if e.kind ≠ .attributeError then (.error e, s')
        else if f.name ∉ missingOk then (.error e, s')
        else match o.includeDefaults, f.default with
          | true, some d =>
            M.bind d.make (fun v =>
              M.bind (exportTuples obj o missingOk fs) fun l => M.pure ((f.name, v) :: l)) s'
          | _, _ => exportTuples obj o missingOk fs s'

/-- `sorted(...)` (record.py:387-393); the names are distinct, so tuples are compared by name only -/
def sortEntries (sort : SortArg) (l : List (String × W.Obj)) : List (String × W.Obj) :=
  match sort with
  | .no => l
  | .desc => l.mergeSort fun a b => decide (b.1 ≤ a.1)
  | .key le => l.mergeSort fun a b => le a.1 b.1
  | .asc => l.mergeSort fun a b => decide (a.1 ≤ b.1)

/-- `RecordBase._to_dict` (record.py:300-395) -/
def toDict (C : RecClass W) (obj : Carrier W) (o : ExportOpts) (sel : Sel W.Obj) : M W (Dict W.Obj) :=
  let (missingOk, x) := extraction C sel
  M.bind (M.generator (exportTuples obj o missingOk x.values)) fun l => M.pure (Dict.update [] (sortEntries o.sort l))

end Records
