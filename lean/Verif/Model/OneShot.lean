import Verif.Model.Exporter
/-
The factories and `_to_dict` with a `Select` made from any iterables, one-shot iterators (generators, `zip`, `map`) included: the
`Select` is consumed by truth tests and loops, so each function also returns it as it is afterwards (records/select.py:91-138, 165-176,
216-220, 248-253; records/record.py:345-363, 431-505).
-/
namespace Records
variable {W : World}

/-- the loops of `_to_dict` over `_rev_select` (record.py:345-363) -/
def extractionS (C : RecClass W) (sel : Sel W.Obj) : (List String × Dict (XField W)) × Sel W.Obj :=
  let x0 : Dict (XField W) := C.fields.map fun kf => (kf.1, kf.2.x)
  let t := sel.truth
  if !t.1 then ((C.optional, x0), t.2)
  else
    let sel := t.2
    let x1 := sel.remove.remaining.foldl
      (fun (x : Dict (XField W)) k => if C.fields.has k then x else x.set k (mockField k)) x0
    let x2 := sel.rename.remaining.foldl (fun x od => x.set od.1 (mockField od.1)) x1
    let x3 := sel.maybeRename.remaining.foldl (fun x od => x.set od.1 (mockField od.1)) x2
    let x4 := sel.add.remaining.foldl (fun x kv => x.erase kv.1) x3
    ((C.optional ++ sel.rename.remaining.map (·.2) ++ sel.maybeRename.remaining.map (·.2)
        ++ sel.maybeRename.remaining.map (·.1), x4),
      { sel with remove := sel.remove.leave [], rename := sel.rename.leave [], maybeRename := sel.maybeRename.leave [],
                 add := sel.add.leave [] })

/-- `RecordBase._to_dict` (record.py:300-395) and `_rev_select` afterwards -/
def toDictS (C : RecClass W) (obj : Carrier W) (o : ExportOpts) (sel : Sel W.Obj) (s : LState W) :
    (Except Exc (Dict W.Obj) × LState W) × Sel W.Obj :=
  let x := extractionS C sel
  (M.bind (M.generator (exportTuples obj o x.1.1 x.1.2.values)) (fun l => M.pure (Dict.update [] (sortEntries o.sort l))) s, x.2)

/-- `select(mapping)` (select.py:103-140) for a fresh dict, and the `Select` afterwards -/
def Sel.applyS (sel : Sel W.Obj) (m : Dict W.Obj) : Except Exc (Dict W.Obj) × Sel W.Obj :=
  let t := sel.truth
  if !t.1 then (.ok m, t.2)
  else
    let r := t.2.edit m
    (match r.err with | some e => .error e | none => .ok r.dict, r.sel)

/-- `select(mapping)` followed by `cls(**mapping)` (select.py:175-176) -/
def buildFromS (call : Dict W.Obj → M W (Res W)) (sel : Sel W.Obj) (m : Dict W.Obj) (s : LState W) :
    (Except Exc (Res W) × LState W) × Sel W.Obj :=
  match sel.applyS m with
  | (.error e, sel) => ((.error e, s), sel)
  | (.ok m', sel) => (call m' s, sel)

/-- `from_mapping` (record.py:431-449) through `SelectableFactory.run` (select.py:165-176) -/
def fromMappingS (call : Dict W.Obj → M W (Res W)) (sel : Sel W.Obj) (maps : List (Dict W.Obj)) (kw : Dict W.Obj) (s : LState W) :
    (Except Exc (Res W) × LState W) × Sel W.Obj :=
  if clash ["self", "cls"] kw then ((.error .typeError, s), sel)
  else buildFromS call sel (chainItems (maps ++ [kw])) s

/-- `from_instance` (record.py:451-485) through `SelectableShortcutFactory.run` and `SpecializedSelectableFactory.run`
(select.py:216-220, 248-253): the truth test, the loops of `_to_dict`, then the application. Result `none`: the object `v` itself. -/
def fromInstanceS (C : RecClass W) (call : Dict W.Obj → M W (Res W)) (sel : Sel W.Obj) (v : Carrier W)
    (maps : List (Dict W.Obj)) (kw : Dict W.Obj) (s : LState W) : (Except Exc (Option (Res W)) × LState W) × Sel W.Obj :=
  if clash ["self"] kw then ((.error .typeError, s), sel)
  else
    let t := sel.truth
    if clash ["cls", "v", "_select"] kw then ((.error .typeError, s), t.2)
    else if !t.1 && C.frozen && maps.isEmpty && kw.isEmpty && v.isInst C.cid then ((.ok none, s), t.2)
    else match toDictS C v {} t.2 s with
      | ((.error e, s'), sel) => ((.error e, s'), sel)
      | ((.ok d, s'), sel) =>
        let build (m : Dict W.Obj) := match buildFromS call sel m s' with
          | ((r, s''), sel) => ((r.map some, s''), sel)
        match maps with
        | [] => build (d.update kw)
        | [m] => build ((d.update m).update kw)
        | _ => ((.error .typeError, s'), sel)

/-- `from_json` (record.py:487-505) through `SelectableFactory.run` -/
def fromJsonS (E : Env W) (call : Dict W.Obj → M W (Res W)) (sel : Sel W.Obj) (v : W.Obj) (kw : Dict W.Obj) (s : LState W) :
    (Except Exc (Res W) × LState W) × Sel W.Obj :=
  if clash ["self", "cls", "v"] kw then ((.error .typeError, s), sel)
  else match E.jsonLoads v kw s with
    | (.error e, s) => ((.error e, s), sel)
    | (.ok j, s) =>
      let t := sel.truth
      match (if t.1 then E.dictView j else E.starView j) s with
      | (.error e, s) => ((.error e, s), t.2)
      | (.ok m, s) => buildFromS call t.2 m s

/-- One use of a Select by a factory. -/
inductive SUse (W : World)
  | mapping (call : Dict W.Obj → M W (Res W)) (maps : List (Dict W.Obj)) (kw : Dict W.Obj)
  | instance (C : RecClass W) (call : Dict W.Obj → M W (Res W)) (v : Carrier W) (maps : List (Dict W.Obj)) (kw : Dict W.Obj)
  | json (E : Env W) (call : Dict W.Obj → M W (Res W)) (v : W.Obj) (kw : Dict W.Obj)

/-- the Select and the state afterwards -/
def SUse.run (sel : Sel W.Obj) (s : LState W) : SUse W → Sel W.Obj × LState W
  | .mapping call maps kw => ((fromMappingS call sel maps kw s).2, (fromMappingS call sel maps kw s).1.2)
  | .instance C call v maps kw => ((fromInstanceS C call sel v maps kw s).2, (fromInstanceS C call sel v maps kw s).1.2)
  | .json E call v kw => ((fromJsonS E call sel v kw s).2, (fromJsonS E call sel v kw s).1.2)

/-- the Select and the state after a sequence of uses; exceptions are caught -/
def usesS : List (SUse W) → Sel W.Obj → LState W → Sel W.Obj × LState W
  | [], sel, s => (sel, s)
  | u :: us, sel, s => usesS us (u.run sel s).1 (u.run sel s).2

end Records
