import Verif.Model.Instance
/-
Model of bound exporters and factories (records/select.py:148-213, 260-369), with the `Select` objects they share.

Bound objects refer to `Select` objects by address, because `export_with` passes the same `Select` on, `merge` may return one of
its operands, and truth tests and applications change a `Select` (its cached truth value, and one-shot iterators).
Simplifications: the class and the exported object are arguments of the call, so that the object may change between calls; a
`Select` given as `_rev_select` and a `Select` used by `from_instance` is built from re-iterable arguments (as in
`extraction`; lifted in `OneShot`).
-/
namespace Records
variable {W : World}

/-- how the parameters of `_to_dict` read an argument (record.py:301-304) -/
structure OptView (W : World) where
  includeDefaults : W.Obj → Bool
  sort : W.Obj → SortArg
  blacklist : W.Obj → BlackArg
  whitelist : W.Obj → List String
  revSelect : W.Obj → Sel W.Obj

/-- the parameters of `_to_dict` after `cls` and `obj` (record.py:301-304) -/
def optNames : List String := ["include_defaults", "sort", "blacklist_tags", "whitelist_keys", "_rev_select"]

/-- parameter binding of `_to_dict(obj, *args, **kw)`: TypeError for too many arguments, an unknown keyword (also `cls`, `obj`), or
a parameter given twice -/
def bindOpts (V : OptView W) (args : List W.Obj) (kw : Dict W.Obj) : Except Exc (ExportOpts × Sel W.Obj) :=
  if args.length > optNames.length then .error .typeError
  else if kw.keys.any fun k => !optNames.contains k then .error .typeError
  else if kw.keys.any fun k => (optNames.take args.length).contains k then .error .typeError
  else
    let b : Dict W.Obj := optNames.zip args ++ kw
    .ok ({ includeDefaults := (b.get? "include_defaults").elim false V.includeDefaults
           sort := (b.get? "sort").elim .no V.sort
           blacklist := (b.get? "blacklist_tags").elim (.tags []) V.blacklist
           whitelist := (b.get? "whitelist_keys").elim [] V.whitelist },
         (b.get? "_rev_select").elim Sel.empty V.revSelect)

/-- An exporter with its wrapped function: `NoArgExporter` (select.py:362-369) or `Exporter` (select.py:260-292) -/
inductive XFun (W : World) (R : Type)
  | noArg (f : Dict W.Obj → M W R)
  | args (f : Dict W.Obj → List W.Obj → Dict W.Obj → M W R)

/-- `Exporter.run` (select.py:279-292) with the call of `func` as `k`: the result, and the `Select` afterwards -/
def exportRun {R : Type} (V : OptView W) (C : RecClass W) (obj : Carrier W) (eargs : List W.Obj) (ekw : Dict W.Obj)
    (sel : Sel W.Obj) (k : Dict W.Obj → M W R) (s : LState W) : (Except Exc R × LState W) × Sel W.Obj :=
  match bindOpts V eargs ekw with
  | .error e => ((.error e, s), sel)
  | .ok (o, rev) => match toDict C obj o rev s with
    | (.error e, s') => ((.error e, s'), sel)
    | (.ok d, s') =>
      let r := sel.call [d] (.dict 0)
      match r.ret with
      | .error e => ((.error e, s'), r.sel)
      | .ok m => (k (m.items r.heap) s', r.sel)

/-- `run` of both exporter classes (select.py:279-292, 368-369) -/
def XFun.run {R : Type} (F : XFun W R) (V : OptView W) (C : RecClass W) (obj : Carrier W) (eargs : List W.Obj)
    (ekw : Dict W.Obj) (sel : Sel W.Obj) (args : List W.Obj) (kw : Dict W.Obj) (s : LState W) :
    (Except Exc R × LState W) × Sel W.Obj :=
  match F with
  | .noArg f => exportRun V C obj (eargs ++ args) (ekw.update kw) sel f s
  | .args f => exportRun V C obj eargs ekw sel (fun m => f m args kw) s

/-- `Exporter.Bound`, `Exporter.BoundToClass` (select.py:302-324, 356-359) -/
structure XBound (W : World) where
  /-- bound to the class, the object is the first argument of a call -/
  toClass : Bool
  eargs : List W.Obj
  ekw : Dict W.Obj
  /-- address of `select_` -/
  sel : Nat

/-- `SelectableFactory.Bound` (select.py:184-201) -/
structure FBound where
  sel : Nat

/-- All `Select` objects and all bound objects, by address. `Select.empty` is at address 0. -/
structure XStore (W : World) where
  sels : List (Sel W.Obj)
  /-- addresses of the `Select`s the program has at hand -/
  named : List Nat
  exporters : List (XBound W)
  factories : List FBound

/-- before the first use -/
def XStore.start : XStore W := ⟨[Sel.empty], [0], [], []⟩

/-- the address of the program's `Select` number `n` -/
def XStore.addr (st : XStore W) (n : Nat) : Nat := st.named.getD n 0

/-- the `Select` at an address -/
def selAt (S : List (Sel W.Obj)) (a : Nat) : Sel W.Obj := S.getD a Sel.empty

/-- `Select._merge` (select.py:57-69) on addresses; `a` and `b` may be the same object -/
def mergeAt (S : List (Sel W.Obj)) (a b : Nat) : Nat × List (Sel W.Obj) :=
  let ta := (selAt S a).truth
  let S := S.set a ta.2
  if !ta.1 then (b, S)
  else
    let tb := (selAt S b).truth
    let S := S.set b tb.2
    if !tb.1 then (a, S)
    else
      let x := selAt S a
      let S := S.set a x.drained
      let y := selAt S b
      let S := S.set b y.drained
      (S.length, S ++ [
        { add := .many (x.add.remaining ++ y.add.remaining)
          maybeAdd := .many (x.maybeAdd.remaining ++ y.maybeAdd.remaining)
          remove := .many (x.remove.remaining ++ y.remove.remaining)
          maybeRemove := .many (x.maybeRemove.remaining ++ y.maybeRemove.remaining)
          rename := .many (x.rename.remaining ++ y.rename.remaining)
          maybeRename := .many (x.maybeRename.remaining ++ y.maybeRename.remaining)
          cache := none }])

/-- the loop of `Select.merge` (select.py:85-86) -/
def mergeList (S : List (Sel W.Obj)) (a : Nat) : List Nat → Nat × List (Sel W.Obj)
  | [] => (a, S)
  | b :: bs => mergeList (mergeAt S a b).2 (mergeAt S a b).1 bs

/-- `Select.merge(*others, **kw)` (select.py:71-89) on addresses -/
def mergeAll (S : List (Sel W.Obj)) (a : Nat) (others : List Nat) (kw : Option (SelectArgs W.Obj)) :
    Except Exc Nat × List (Sel W.Obj) :=
  match others, kw with
  | [], none => (.error .typeError, S)
  | _, none => (.ok (mergeList S a others).1, (mergeList S a others).2)
  | _, some k =>
    let r := mergeList S a others
    let S := r.2 ++ [k.mk']
    (.ok (mergeAt S r.1 r.2.length).1, (mergeAt S r.1 r.2.length).2)

/-- One operation of a program on `Select`s and bound objects. `Select`s are numbered in the order they were made, `Select.empty` is
number 0; exporters and factories likewise. -/
inductive XOp (W : World) (R : Type)
  /-- `Select(**a)` -/
  | newSelect (a : SelectArgs W.Obj)
  /-- `a.merge(*others, **kw)` (select.py:71-89) -/
  | merge (a : Nat) (others : List Nat) (kw : Option (SelectArgs W.Obj))
  /-- `obj.exporter` or `Cls.exporter`: `Exporter.__get__` (select.py:294-300) -/
  | exporter (toClass : Bool)
  /-- `x.select(*others, **kw)` (select.py:330-341) -/
  | select (x : Nat) (others : List Nat) (kw : Option (SelectArgs W.Obj))
  /-- `x.export_with(*args, **kw)` (select.py:343-354) -/
  | exportWith (x : Nat) (args : List W.Obj) (kw : Dict W.Obj)
  /-- `x(*args, **kw)` for an exporter bound to `obj`, `x(obj, *args, **kw)` for one bound to the class -/
  | call (x : Nat) (F : XFun W R) (C : RecClass W) (obj : Carrier W) (args : List W.Obj) (kw : Dict W.Obj)
  /-- `Cls.factory`: `SelectableFactory.__get__` (select.py:178-182) -/
  | factory
  /-- `f.select(*others, **kw)` (select.py:203-213) -/
  | fselect (f : Nat) (others : List Nat) (kw : Option (SelectArgs W.Obj))
  /-- `f(...)`: the factory makes a mapping and applies its select to it (select.py:165-176) -/
  | fcall (f : Nat) (h : Heap W.Obj) (m : MObj)

/-- calling the exporter `x` (select.py:326-328, 357-359); keyword names of the parameters clash -/
def XStore.callX {R : Type} (V : OptView W) (st : XStore W) (x : XBound W) (F : XFun W R) (C : RecClass W) (obj : Carrier W)
    (args : List W.Obj) (kw : Dict W.Obj) (s : LState W) : (Except Exc R × LState W) × XStore W :=
  if clash (if x.toClass then ["self", "instance"] else ["self"]) kw then ((.error .typeError, s), st)
  else
    let r := F.run V C obj x.eargs x.ekw (selAt st.sels x.sel) args kw s
    (r.1, { st with sels := st.sels.set x.sel r.2 })

/-- calling the factory `b` with a function that gives the mapping `m` (select.py:174-175): the mapping passed to the class, or the
exception; and the dicts afterwards -/
def XStore.callF (st : XStore W) (b : FBound) (h : Heap W.Obj) (m : MObj) : (Except Exc MObj × Heap W.Obj) × XStore W :=
  let r := (selAt st.sels b.sel).call h m
  ((r.ret, r.heap), { st with sels := st.sels.set b.sel r.sel })

/-- One step of a program; exceptions are caught by the program, and an operation on an object that does not exist does
nothing. -/
def XOp.step {R : Type} (V : OptView W) (st : XStore W) (s : LState W) : XOp W R → XStore W × LState W
  | .newSelect a => ({ st with sels := st.sels ++ [a.mk'], named := st.named ++ [st.sels.length] }, s)
  | .merge a others kw => match mergeAll st.sels (st.addr a) (others.map st.addr) kw with
    | (.error _, S) => ({ st with sels := S }, s)
    | (.ok a, S) => ({ st with sels := S, named := st.named ++ [a] }, s)
  | .exporter b => ({ st with exporters := st.exporters ++ [⟨b, [], [], 0⟩] }, s)
  | .select x others kw => match st.exporters[x]? with
    | none => (st, s)
    | some b => match mergeAll st.sels b.sel (others.map st.addr) kw with
      | (.error _, S) => ({ st with sels := S }, s)
      | (.ok a, S) => ({ st with sels := S, exporters := st.exporters ++ [{ b with sel := a }] }, s)
  | .exportWith x args kw => match st.exporters[x]? with
    | none => (st, s)
    | some b =>
      if clash ["self"] kw then (st, s)
      else ({ st with exporters := st.exporters ++ [{ b with eargs := b.eargs ++ args, ekw := b.ekw.update kw }] }, s)
  | .call x F C obj args kw => match st.exporters[x]? with
    | none => (st, s)
    | some b => match st.callX V b F C obj args kw s with
      | ((_, s'), st') => (st', s')
  | .factory => ({ st with factories := st.factories ++ [⟨0⟩] }, s)
  | .fselect f others kw => match st.factories[f]? with
    | none => (st, s)
    | some b => match mergeAll st.sels b.sel (others.map st.addr) kw with
      | (.error _, S) => ({ st with sels := S }, s)
      | (.ok a, S) => ({ st with sels := S, factories := st.factories ++ [⟨a⟩] }, s)
  | .fcall f h m => match st.factories[f]? with
    | none => (st, s)
    | some b => ((st.callF b h m).2, s)

/-- a program -/
def XStore.exec {R : Type} (V : OptView W) : List (XOp W R) → XStore W → LState W → XStore W × LState W
  | [], st, s => (st, s)
  | op :: ops, st, s => XStore.exec V ops (op.step V st s).1 (op.step V st s).2

end Records
