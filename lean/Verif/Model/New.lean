import Verif.Model.Export
/-
Model of record construction: `RecordBase.__new__`, `__init__`, `parse`, and the factories `from_mapping`,
`from_instance`, `from_json` (records/record.py:168-267, 431-505, 568-594; records/select.py:165-176, 216-257).

Construction, `parse` and the factories call each other.  `construct` takes the constructor's `parse` as a parameter, `parse` takes the
call `cls(**mapping)` as a parameter, and `callN` ties the knot with the remaining recursion depth.
-/
namespace Records
variable {W : World}

/-- `x is not None` for a parse result (record.py:197, 217, 249) -/
def Res.notNone : Res W → Option (Res W)
  | .old v => if W.isNone v then none else some (.old v)
  | .new i => some (.new i)

/-- `bool(x)` (record.py:240, 243); `C` is the class whose construction is running -/
def Res.truthy (C : RecClass W) : Res W → Bool
  | .old v => W.truthy v
  | .new i => C.truthy i

/-- `isinstance(x, cls)` -/
def Res.isInst (c : W.Cls) : Res W → Bool
  | .old v => W.isInstance v c
  | .new i => W.isSub i.cid c

/-- the error raised when the filler of field `k` raised `e` (record.py:219-226): an exception of the same class if the class
can be called with one string, ValueError if that raises TypeError.  The built-in classes that the model names accept
one string. -/
def rewrapErr (E : Env W) (e : Exc) (k : String) : Exc :=
  match e.kind with
  | .user n => match E.rewrap n with
    | .ok => ⟨.user n, some k⟩
    | .typeError => ⟨.valueError, some k⟩
    | .raises e' => if e'.isTypeError then ⟨.valueError, some k⟩ else e'
  | kind => ⟨kind, some k⟩

/-- the loop that fills the arguments (record.py:212-226). Result: the values, or the standing-by parse result that is
returned instead (`inl`). -/
def fillLoop (E : Env W) (fields : Dict (Field W)) (standby : Option (Res W)) :
    Dict W.Obj → Dict W.Obj → M W (Res W ⊕ Dict W.Obj)
  | [], values => M.pure (.inr values)
  | (k, v) :: kw, values => fun s =>
    match fields.get? k with
    | none => (.error .keyError, s)
    | some f => match f.filler.call v s with
      | (.ok w, s') => fillLoop E fields standby kw (values.set k w) s'
      | (.error e, s') =>
        if !e.isException then (.error e, s')
        else match standby with
          | some r => (.ok (.inl r), s')
          | none => (.error (rewrapErr E e k), s')

/-- the loop that makes the defaults (record.py:230-231) -/
def defaultLoop (fields : Dict (Field W)) : List String → Dict W.Obj → M W (Dict W.Obj)
  | [], values => M.pure values
  | k :: ks, values =>
    match (fields.get? k).bind (·.default) with
    | none => M.throw .keyError
    | some d => M.bind d.make fun v => defaultLoop fields ks (values.set k v)

/-- `super().__new__(cls)`, setting `__dict__` and `_hash` (record.py:233-237) -/
def mkInst (C : RecClass W) (values : Dict W.Obj) : Inst W :=
  { cid := C.cid, dict := Dict.update [] values, hash := if C.frozen then some none else none }

/-- `post_new` and the decisions after it (record.py:239-252) -/
def finishNew (C : RecClass W) (standby : Option (Res W)) (i : Inst W) : M W (Res W) := fun s =>
  match C.postNew i s with
  | (.ok (i', r), s') =>
    -- record.py:240: `self = self.post_new() or self`
    let self := match r with
      | none => Res.new i'
      | some r => if r.truthy C then r else Res.new i'
    match standby with
    | some _ => (.error .typeError, s')
    | none => (.ok self, s')
  | (.error e, s') =>
    if !e.isException then (.error e, s')
    else match standby with
      | some r => if r.truthy C then (.ok r, s') else (.error e, s')
      | none => (.error e, s')

/-- the part of `__new__` after the positional argument was dealt with (record.py:207-252) -/
def newFields (E : Env W) (C : RecClass W) (standby : Option (Res W)) (kw : Dict W.Obj) : M W (Res W) :=
  if kw.keys.any fun k => !C.fields.has k then M.throw .typeError
  else M.bind (fillLoop E C.fields standby kw []) fun r =>
    match r with
    | .inl p => M.pure p
    | .inr values =>
      if C.required.any fun k => !kw.has k then M.throw .typeError
      else M.bind (defaultLoop C.fields (E.setOrder (C.optional.filter fun k => !kw.has k)) values) fun values =>
        finishNew C standby (mkInst C values)

/-- the attempt to parse the positional argument (record.py:187-193) -/
def tryParse (C : RecClass W) (parse : W.Obj → M W (Res W)) (a : W.Obj) (kw : Dict W.Obj) : M W (Option (Res W)) :=
  if kw.isEmpty && C.unary then fun s =>
    match parse a s with
    | (.ok r, s') => (.ok r.notNone, s')
    | (.error e, s') =>
      if e.kind = .parseFailure ∧ C.required.length = 1 then (.ok none, s') else (.error e, s')
  else M.pure none

/-- `RecordBase.__new__` (record.py:168-252) -/
def construct (E : Env W) (C : RecClass W) (parse : W.Obj → M W (Res W)) (arg : Option W.Obj) (kw : Dict W.Obj) :
    M W (Res W) :=
  match arg with
  | none => newFields E C none kw
  | some a => M.bind (tryParse C parse a kw) fun standby =>
    match C.required with
    | [key] => if kw.has key then M.throw .typeError else newFields E C standby (kw.set key a)
    | _ => match standby with
      | some r => M.pure r
      | none => M.throw .typeError

/-- `C(*args, **kwargs)` with at most one positional argument: parameter binding of `__new__(cls, arg=NO_ARG, **kwargs)`, then
of `__init__(self, arg=NO_ARG, **kwargs)` if the result is an instance (record.py:168, 265-267; `type.__call__`) -/
def callCls (C : RecClass W) (new : Option W.Obj → Dict W.Obj → M W (Res W)) (arg : Option W.Obj) (kw : Dict W.Obj) :
    M W (Res W) :=
  if kw.has "cls" then M.throw .typeError
  else match arg, kw.get? "arg" with
    | some _, some _ => M.throw .typeError
    | none, some a => M.bind (new (some a) (kw.erase "arg")) init
    | a, none => M.bind (new a kw) init
where
  /-- binding the parameters of `__init__` -/
  init (r : Res W) : M W (Res W) := if r.isInst C.cid && kw.has "self" then M.throw .typeError else M.pure r

/-- `select(mapping)` on a dict of our own (select.py:103-140) -/
def Sel.applyTo {V : Type} (sel : Sel V) (m : Dict V) : Except Exc (Dict V) :=
  if !sel.truth.1 then .ok m
  else match (sel.truth.2.edit m).err with
    | some e => .error e
    | none => .ok (sel.truth.2.edit m).dict

/-- `select(mapping)` followed by `cls(**mapping)` (select.py:175-176) -/
def buildFrom (call : Dict W.Obj → M W (Res W)) (sel : Sel W.Obj) (m : Dict W.Obj) : M W (Res W) :=
  match sel.applyTo m with
  | .error e => M.throw e
  | .ok m' => call m'

/-- keyword names that collide with a parameter of the call chain `Bound.__call__(self, ...)`, `func(cls, ...)` -/
def clash (names : List String) (kw : Dict W.Obj) : Bool := names.any fun n => kw.has n

/-- `from_mapping` (record.py:431-449) through `SelectableFactory.run` (select.py:165-176); `call` is `cls(**mapping)` -/
def fromMapping (call : Dict W.Obj → M W (Res W)) (sel : Sel W.Obj) (maps : List (Dict W.Obj)) (kw : Dict W.Obj) :
    M W (Res W) :=
  if clash ["self", "cls"] kw then M.throw .typeError
  else buildFrom call sel (chainItems (maps ++ [kw]))

/-- `from_instance` (record.py:451-485) through `SelectableShortcutFactory.run` and `SpecializedSelectableFactory.run`
(select.py:216-220, 248-253). Result `none`: the object `v` itself is returned. -/
def fromInstance (C : RecClass W) (call : Dict W.Obj → M W (Res W)) (sel : Sel W.Obj) (v : Carrier W)
    (maps : List (Dict W.Obj)) (kw : Dict W.Obj) : M W (Option (Res W)) :=
  if clash ["self", "cls", "v", "_select"] kw then M.throw .typeError
  else if !sel.truth.1 && C.frozen && maps.isEmpty && kw.isEmpty && v.isInst C.cid then M.pure none
  else M.bind (toDict C v {} sel) fun d =>
    match maps with
    | [] => M.bind (buildFrom call sel (d.update kw)) fun r => M.pure (some r)
    | [m] => M.bind (buildFrom call sel ((d.update m).update kw)) fun r => M.pure (some r)
    | _ => M.throw .typeError

/-- `from_json` (record.py:487-505) through `SelectableFactory.run` -/
def fromJson (E : Env W) (call : Dict W.Obj → M W (Res W)) (sel : Sel W.Obj) (v : W.Obj) (kw : Dict W.Obj) : M W (Res W) :=
  if clash ["self", "cls", "v"] kw then M.throw .typeError
  else M.bind (E.jsonLoads v kw) fun j =>
    M.bind (if sel.truth.1 then E.dictView j else E.starView j) fun m => buildFrom call sel m

/-- calling one registered parser (record.py:582-584) -/
def Parser.run (E : Env W) (C : RecClass W) (call : Dict W.Obj → M W (Res W)) (v : W.Obj) : Parser W → M W (Res W)
  | .fromMapping => M.bind (E.chainView v) fun m => Records.fromMapping call Sel.empty [m] []
  | .fromInstance =>
    M.bind (Records.fromInstance C call Sel.empty (Carrier.ofObj E v) [] []) fun r => M.pure (r.getD (.old v))
  | .fromJson => Records.fromJson E call Sel.empty v []
  | .user f => f v

/-- the loop of `parse` (record.py:581-588) -/
def parseLoop (E : Env W) (C : RecClass W) (call : Dict W.Obj → M W (Res W)) (v : W.Obj) :
    List (Parser W) → List (Res W) → M W (List (Res W))
  | [], succ => M.pure succ
  | p :: ps, succ => fun s =>
    match p.run E C call v s with
    | (.ok r, s') => parseLoop E C call v ps (succ ++ [r]) s'
    | (.error e, s') => if e.isException then parseLoop E C call v ps succ s' else (.error e, s')

/-- `RecordBase.parse` (record.py:568-594) -/
def parseWith (E : Env W) (C : RecClass W) (call : Dict W.Obj → M W (Res W)) (v : W.Obj) : M W (Res W) :=
  M.bind (parseLoop E C call v C.parsers []) fun succ =>
    match succ with
    | [] => M.throw .parseFailure
    | [r] => M.pure r
    | _ => M.throw .typeError

/-- `C(*args, **kwargs)` with `n` levels of recursion left (RecursionError below) -/
def callN (E : Env W) (C : RecClass W) : Nat → Option W.Obj → Dict W.Obj → M W (Res W)
  | 0 => fun _ _ => M.throw .recursionError
  | n + 1 => callCls C (construct E C (parseWith E C fun m => callN E C n none m))

/-- `C.parse(v)` with `n` levels of recursion left -/
def parseN (E : Env W) (C : RecClass W) (n : Nat) (v : W.Obj) : M W (Res W) :=
  parseWith E C (fun m => callN E C n none m) v

/-- `C.from_pickle(b)` after unpickling (record.py:541-544, 563-566): an object that is no instance is parsed -/
def fromPickleN (E : Env W) (C : RecClass W) (n : Nat) (loads : M W W.Obj) : M W (Res W) :=
  M.bind loads fun v => if W.isInstance v C.cid then M.pure (.old v) else parseN E C n v

end Records
