import Verif.Model.New
/-
Model of what record instances do after construction: hashing, equality, attribute assignment and deletion, ordering, `repr`,
copying and pickling (records/record.py:139-144, 269-289, 411-429, 607-694).

Hashing and comparing change the slot `_hash`, also when they raise, so these functions return the instances as they are
afterwards.  `C` is always `type(self)`.
Simplifications: the class does not override the methods modelled here; `hash`, `<` and the like of field values are pure
functions; `!=` on field values is the negation of `==`; if two operands are one object, the functions are applied to two
equal copies.
-/
namespace Records
variable {W : World}

/-- `hash` of objects and of tuples (given the hashes of their elements), in one process -/
structure Hasher (W : World) where
  obj : W.Obj → Int
  tuple : List Int → Int

/-- `hash(tuple(vs))`: TypeError if an element is unhashable -/
def hashTuple (H : Hasher W) (vs : List W.Obj) : Except Exc Int :=
  if vs.all W.hashable then .ok (H.tuple (vs.map H.obj)) else .error .typeError

/-- `hash(self)` (record.py:411-420; `__hash__ = None` for non-frozen classes, record.py:139-144) -/
def hashInst (E : Env W) (H : Hasher W) (C : RecClass W) (i : Inst W) (s : LState W) : Except Exc Int × Inst W × LState W :=
  if !C.frozen then (.error .typeError, i, s)
  else match i.hash with
    | none => (.error .attributeError, i, s)
    | some (some n) => (.ok n, i, s)
    | some none => match toDict C (.ofInst E i) {} Sel.empty s with
      | (.error e, s') => (.error e, i, s')
      | (.ok d, s') => match hashTuple H d.values with
        | .error e => (.error e, i, s')
        | .ok n => (.ok n, { i with hash := some (some n) }, s')

/-- the loop of `__eq__` (record.py:286-288) -/
def eqFields (E : Env W) (a b : Inst W) : List String → Except Exc Bool
  | [] => .ok true
  | k :: ks => match a.attr E k with
    | .error e => .error e
    | .ok v => match b.attr E k with
      | .error e => .error e
      | .ok w => if W.eq v w then eqFields E a b ks else .ok false

/-- `a == b` for record instances (record.py:281-289): answer, `a` and `b` afterwards -/
def eqInst (E : Env W) (H : Hasher W) (C : RecClass W) (a b : Inst W) (s : LState W) :
    Except Exc Bool × Inst W × Inst W × LState W :=
  if a.cid ≠ b.cid then (.ok false, a, b, s)
  else if C.frozen then
    match hashInst E H C a s with
    | (.error e, a', s1) => (.error e, a', b, s1)
    | (.ok m, a', s1) => match hashInst E H C b s1 with
      | (.error e, b', s2) => (.error e, a', b', s2)
      | (.ok n, b', s2) => (if m ≠ n then .ok false else eqFields E a b C.fields.keys, a', b', s2)
  else (eqFields E a b C.fields.keys, a, b, s)

/-- `setattr(self, k, v)`, `k` not `_hash`: record.py:422-426 for frozen classes, else `object.__setattr__` -/
def setInst (C : RecClass W) (i : Inst W) (k : String) (v : W.Obj) : Except Exc Unit × Inst W :=
  if C.frozen then (.error .typeError, i) else (.ok (), { i with dict := i.dict.set k v })

/-- `delattr(self, k)`, `k` not `_hash`: `object.__delattr__`, the library does not override it -/
def delInst (i : Inst W) (k : String) : Except Exc Unit × Inst W :=
  if i.dict.has k then (.ok (), { i with dict := i.dict.erase k }) else (.error .attributeError, i)

/-- What can be done with a record `r`: assignment, deletion, `hash(r)`, `r == other`, `other == r`, `r.to_dict(...)`; and the
private slot: `r._hash = h` (only `None` and numbers are modelled). -/
inductive Op (W : World)
  | set (k : String) (v : W.Obj)
  | del (k : String)
  | hash
  | eq (other : Inst W)
  | eqBy (other : Inst W)
  | export (o : ExportOpts)
  | setHash (h : Option Int)

/-- one operation: did it raise, and the record afterwards -/
def Op.run (E : Env W) (H : Hasher W) (C : RecClass W) (i : Inst W) (s : LState W) : Op W → Except Exc Unit × Inst W × LState W
  | .set k v => ((setInst C i k v).1, (setInst C i k v).2, s)
  | .del k => ((delInst i k).1, (delInst i k).2, s)
  | .hash => match hashInst E H C i s with
    | (r, i', s') => (r.map fun _ => (), i', s')
  | .eq b => match eqInst E H C i b s with
    | (r, i', _, s') => (r.map fun _ => (), i', s')
  | .eqBy b => match eqInst E H C b i s with
    | (r, _, i', s') => (r.map fun _ => (), i', s')
  | .export o => match toDict C (.ofInst E i) o Sel.empty s with
    | (r, s') => (r.map fun _ => (), i, s')
  | .setHash h => (.ok (), { i with hash := some h }, s)

/-- the record after a history of operations; exceptions are caught by the caller -/
def history (E : Env W) (H : Hasher W) (C : RecClass W) : List (Op W) → Inst W → LState W → Inst W × LState W
  | [], i, s => (i, s)
  | op :: ops, i, s => history E H C ops (op.run E H C i s).2.1 (op.run E H C i s).2.2

/-! ### ordering -/

inductive CmpOp
  | lt | le | gt | ge
  deriving DecidableEq, Repr

/-- the reflected operator -/
def CmpOp.swap : CmpOp → CmpOp
  | .lt => .gt
  | .le => .ge
  | .gt => .lt
  | .ge => .le

/-- the operator on lengths -/
def CmpOp.nat : CmpOp → Nat → Nat → Bool
  | .lt, a, b => decide (a < b)
  | .le, a, b => decide (a ≤ b)
  | .gt, a, b => decide (b < a)
  | .ge, a, b => decide (b ≤ a)

/-- comparison of field values with `<`, `<=`, `>`, `>=` -/
abbrev ObjCmp (W : World) := CmpOp → W.Obj → W.Obj → Except Exc Bool

/-- comparison of two Python lists: the first pair that is neither identical nor equal decides, else the lengths -/
def listCmp (O : ObjCmp W) (op : CmpOp) : List W.Obj → List W.Obj → Except Exc Bool
  | a :: as, b :: bs => if a = b ∨ W.eq a b = true then listCmp O op as bs else O op a b
  | as, bs => .ok (op.nat as.length bs.length)

/-- `getattr` for each name, in order -/
def attrs (E : Env W) (i : Inst W) : List String → Except Exc (List W.Obj)
  | [] => .ok []
  | k :: ks => match i.attr E k with
    | .error e => .error e
    | .ok v => match attrs E i ks with
      | .error e => .error e
      | .ok vs => .ok (v :: vs)

/-- `self.__ordering_key()` (record.py:655-662) -/
def orderingKey (E : Env W) (C : RecClass W) (i : Inst W) : Except Exc (List W.Obj) :=
  attrs E i (Dict.keys (C.fields.filter fun kf => decide (excludeTag ∉ kf.2.tags)))

/-- the methods `__lt__`, `__le__`, `__gt__`, `__ge__` (record.py:664-694); `none`: `NotImplemented` -/
def cmpMethod (E : Env W) (O : ObjCmp W) (op : CmpOp) (Ca : RecClass W) (a : Inst W) (Cb : RecClass W) (b : Inst W) :
    Except Exc (Option Bool) :=
  if !Ca.ordered then .error .typeError
  else if !W.isSub b.cid a.cid then .ok none
  else match orderingKey E Ca a with
    | .error e => .error e
    | .ok ka => match orderingKey E Cb b with
      | .error e => .error e
      | .ok kb => (listCmp O op ka kb).map some

/-- the operators `a < b` etc.: Python tries the reflected method of the right operand first if its class is a proper subclass;
TypeError if both return `NotImplemented` -/
def compare (E : Env W) (O : ObjCmp W) (op : CmpOp) (Ca : RecClass W) (a : Inst W) (Cb : RecClass W) (b : Inst W) :
    Except Exc Bool :=
  let fwd := cmpMethod E O op Ca a Cb b
  let bwd := cmpMethod E O op.swap Cb b Ca a
  if a.cid ≠ b.cid ∧ W.isSub b.cid a.cid = true then orElse bwd fwd else orElse fwd bwd
where
  /-- the first answer that is not `NotImplemented` -/
  orElse (x y : Except Exc (Option Bool)) : Except Exc Bool :=
    match x with
    | .error e => .error e
    | .ok (some r) => .ok r
    | .ok none => match y with
      | .error e => .error e
      | .ok (some r) => .ok r
      | .ok none => .error .typeError

/-! ### repr, JSON, copying, pickling -/

/-- `repr(self)`, and `self.__repr__(**kwargs)` with export options (record.py:269-279); `qual` is `__qualname__`, `rep` is `repr` -/
def reprInst (E : Env W) (qual : W.Cls → String) (rep : W.Obj → String) (C : RecClass W) (o : ExportOpts) (i : Inst W) :
    M W String :=
  M.bind (toDict C (.ofInst E i) o Sel.empty) fun d =>
    M.pure (qual i.cid ++ "(" ++ ", ".intercalate (d.map fun kv => kv.1 ++ "=" ++ rep kv.2) ++ ")")

/-- `self.to_json.export_with(...)()` (record.py:607-625) through `Exporter.run`; `dumps` is `json.dumps` on the exported dict -/
def toJson (E : Env W) (dumps : Dict W.Obj → M W W.Obj) (C : RecClass W) (o : ExportOpts) (i : Inst W) : M W W.Obj :=
  M.bind (toDict C (.ofInst E i) o Sel.empty) dumps

/-- `copy.copy(self)` (record.py:644-647); `none`: the record itself -/
def copyInst (E : Env W) (C : RecClass W) (n : Nat) (i : Inst W) : M W (Option (Res W)) :=
  if C.frozen then M.pure none
  else fromInstance C (fun m => callN E C n none m) Sel.empty (.ofInst E i) [] []

/-- `copy.deepcopy(self)` (record.py:649-653); `deep` is `deepcopy` on the exported dict -/
def deepcopyInst (E : Env W) (C : RecClass W) (n : Nat) (deep : Dict W.Obj → M W (Dict W.Obj)) (i : Inst W) : M W (Res W) :=
  M.bind (toDict C (.ofInst E i) {} Sel.empty) fun d =>
    M.bind (deep d) fun d' => fromMapping (fun m => callN E C n none m) Sel.empty [d'] []

/-- What pickling (protocol 2 and above) stores of a record: the keyword arguments of `__getnewargs_ex__` (record.py:428-429), the
`__dict__`, and the slot `_hash` if it is set (`object.__reduce_ex__`) -/
structure Pickled (W : World) where
  kwargs : Dict W.Obj
  state : Dict W.Obj
  hash : Option (Option Int)

/-- pickling -/
def reduceInst (E : Env W) (C : RecClass W) (i : Inst W) : M W (Pickled W) :=
  M.bind (toDict C (.ofInst E i) {} Sel.empty) fun d => M.pure ⟨d, i.dict, i.hash⟩

/-- `cls.__new__(cls, **kw)`: parameter binding of `__new__(cls, arg=NO_ARG, **kwargs)` (record.py:168) -/
def newKw (new : Option W.Obj → Dict W.Obj → M W (Res W)) (kw : Dict W.Obj) : M W (Res W) :=
  if kw.has "cls" then M.throw .typeError
  else match kw.get? "arg" with
    | some a => new (some a) (kw.erase "arg")
    | none => new none kw

/-- the values of a dict, mapped -/
def mapValues {V V' : Type} (f : V → V') (d : Dict V) : Dict V' := d.map fun kv => (kv.1, f kv.2)

/-- unpickling: `cls.__new__(cls, **kwargs)`, then `__dict__` is updated and the slot is set (`pickle`'s BUILD).
`codec v` is what `v` becomes by pickling and unpickling it. Simplification: if `post_new` replaces the instance by an object
that existed before, that object is not changed in the model. -/
def unpickleInst (E : Env W) (C : RecClass W) (n : Nat) (codec : W.Obj → W.Obj) (p : Pickled W) : M W (Res W) :=
  M.bind (newKw (construct E C (parseN E C n)) (mapValues codec p.kwargs)) fun r =>
    match r with
    | .old v => M.pure (.old v)
    | .new j => M.pure (.new { j with
        dict := j.dict.update (mapValues codec p.state)
        hash := match p.hash with | some h => some h | none => j.hash })

end Records
