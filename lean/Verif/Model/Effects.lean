import Verif.Model.Instance
/-
Exporting, hashing, comparing and printing records whose field values have `==`, `!=`, `hash` and `repr` of their own, which
may raise and may read and change the state of user code (records/record.py:269-289, 300-395, 411-420 and field.py:84-92).
For instance, the truth value of `==` between two numpy arrays raises ValueError.

Here `!=` is not assumed to be the negation of `==`.
Simplification: the methods of field values do not change the records that are compared, exported or printed.
-/
namespace Records
variable {W : World}

/-- the methods of field values: `bool(a == b)`, `bool(a != b)`, `hash(a)`, `repr(a)` -/
structure ValueOps (W : World) where
  eq : W.Obj → W.Obj → M W Bool
  ne : W.Obj → W.Obj → M W Bool
  hash : W.Obj → M W Int
  repr : W.Obj → M W String

/-- values as in the rest of the model: comparing is a pure function, `!=` is the negation of `==` -/
def ValueOps.plain (H : Hasher W) (rep : W.Obj → String) : ValueOps W where
  eq a b := M.pure (W.eq a b)
  ne a b := M.pure (!W.eq a b)
  hash a := if W.hashable a then M.pure (H.obj a) else M.throw .typeError
  repr a := M.pure (rep a)

/-- `RecordField.is_default` on a field that has a default (field.py:84-92): the default is the left operand -/
def Deflt.isDefaultE (V : ValueOps W) (d : Deflt W) (v : W.Obj) : M W Bool :=
  match d with
  | .factory _ => M.pure false
  | .value d => V.eq d v

/-- `export_value` (record.py:341-343) -/
def exportValueE (V : ValueOps W) (o : ExportOpts) (f : XField W) (v : W.Obj) : M W Bool :=
  if f.name ∈ o.whitelist then M.pure true
  else if o.includeDefaults then M.pure true
  else match f.default with
    | none => M.pure true
    | some d => M.bind (d.isDefaultE V v) fun b => M.pure (!b)

/-- the body of the generator `tuples` (record.py:366-384) -/
def exportTuplesE (V : ValueOps W) (obj : Carrier W) (o : ExportOpts) (missingOk : List String) :
    List (XField W) → M W (List (String × W.Obj))
  | [] => M.pure []
  | f :: fs => fun s =>
    match exportField o f with
    | .error e => (.error e, s)
    | .ok false => exportTuplesE V obj o missingOk fs s
    | .ok true =>
      match obj.attr f.name s with
      | (.ok v, s') =>
        M.bind (exportValueE V o f v) (fun b =>
          if b then M.bind (exportTuplesE V obj o missingOk fs) (fun l => M.pure ((f.name, v) :: l))
          else exportTuplesE V obj o missingOk fs) s'
      | (.error e, s') =>
        if e.kind ≠ .attributeError then (.error e, s')
        else if f.name ∉ missingOk then (.error e, s')
        else match o.includeDefaults, f.default with
          | true, some d =>
            M.bind d.make (fun v =>
              M.bind (exportTuplesE V obj o missingOk fs) fun l => M.pure ((f.name, v) :: l)) s'
          | _, _ => exportTuplesE V obj o missingOk fs s'

/-- `RecordBase._to_dict` (record.py:300-395) -/
def toDictE (V : ValueOps W) (C : RecClass W) (obj : Carrier W) (o : ExportOpts) (sel : Sel W.Obj) : M W (Dict W.Obj) :=
  let (missingOk, x) := extraction C sel
  M.bind (M.generator (exportTuplesE V obj o missingOk x.values)) fun l => M.pure (Dict.update [] (sortEntries o.sort l))

/-- `repr(self)`, and `self.__repr__(**kwargs)` with export options (record.py:269-279) -/
def reprInstE (V : ValueOps W) (E : Env W) (qual : W.Cls → String) (C : RecClass W) (o : ExportOpts) (i : Inst W) : M W String :=
  M.bind (toDictE V C (.ofInst E i) o Sel.empty) fun d =>
    M.bind (M.mapM (fun kv => M.bind (V.repr kv.2) fun r => M.pure (kv.1 ++ "=" ++ r)) d) fun parts =>
      M.pure (qual i.cid ++ "(" ++ ", ".intercalate parts ++ ")")

/-- `hash(self)` (record.py:411-420; `__hash__ = None` for non-frozen classes, record.py:139-144); `tup` is the hash of a tuple
from the hashes of its elements -/
def hashInstE (V : ValueOps W) (tup : List Int → Int) (E : Env W) (C : RecClass W) (i : Inst W) (s : LState W) :
    Except Exc Int × Inst W × LState W :=
  if !C.frozen then (.error .typeError, i, s)
  else match i.hash with
    | none => (.error .attributeError, i, s)
    | some (some n) => (.ok n, i, s)
    | some none => match toDictE V C (.ofInst E i) {} Sel.empty s with
      | (.error e, s') => (.error e, i, s')
      | (.ok d, s') => match M.mapM V.hash d.values s' with
        | (.error e, s'') => (.error e, i, s'')
        | (.ok ns, s'') => (.ok (tup ns), { i with hash := some (some (tup ns)) }, s'')

/-- the loop of `__eq__` (record.py:286-288) -/
def eqFieldsE (V : ValueOps W) (E : Env W) (a b : Inst W) : List String → M W Bool
  | [] => M.pure true
  | k :: ks => M.bind (M.ofExcept (a.attr E k)) fun v => M.bind (M.ofExcept (b.attr E k)) fun w =>
      M.bind (V.ne v w) fun r => if r then M.pure false else eqFieldsE V E a b ks

/-- `a == b` for record instances (record.py:281-289): answer, `a` and `b` afterwards -/
def eqInstE (V : ValueOps W) (tup : List Int → Int) (E : Env W) (C : RecClass W) (a b : Inst W) (s : LState W) :
    Except Exc Bool × Inst W × Inst W × LState W :=
  if a.cid ≠ b.cid then (.ok false, a, b, s)
  else if C.frozen then
    match hashInstE V tup E C a s with
    | (.error e, a', s1) => (.error e, a', b, s1)
    | (.ok m, a', s1) => match hashInstE V tup E C b s1 with
      | (.error e, b', s2) => (.error e, a', b', s2)
      | (.ok n, b', s2) =>
        if m ≠ n then (.ok false, a', b', s2)
        else match eqFieldsE V E a b C.fields.keys s2 with
          | (r, s3) => (r, a', b', s3)
  else match eqFieldsE V E a b C.fields.keys s with
    | (r, s') => (r, a, b, s')

/-- comparison of two Python lists with operator `op`: identical elements are skipped without asking, others are asked whether
they are equal; the first pair that is not is compared with `op` (record.py:664-694) -/
def listCmpE (V : ValueOps W) (O : CmpOp → W.Obj → W.Obj → M W Bool) (op : CmpOp) : List W.Obj → List W.Obj → M W Bool
  | a :: as, b :: bs =>
    if a = b then listCmpE V O op as bs
    else M.bind (V.eq a b) fun r => if r then listCmpE V O op as bs else O op a b
  | as, bs => M.pure (op.nat as.length bs.length)

/-- `a < b` etc. for two instances of one class `C` (record.py:655-694) -/
def compareE (V : ValueOps W) (O : CmpOp → W.Obj → W.Obj → M W Bool) (E : Env W) (op : CmpOp) (C : RecClass W) (a b : Inst W) :
    M W Bool :=
  if !C.ordered then M.throw .typeError
  else M.bind (M.ofExcept (orderingKey E C a)) fun ka => M.bind (M.ofExcept (orderingKey E C b)) fun kb => listCmpE V O op ka kb

end Records
