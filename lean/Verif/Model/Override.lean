import Verif.Model.Instance
/-
A class that overrides `to_dict`: the methods of the library that call `self.to_dict` (record.py:269-289, 411-420, 428-429, 649-653).

`D i o` is `i.to_dict` of the class, called with the export arguments `o`: any user code.  Comparisons by order, `copy.copy`,
`from_instance` and `to_json` do not call it (record.py:471-485, 607-625, 644-647, 655-694).
Simplification: the override does not change records, and returns a dict.
-/
namespace Records
variable {W : World}

/-- the method `to_dict` of a class -/
abbrev ToDict (W : World) := Inst W → ExportOpts → M W (Dict W.Obj)

/-- the method of the library (record.py:597-605) -/
def ToDict.lib (E : Env W) (C : RecClass W) : ToDict W := fun i o => toDict C (.ofInst E i) o Sel.empty

/-- `hash(self)` (record.py:411-420) -/
def hashD (H : Hasher W) (D : ToDict W) (C : RecClass W) (i : Inst W) (s : LState W) : Except Exc Int × Inst W × LState W :=
  if !C.frozen then (.error .typeError, i, s)
  else match i.hash with
    | none => (.error .attributeError, i, s)
    | some (some n) => (.ok n, i, s)
    | some none => match D i {} s with
      | (.error e, s') => (.error e, i, s')
      | (.ok d, s') => match hashTuple H d.values with
        | .error e => (.error e, i, s')
        | .ok n => (.ok n, { i with hash := some (some n) }, s')

/-- `a == b` (record.py:281-289) for records of classes that share the override -/
def eqD (E : Env W) (H : Hasher W) (D : ToDict W) (C : RecClass W) (a b : Inst W) (s : LState W) :
    Except Exc Bool × Inst W × Inst W × LState W :=
  if a.cid ≠ b.cid then (.ok false, a, b, s)
  else if C.frozen then
    match hashD H D C a s with
    | (.error e, a', s1) => (.error e, a', b, s1)
    | (.ok m, a', s1) => match hashD H D C b s1 with
      | (.error e, b', s2) => (.error e, a', b', s2)
      | (.ok n, b', s2) => (if m ≠ n then .ok false else eqFields E a b C.fields.keys, a', b', s2)
  else (eqFields E a b C.fields.keys, a, b, s)

/-- `repr(self)`, and `self.__repr__(**kwargs)` with export options (record.py:269-279) -/
def reprD (qual : W.Cls → String) (rep : W.Obj → String) (D : ToDict W) (o : ExportOpts) (i : Inst W) : M W String :=
  M.bind (D i o) fun d =>
    M.pure (qual i.cid ++ "(" ++ ", ".intercalate (d.map fun kv => kv.1 ++ "=" ++ rep kv.2) ++ ")")

/-- `copy.deepcopy(self)` (record.py:649-653) -/
def deepcopyD (E : Env W) (D : ToDict W) (C : RecClass W) (n : Nat) (deep : Dict W.Obj → M W (Dict W.Obj)) (i : Inst W) : M W (Res W) :=
  M.bind (D i {}) fun d => M.bind (deep d) fun d' => fromMapping (fun m => callN E C n none m) Sel.empty [d'] []

/-- pickling (record.py:428-429) -/
def reduceD (D : ToDict W) (i : Inst W) : M W (Pickled W) := M.bind (D i {}) fun d => M.pure ⟨d, i.dict, i.hash⟩

end Records
