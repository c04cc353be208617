import Verif.Model.Instance
/-
Model of the operators between a record and an object that is no record (records/record.py:281-289, 664-694): Python's dispatch of
`==`, `!=`, `<`, `<=`, `>`, `>=` over the methods of both operands.

Simplifications: the methods of the other object answer with a `bool` or `NotImplemented`; the class of the other object is no
subclass of the record's class, and no object claims to be one through its `__class__` attribute.
-/
namespace Records
variable {W : World}

/-- an object whose class is no record class: its class, and its methods `__lt__` ... `__ge__`, `__eq__`, `__ne__`, called with a
record; `none` is `NotImplemented` (also if the method is missing) -/
structure Foreign (W : World) where
  cid : W.Cls
  cmp : CmpOp → Inst W → M W (Option Bool)
  eq : Inst W → M W (Option Bool)
  ne : Inst W → M W (Option Bool)

/-- `record.__lt__(other)` etc. for an `other` that is no instance of the record's class (record.py:672-694): `_check_comparable`
(record.py:664-670), then `NotImplemented` -/
def recCmp (C : RecClass W) : M W (Option Bool) := if !C.ordered then M.throw .typeError else M.pure none

/-- `record.__eq__(other)` for an `other` of another type (record.py:282-283): `False`, not `NotImplemented` -/
def recEq : M W (Option Bool) := M.pure (some false)

/-- `record.__ne__(other)`: `object.__ne__`, the negation of `__eq__` (the library does not define `__ne__`) -/
def recNe : M W (Option Bool) := M.bind recEq fun r => M.pure (r.map (!·))

/-- CPython's `do_richcompare`: the methods in the order given until one does not answer `NotImplemented`, then the default -/
def richCompare (first second : M W (Option Bool)) (default : M W Bool) : M W Bool :=
  M.bind first fun r => match r with
    | some b => M.pure b
    | none => M.bind second fun r => match r with
      | some b => M.pure b
      | none => default

/-- `record op other`: the class of `other` is no subclass of the record's class, so that the record is asked first -/
def opLeft (op : CmpOp) (C : RecClass W) (i : Inst W) (x : Foreign W) : M W Bool :=
  richCompare (recCmp C) (x.cmp op.swap i) (M.throw .typeError)

/-- `other op record`: the record is asked first iff its class is a (proper) subclass of the class of `other` -/
def opRight (op : CmpOp) (x : Foreign W) (C : RecClass W) (i : Inst W) : M W Bool :=
  if W.isSub i.cid x.cid then richCompare (recCmp C) (x.cmp op i) (M.throw .typeError)
  else richCompare (x.cmp op i) (recCmp C) (M.throw .typeError)

/-- `record == other`; two different objects, so that the default is `False` -/
def eqLeft (i : Inst W) (x : Foreign W) : M W Bool := richCompare recEq (x.eq i) (M.pure false)

/-- `other == record` -/
def eqRight (x : Foreign W) (i : Inst W) : M W Bool :=
  if W.isSub i.cid x.cid then richCompare recEq (x.eq i) (M.pure false) else richCompare (x.eq i) recEq (M.pure false)

/-- `record != other` -/
def neLeft (i : Inst W) (x : Foreign W) : M W Bool := richCompare recNe (x.ne i) (M.pure true)

/-- `other != record` -/
def neRight (x : Foreign W) (i : Inst W) : M W Bool :=
  if W.isSub i.cid x.cid then richCompare recNe (x.ne i) (M.pure true) else richCompare (x.ne i) recNe (M.pure true)

end Records
