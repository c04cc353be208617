import Verif.Model.Copying
/-
`==` and `hash` of objects that contain each other: records in records, in lists, tuples and dicts.

`Node` says what an object contains; these definitions say what `==` and `hash` of such an object do, given `==` and `hash` of its parts
(`W.eq`, `H.obj`).
Simplifications: dicts have string keys; nothing but a list equals a list, and so on for tuples, dicts and records.
-/
namespace Records
variable {W : World}

/-- `x is y or x == y`, as the containers of the standard library compare their elements -/
def sameItem (x y : W.Obj) : Bool := decide (x = y) || W.eq x y

/-- comparing lists or tuples -/
def seqEq : List W.Obj → List W.Obj → Bool
  | [], [] => true
  | x :: xs, y :: ys => sameItem x y && seqEq xs ys
  | _, _ => false

/-- comparing dicts: as many entries, and for each entry of the first one the second one has the same -/
def dictEq (m m' : Dict W.Obj) : Bool :=
  decide (m.length = m'.length) && m.all fun kv => match m'.get? kv.1 with
    | some w => sameItem kv.2 w
    | none => false

/-- `a == b`, by what they contain; `none`: neither has parts. Records: `RecordBase.__eq__` (record.py:281-289), which returns False for
objects of another class -/
def nodeEq (E : Env W) (H : Hasher W) (cls : W.Cls → RecClass W) (s : LState W) : Node W → Node W → Option (Except Exc Bool)
  | .atom, .atom => none
  | .list xs, .list ys => some (.ok (seqEq xs ys))
  | .tuple xs, .tuple ys => some (.ok (seqEq xs ys))
  | .dict m, .dict m' => some (.ok (dictEq m m'))
  | .record i, .record j => some (eqInst E H (cls i.cid) i j s).1
  | _, _ => some (.ok false)

/-- `hash(a)`, by what it contains. Records: `RecordBase.__hash__` (record.py:411-420, 139-144) -/
def nodeHash (E : Env W) (H : Hasher W) (cls : W.Cls → RecClass W) (s : LState W) : Node W → Option (Except Exc Int)
  | .atom => none
  | .list _ => some (.error .typeError)
  | .dict _ => some (.error .typeError)
  | .tuple xs => some (hashTuple H xs)
  | .record i => some (hashInst E H (cls i.cid) i s).1

end Records
