import Verif.Model.Copying
/-
`==` of objects that contain each other, with the recursion limit: `RecordBase.__eq__` (records/record.py:281-289) on records whose fields
have records, lists, tuples and dicts in them, with `==` of the standard containers.

Simplifications: dicts have string keys; records are of classes that are not frozen (those of frozen classes compare their hashes first);
`==` of other objects returns; the recursion limit counts comparisons of objects.
-/
namespace Records
variable {W : World}

/-- what comparing two objects comes down to: something known, two elements of containers (identical ones are not compared), the values of
a field of two records, or an exception -/
inductive Ask (W : World) where
  | known (b : Bool)
  | item (x y : W.Obj)
  | field (x y : W.Obj)
  | fail (e : Exc)

/-- the entry `k` of a dict against the other dict -/
def askEntry (m' : Dict W.Obj) (kv : String × W.Obj) : Ask W :=
  match m'.get? kv.1 with
  | none => .known false
  | some w => .item kv.2 w

/-- `getattr(self, name) != getattr(other, name)` (record.py:287) -/
def askField (E : Env W) (i j : Inst W) (k : String) : Ask W :=
  match i.attr E k with
  | .error e => .fail e
  | .ok v => match j.attr E k with
    | .error e => .fail e
    | .ok w => .field v w

/-- the questions asked for `a == b`, in order. Lists and dicts look at their lengths first (`list_richcompare`, `dict_equal`), tuples last
(`tuplerichcompare`); records: record.py:281-289 -/
def asks (E : Env W) (cls : W.Cls → RecClass W) : Node W → Node W → List (Ask W)
  | .list xs, .list ys => if xs.length = ys.length then List.zipWith .item xs ys else [.known false]
  | .tuple xs, .tuple ys => List.zipWith .item xs ys ++ [.known (decide (xs.length = ys.length))]
  | .dict m, .dict m' => if m.length = m'.length then m.map (askEntry m') else [.known false]
  | .record i, .record j => if i.cid = j.cid then (cls i.cid).fields.keys.map (askField E i j) else [.known false]
  | _, _ => [.known false]

/-- the answer to the first question that is not answered True -/
def firstNo : List (Except Exc Bool) → Except Exc Bool
  | [] => .ok true
  | .ok true :: l => firstNo l
  | c :: _ => c

/-- the answer to a question, given `==` of objects -/
def Ask.answer (r : W.Obj → W.Obj → Except Exc Bool) : Ask W → Except Exc Bool
  | .known b => .ok b
  | .item x y => if x = y then .ok true else r x y
  | .field x y => r x y
  | .fail e => .error e

/-- `a == b` with `n` comparisons left until the recursion limit -/
def eqN (E : Env W) (cls : W.Cls → RecClass W) (h : W.Obj → Node W) : Nat → W.Obj → W.Obj → Except Exc Bool
  | 0, _, _ => .error .recursionError
  | n + 1, a, b => match h a, h b with
    | .atom, .atom => .ok (W.eq a b)
    | p, q => firstNo ((asks E cls p q).map (Ask.answer (eqN E cls h n)))

end Records
