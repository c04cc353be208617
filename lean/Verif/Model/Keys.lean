import Verif.Model.Instance
/-
Records as keys of a dict or members of a set: CPython's dict asks a key for its hash (record.py:411-420), passes over the entries
with another stored hash, and compares the remaining ones with the key - by identity, then with `stored == key`
(record.py:281-289).

Records live at addresses `R` (object identity); hashing and comparing write their `_hash` slots.  `cls r` is `type(r)`.
Simplification: the entries are visited in insertion order, not in the order of the hash table; the dict is not changed while it
compares keys.
-/
namespace Records
variable {W : World} {R V : Type} [DecidableEq R]

/-- the records of a program, by address -/
abbrev Mem (W : World) (R : Type) := R → Inst W

/-- the record at an address is changed -/
def Mem.put (m : Mem W R) (r : R) (i : Inst W) : Mem W R := fun r' => if r' = r then i else m r'

/-- an entry of a dict: the hash the key had when it was inserted, the key, the value -/
structure Entry (R V : Type) where
  hash : Int
  key : R
  val : V

/-- `hash(r)` (record.py:411-420) -/
def memHash (E : Env W) (H : Hasher W) (cls : R → RecClass W) (r : R) (m : Mem W R) (s : LState W) :
    Except Exc Int × Mem W R × LState W :=
  match hashInst E H (cls r) (m r) s with
  | (x, i, s') => (x, m.put r i, s')

/-- `a == b` for records at different addresses (record.py:281-289) -/
def memEq (E : Env W) (H : Hasher W) (cls : R → RecClass W) (a b : R) (m : Mem W R) (s : LState W) :
    Except Exc Bool × Mem W R × LState W :=
  match eqInst E H (cls a) (m a) (m b) s with
  | (x, i, j, s') => (x, (m.put a i).put b j, s')

/-- the search for the entry of a key with hash `h`: the entries before it, the entry, the entries after it -/
def findKey (E : Env W) (H : Hasher W) (cls : R → RecClass W) (r : R) (h : Int) :
    List (Entry R V) → List (Entry R V) → Mem W R → LState W →
      Except Exc (Option (List (Entry R V) × Entry R V × List (Entry R V))) × Mem W R × LState W
  | _, [], m, s => (.ok none, m, s)
  | pre, e :: es, m, s =>
    if e.hash ≠ h then findKey E H cls r h (pre ++ [e]) es m s
    else if e.key = r then (.ok (some (pre, e, es)), m, s)
    else match memEq E H cls e.key r m s with
      | (.error x, m', s') => (.error x, m', s')
      | (.ok true, m', s') => (.ok (some (pre, e, es)), m', s')
      | (.ok false, m', s') => findKey E H cls r h (pre ++ [e]) es m' s'

/-- What a program does with a dict `d` and records: `d[r] = v` (for a set: `d.add(r)`), `d.get(r)` (`r in d`), `d.pop(r, None)`
(`d.discard(r)`), `len(d)`, and anything else with a record. -/
inductive Act (W : World) (R V : Type)
  | put (r : R) (v : V)
  | get (r : R)
  | pop (r : R)
  | len
  | op (r : R) (o : Op W)

/-- what such a step answers -/
inductive Ans (V : Type)
  | none
  | found (v : Option V)
  | size (n : Nat)

/-- the memory of the program: the dict, the records, the user state -/
structure KState (W : World) (R V : Type) where
  dict : List (Entry R V)
  mem : Mem W R
  st : LState W

/-- look up the key, then go on with the hash and what was found -/
def withKey (E : Env W) (H : Hasher W) (cls : R → RecClass W) (r : R) (q : KState W R V)
    (k : Int → Option (List (Entry R V) × Entry R V × List (Entry R V)) → List (Entry R V) × Ans V) :
    Except Exc (Ans V) × KState W R V :=
  match memHash E H cls r q.mem q.st with
  | (.error e, m, s) => (.error e, ⟨q.dict, m, s⟩)
  | (.ok h, m, s) => match findKey E H cls r h [] q.dict m s with
    | (.error e, m', s') => (.error e, ⟨q.dict, m', s'⟩)
    | (.ok x, m', s') => (.ok (k h x).2, ⟨(k h x).1, m', s'⟩)

/-- what a search found: the entries before it, the entry, the entries after it -/
abbrev Found (R V : Type) := Option (List (Entry R V) × Entry R V × List (Entry R V))

/-- `d[r] = v`: an entry that is there keeps its key -/
def putFound (d : List (Entry R V)) (r : R) (v : V) (h : Int) : Found R V → List (Entry R V) × Ans V
  | some (pre, e, post) => (pre ++ { e with val := v } :: post, .none)
  | none => (d ++ [⟨h, r, v⟩], .none)

/-- `d.get(r)` -/
def getFound (d : List (Entry R V)) (_ : Int) (x : Found R V) : List (Entry R V) × Ans V := (d, .found (x.map (·.2.1.val)))

/-- `d.pop(r, None)` -/
def popFound (d : List (Entry R V)) (_ : Int) : Found R V → List (Entry R V) × Ans V
  | some (pre, e, post) => (pre ++ post, .found (some e.val))
  | none => (d, .found none)

/-- one step -/
def Act.run (E : Env W) (H : Hasher W) (cls : R → RecClass W) (q : KState W R V) : Act W R V → Except Exc (Ans V) × KState W R V
  | .put r v => withKey E H cls r q (putFound q.dict r v)
  | .get r => withKey E H cls r q (getFound q.dict)
  | .pop r => withKey E H cls r q (popFound q.dict)
  | .len => (.ok (.size q.dict.length), q)
  | .op r o => match o.run E H (cls r) (q.mem r) q.st with
    | (x, i, s) => (x.map fun _ => .none, ⟨q.dict, q.mem.put r i, s⟩)

/-- a program: the answers, and the memory afterwards; exceptions are caught by the caller -/
def runActs (E : Env W) (H : Hasher W) (cls : R → RecClass W) :
    List (Act W R V) → KState W R V → List (Except Exc (Ans V)) × KState W R V
  | [], q => ([], q)
  | a :: as, q => match a.run E H cls q with
    | (x, q') => match runActs E H cls as q' with
      | (xs, q'') => (x :: xs, q'')

end Records
