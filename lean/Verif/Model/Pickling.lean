import Verif.Model.Copying
/-
`pickle.dumps` and `pickle.loads` of object graphs with records in them: `RecordBase.__getnewargs_ex__` (record.py:428-429) together with
the functions of the standard module `pickle` (protocol 2 and above) for lists, tuples, dicts and objects, and its memo.
`RecordBase.to_pickle` (record.py:628-642) and `from_pickle` (524-566) call these.

Simplifications: objects other than lists, non-empty tuples, dicts with string keys and records are stored and found again as they are
(numbers, strings, the empty tuple, classes, functions); the instructions that push keys, classes and marks are left out, the keys and
classes are arguments of the instructions that use them; the elements of a list or dict are added all at once (`pickle` does that in groups of
1000); the `__dict__` of a record belongs to that record only, and when it is stored for the second time its values are stored anew (these are
all in the memo then); a program that fails leaves nothing behind.
-/
namespace Records
variable {W : World}

/-- the instructions of a pickle -/
inductive POp (W : World) where
  /-- push a number, string, class … -/
  | atom (x : W.Obj)
  /-- push the memo entry (`BINGET`) -/
  | get (k : Nat)
  /-- append the top of the stack to the memo (`MEMOIZE`) -/
  | memoize
  /-- drop objects (`POP`, `POP_MARK`) -/
  | pop (n : Nat)
  | emptyList
  | appends (n : Nat)
  | emptyDict
  | setItems (ks : List String)
  | tuple (n : Nat)
  /-- `cls.__new__(cls, **kwargs)` (`NEWOBJ_EX`) -/
  | newObj (c : W.Cls) (ks : List String)
  /-- update `__dict__` and set the slot `_hash` (`BUILD`) -/
  | build (ks : List String) (hash : Option (Option Int))

/-- the memo of `Pickler` (entries are numbered in order) and the state of user code -/
structure DumpState (W : World) where
  memo : List W.Obj
  st : LState W

/-- `Pickler.memoize` -/
def DumpState.note (σ : DumpState W) (x : W.Obj) : DumpState W := { σ with memo := σ.memo ++ [x] }

/-- the number of the memo entry -/
def DumpState.find (σ : DumpState W) (x : W.Obj) : Option Nat := σ.memo.findIdx? fun a => decide (a = x)

/-- `for x in xs: save(x)` -/
def dumpAll (f : W.Obj → DumpState W → Except Exc (List (POp W)) × DumpState W) :
    List W.Obj → DumpState W → Except Exc (List (POp W)) × DumpState W
  | [], σ => (.ok [], σ)
  | x :: xs, σ => match f x σ with
    | (.error e, σ1) => (.error e, σ1)
    | (.ok p, σ1) => match dumpAll f xs σ1 with
      | (.error e, σ2) => (.error e, σ2)
      | (.ok q, σ2) => (.ok (p ++ q), σ2)

/-- `Pickler.save(x)` with `n` levels of recursion left. A list or dict is put into the memo before its elements are stored, a tuple or
record after its elements or arguments: if it is in the memo by then, it contains itself, and what is on the stack is replaced by the memo
entry (`save_tuple`, `save_reduce`). The keyword arguments of a record are what `__getnewargs_ex__` returns (record.py:428-429). -/
def dump (X : CopyEnv W) (h : W.Obj → Node W) : Nat → W.Obj → DumpState W → Except Exc (List (POp W)) × DumpState W
  | 0, _, σ => (.error .recursionError, σ)
  | n + 1, x, σ =>
    match σ.find x with
    | some k => (.ok [.get k], σ)
    | none => match h x with
      | .atom => (.ok [.atom x], σ)
      | .list xs => match dumpAll (dump X h n) xs (σ.note x) with
        | (.error e, σ1) => (.error e, σ1)
        | (.ok p, σ1) => (.ok ([.emptyList, .memoize] ++ (p ++ [.appends xs.length])), σ1)
      | .dict m => match dumpAll (dump X h n) m.values (σ.note x) with
        | (.error e, σ1) => (.error e, σ1)
        | (.ok p, σ1) => (.ok ([.emptyDict, .memoize] ++ (p ++ [.setItems m.keys])), σ1)
      | .tuple xs => match dumpAll (dump X h n) xs σ with
        | (.error e, σ1) => (.error e, σ1)
        | (.ok p, σ1) => match σ1.find x with
          | some k => (.ok (p ++ [.pop xs.length, .get k]), σ1)
          | none => (.ok (p ++ [.tuple xs.length, .memoize]), σ1.note x)
      | .record i => match toDict (X.cls i.cid) (.ofInst X.env i) {} Sel.empty σ.st with
        | (.error e, t) => (.error e, { σ with st := t })
        | (.ok d, t) => match dumpAll (dump X h n) d.values { σ with st := t } with
          | (.error e, σ1) => (.error e, σ1)
          | (.ok p, σ1) => match σ1.find x with
            | some k => match dumpAll (dump X h n) i.dict.values σ1 with
              | (.error e, σ2) => (.error e, σ2)
              | (.ok q, σ2) => (.ok (p ++ ([.newObj i.cid d.keys, .pop 1, .get k] ++ (q ++ [.build i.dict.keys i.hash]))), σ2)
            | none => match dumpAll (dump X h n) i.dict.values (σ1.note x) with
              | (.error e, σ2) => (.error e, σ2)
              | (.ok q, σ2) => (.ok (p ++ ([.newObj i.cid d.keys, .memoize] ++ (q ++ [.build i.dict.keys i.hash]))), σ2)

/-- `pickle.dumps(x)` -/
def dumps (X : CopyEnv W) (h : W.Obj → Node W) (n : Nat) (x : W.Obj) (t : LState W) : Except Exc (List (POp W)) :=
  (dump X h n x ⟨[], t⟩).1

/-- the process in which the pickle is loaded: its heap, the number of objects allocated so far, the memo and the stack of `Unpickler` (top
first) and the state of user code -/
structure LoadState (W : World) where
  heap : W.Obj → Node W
  next : Nat
  memo : List W.Obj
  stack : List W.Obj
  st : LState W

/-- the heap changes at one object -/
def LoadState.put (s : LoadState W) (x : W.Obj) (nd : Node W) : LoadState W :=
  { s with heap := fun o => if o = x then nd else s.heap o }

/-- a new object is pushed -/
def LoadState.alloc (s : LoadState W) (X : CopyEnv W) (nd : Node W) : LoadState W :=
  { s.put (X.fresh s.next) nd with next := s.next + 1, stack := X.fresh s.next :: s.stack }

/-- the uppermost `n` objects of the stack, in the order in which they were pushed -/
def LoadState.items (s : LoadState W) (n : Nat) : List W.Obj := (s.stack.take n).reverse

/-- the stack without its uppermost `n` objects -/
def LoadState.dropped (s : LoadState W) (n : Nat) : LoadState W := { s with stack := s.stack.drop n }

/-- one instruction (`Unpickler.load_*`); the memo entries and objects that it needs are there in what `dump` stores (an `UnpicklingError`
otherwise) -/
def LoadState.step (X : CopyEnv W) (s : LoadState W) : POp W → Except Exc (LoadState W)
  | .atom x => .ok { s with stack := x :: s.stack }
  | .get k => match s.memo[k]? with
    | none => .error .valueError
    | some y => .ok { s with stack := y :: s.stack }
  | .memoize => match s.stack with
    | [] => .error .valueError
    | y :: _ => .ok { s with memo := s.memo ++ [y] }
  | .pop n => .ok (s.dropped n)
  | .emptyList => .ok (s.alloc X (.list []))
  | .emptyDict => .ok (s.alloc X (.dict []))
  | .appends n => match (s.dropped n).stack with
    | [] => .error .valueError
    | y :: _ => match s.heap y with
      | .list ys => .ok ((s.dropped n).put y (.list (ys ++ s.items n)))
      | _ => .error .attributeError
  | .setItems ks => match (s.dropped ks.length).stack with
    | [] => .error .valueError
    | y :: _ => match s.heap y with
      | .dict m => .ok ((s.dropped ks.length).put y (.dict (m.update (ks.zip (s.items ks.length)))))
      | _ => .error .typeError
  | .tuple n => .ok ((s.dropped n).alloc X (.tuple (s.items n)))
  | .newObj c ks =>
    match newKw (construct X.env (X.cls c) (parseN X.env (X.cls c) X.depth)) (ks.zip (s.items ks.length)) s.st with
    | (.error e, _) => .error e
    | (.ok (.new j), t) => .ok ({ s.dropped ks.length with st := t }.alloc X (.record j))
    | (.ok (.old v), t) => .ok { s.dropped ks.length with st := t, stack := v :: (s.dropped ks.length).stack }
  | .build ks hash => match (s.dropped ks.length).stack with
    | [] => .error .valueError
    | y :: _ => match s.heap y with
      | .record j => .ok ((s.dropped ks.length).put y (.record { j with
          dict := j.dict.update (ks.zip (s.items ks.length))
          hash := match hash with | some v => some v | none => j.hash }))
      | _ => .error .attributeError

/-- a list of instructions -/
def runOps (X : CopyEnv W) : List (POp W) → LoadState W → Except Exc (LoadState W)
  | [], s => .ok s
  | p :: ps, s => match s.step X p with
    | .error e => .error e
    | .ok s1 => runOps X ps s1

/-- `pickle.loads(b)` in a process with this heap and number of objects -/
def loads (X : CopyEnv W) (ops : List (POp W)) (h : W.Obj → Node W) (next : Nat) (t : LState W) : Except Exc (W.Obj × LoadState W) :=
  match runOps X ops ⟨h, next, [], [], t⟩ with
  | .error e => .error e
  | .ok s => match s.stack with
    | [] => .error .valueError
    | y :: _ => .ok (y, s)

end Records
