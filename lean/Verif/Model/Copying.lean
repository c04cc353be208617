import Verif.Model.Instance
/-
`copy.deepcopy` of object graphs with records in them: `RecordBase.__deepcopy__` (record.py:649-653) together with the functions of the
standard module `copy` for lists, tuples and dicts, and its memo.

The world of `World` has objects by identity; here a heap says what they contain.
Simplifications: objects other than lists, tuples, dicts with string keys and records are returned as they are (numbers, strings,
classes, functions); a copied list or dict gets its elements all at once, after they have been copied (nobody looks at it in between);
the entries of the memo that keep objects alive are left out.
-/
namespace Records
variable {W : World}

/-- what an object contains -/
inductive Node (W : World) where
  | atom
  | list (xs : List W.Obj)
  | tuple (xs : List W.Obj)
  | dict (m : Dict W.Obj)
  | record (i : Inst W)

/-- objects the object refers to -/
def Node.children : Node W → List W.Obj
  | .atom => []
  | .list xs => xs
  | .tuple xs => xs
  | .dict m => m.values
  | .record i => i.dict.values

/-- the heap, the number of objects allocated so far, the memo (latest entry first) and the state of user code -/
structure CState (W : World) where
  heap : W.Obj → Node W
  next : Nat
  memo : List (W.Obj × W.Obj)
  st : LState W

/-- `env` and classes of the program; `fresh k` is the object allocated as number `k`; `depth` is the recursion left for constructors -/
structure CopyEnv (W : World) where
  env : Env W
  cls : W.Cls → RecClass W
  fresh : Nat → W.Obj
  depth : Nat

/-- the heap changes at one object -/
def CState.put (σ : CState W) (x : W.Obj) (nd : Node W) : CState W :=
  { σ with heap := fun o => if o = x then nd else σ.heap o }

/-- a new object -/
def CState.alloc (σ : CState W) (X : CopyEnv W) (nd : Node W) : CState W :=
  { σ.put (X.fresh σ.next) nd with next := σ.next + 1 }

/-- `memo[id(x)] = y` -/
def CState.note (σ : CState W) (x y : W.Obj) : CState W := { σ with memo := (x, y) :: σ.memo }

/-- `[deepcopy(a, memo) for a in x]` -/
def copyAll (f : W.Obj → CState W → Except Exc W.Obj × CState W) :
    List W.Obj → CState W → Except Exc (List W.Obj) × CState W
  | [], σ => (.ok [], σ)
  | x :: xs, σ => match f x σ with
    | (.error e, σ1) => (.error e, σ1)
    | (.ok y, σ1) => match copyAll f xs σ1 with
      | (.error e, σ2) => (.error e, σ2)
      | (.ok ys, σ2) => (.ok (y :: ys), σ2)

/-- `copy.deepcopy(x, memo)` with `n` levels of recursion left; the case of records calls `__deepcopy__` (record.py:649-653), where
`memo or {}` is a new dict if the memo is still empty -/
def deepcopy (X : CopyEnv W) : Nat → W.Obj → CState W → Except Exc W.Obj × CState W
  | 0, _, σ => (.error .recursionError, σ)
  | n + 1, x, σ =>
    match σ.memo.lookup x with
    | some y => (.ok y, σ)
    | none => match σ.heap x with
      | .atom => (.ok x, σ)
      | .list xs =>
        let y := X.fresh σ.next
        match copyAll (deepcopy X n) xs ((σ.alloc X (.list [])).note x y) with
        | (.error e, σ1) => (.error e, σ1)
        | (.ok ys, σ1) => (.ok y, σ1.put y (.list ys))
      | .dict m =>
        let y := X.fresh σ.next
        match copyAll (deepcopy X n) m.values ((σ.alloc X (.dict [])).note x y) with
        | (.error e, σ1) => (.error e, σ1)
        | (.ok ys, σ1) => (.ok y, σ1.put y (.dict (m.keys.zip ys)))
      | .tuple xs => match copyAll (deepcopy X n) xs σ with
        | (.error e, σ1) => (.error e, σ1)
        | (.ok ys, σ1) => match σ1.memo.lookup x with
          | some y => (.ok y, σ1)
          | none =>
            if ys = xs then (.ok x, σ1)
            else (.ok (X.fresh σ1.next), (σ1.alloc X (.tuple ys)).note x (X.fresh σ1.next))
      | .record i => match toDict (X.cls i.cid) (.ofInst X.env i) {} Sel.empty σ.st with
        | (.error e, t) => (.error e, { σ with st := t })
        | (.ok d, t) => match deepcopy X n (X.fresh σ.next) ({ σ with st := t }.alloc X (.dict d)) with
          | (.error e, σ1) => (.error e, { σ1 with memo := if σ.memo = [] then [] else σ1.memo })
          | (.ok q, σ1) => match σ1.heap q with
            | .dict d' =>
              let σ2 := { σ1 with memo := if σ.memo = [] then [] else σ1.memo }
              match fromMapping (fun m => callN X.env (X.cls i.cid) X.depth none m) Sel.empty [d'] [] σ2.st with
              | (.error e, t') => (.error e, { σ2 with st := t' })
              | (.ok (.new j), t') =>
                (.ok (X.fresh σ2.next), ({ σ2 with st := t' }.alloc X (.record j)).note x (X.fresh σ2.next))
              | (.ok (.old v), t') => (.ok v, if v = x then { σ2 with st := t' } else { σ2 with st := t' }.note x v)
            | _ => (.error .typeError, σ1)

end Records
