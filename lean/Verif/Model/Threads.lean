import Verif.Model.Keys
import Verif.Model.OneShot
/-
Records and Selects that several threads use at the same time (records/record.py:281-289, 300-395, 411-426; records/select.py:91-140).

A thread is given by its accesses to what it shares with the others: attributes of records, the slot `_hash`, the cached truth value
`_bool` of a Select, and the state of user code.  Between two accesses any other thread may run.
Simplifications: reading or writing an attribute is a single step, and so is a call of a default factory; `==` and `hash` of field
values do not access the records; the Selects are made from re-iterable arguments, so that every loop has an iterator of its own.
-/
namespace Records
variable {W : World} {R S : Type} [DecidableEq R] [DecidableEq S] {α β : Type}

/-- what a thread still has to do: records live at addresses `R`, Selects at addresses `S` -/
inductive Thread (W : World) (R S : Type) (α : Type)
  /-- it is finished -/
  | done (x : Except Exc α)
  /-- `getattr(r, k)` -/
  | field (r : R) (k : String) (next : Except Exc W.Obj → Thread W R S α)
  /-- `object.__setattr__(r, k, v)` -/
  | assign (r : R) (k : String) (v : W.Obj) (next : Thread W R S α)
  /-- `r._hash` -/
  | hash (r : R) (next : Except Exc (Option Int) → Thread W R S α)
  /-- `r._hash = h` -/
  | setHash (r : R) (h : Int) (next : Thread W R S α)
  /-- `x._bool` -/
  | truth (x : S) (next : Option Bool → Thread W R S α)
  /-- `x._bool = b` -/
  | setTruth (x : S) (b : Bool) (next : Thread W R S α)
  /-- a call of user code -/
  | user (f : M W W.Obj) (next : Except Exc W.Obj → Thread W R S α)

/-- what the threads share -/
structure Shared (W : World) (R S : Type) where
  mem : Mem W R
  truth : S → Option Bool
  st : LState W

/-- the next access of a thread -/
def Thread.step (E : Env W) : Thread W R S α → Shared W R S → Thread W R S α × Shared W R S
  | .done x, m => (.done x, m)
  | .field r k next, m => (next ((m.mem r).attr E k), m)
  | .assign r k v next, m => (next, { m with mem := m.mem.put r { m.mem r with dict := (m.mem r).dict.set k v } })
  | .hash r next, m => (next (match (m.mem r).hash with | none => .error .attributeError | some h => .ok h), m)
  | .setHash r h next, m => (next, { m with mem := m.mem.put r { m.mem r with hash := some (some h) } })
  | .truth x next, m => (next (m.truth x), m)
  | .setTruth x b next, m => (next, { m with truth := fun y => if y = x then some b else m.truth y })
  | .user f next, m => (next (f m.st).1, { m with st := (f m.st).2 })

/-- a thread that is not interrupted: what it returns, and what is shared afterwards -/
def Thread.alone (E : Env W) : Thread W R S α → Shared W R S → Except Exc α × Shared W R S
  | .done x, m => (x, m)
  | .field r k next, m => (next ((m.mem r).attr E k)).alone E m
  | .assign r k v next, m => next.alone E { m with mem := m.mem.put r { m.mem r with dict := (m.mem r).dict.set k v } }
  | .hash r next, m => (next (match (m.mem r).hash with | none => .error .attributeError | some h => .ok h)).alone E m
  | .setHash r h next, m => next.alone E { m with mem := m.mem.put r { m.mem r with hash := some (some h) } }
  | .truth x next, m => (next (m.truth x)).alone E m
  | .setTruth x b next, m => next.alone E { m with truth := fun y => if y = x then some b else m.truth y }
  | .user f next, m => (next (f m.st).1).alone E { m with st := (f m.st).2 }

/-- `t`, then `k` of what became of it -/
def Thread.andThen (t : Thread W R S α) (k : Except Exc α → Thread W R S β) : Thread W R S β :=
  match t with
  | .done x => k x
  | .field r n next => .field r n fun v => (next v).andThen k
  | .assign r n v next => .assign r n v (next.andThen k)
  | .hash r next => .hash r fun h => (next h).andThen k
  | .setHash r h next => .setHash r h (next.andThen k)
  | .truth x next => .truth x fun b => (next b).andThen k
  | .setTruth x b next => .setTruth x b (next.andThen k)
  | .user f next => .user f fun v => (next v).andThen k

/-- `t`, then `k` of what it returned; exceptions pass -/
def Thread.bind (t : Thread W R S α) (k : α → Thread W R S β) : Thread W R S β := t.andThen fun x => match x with
  | .error e => .done (.error e)
  | .ok a => k a

/-! ### the library, access by access -/

/-- the body of the generator `tuples` of `_to_dict` (record.py:366-384) on a record -/
def tuplesT (r : R) (o : ExportOpts) (missingOk : List String) : List (XField W) → Thread W R S (List (String × W.Obj))
  | [] => .done (.ok [])
  | f :: fs => match exportField o f with
    | .error e => .done (.error e)
    | .ok false => tuplesT r o missingOk fs
    | .ok true => .field r f.name fun v => match v with
      | .ok v =>
        if exportValue o f v then (tuplesT r o missingOk fs).bind fun l => .done (.ok ((f.name, v) :: l))
        else tuplesT r o missingOk fs
      | .error e =>
        if e.kind ≠ .attributeError then .done (.error e)
        else if f.name ∉ missingOk then .done (.error e)
        else match o.includeDefaults, f.default with
          | true, some d => .user d.make fun v => match v with
            | .error e => .done (.error e)
            | .ok v => (tuplesT r o missingOk fs).bind fun l => .done (.ok ((f.name, v) :: l))
          | _, _ => tuplesT r o missingOk fs

/-- `r.to_dict(...)` (record.py:300-395, 597-605) -/
def exportT (C : RecClass W) (r : R) (o : ExportOpts) : Thread W R S (Dict W.Obj) :=
  let (missingOk, x) := extraction C Sel.empty
  (tuplesT r o missingOk x.values).andThen fun l => match l with
    | .error e => .done (.error e.leaving)
    | .ok l => .done (.ok (Dict.update [] (sortEntries o.sort l)))

/-- `return self._hash` (record.py:420); `hash()` refuses `None` -/
def returnHash (r : R) : Thread W R S Int := .hash r fun h => match h with
  | .error e => .done (.error e)
  | .ok none => .done (.error .typeError)
  | .ok (some n) => .done (.ok n)

/-- `hash(r)` (record.py:411-420; `__hash__ = None` for non-frozen classes, record.py:139-144) -/
def hashT (H : Hasher W) (C : RecClass W) (r : R) : Thread W R S Int :=
  if !C.frozen then .done (.error .typeError)
  else .hash r fun h => match h with
    | .error e => .done (.error e)
    | .ok (some _) => returnHash r
    | .ok none => (exportT C r {}).bind fun d => match hashTuple H d.values with
      | .error e => .done (.error e)
      | .ok n => .setHash r n (returnHash r)

/-- the loop of `__eq__` (record.py:286-289) -/
def eqFieldsT (a b : R) : List String → Thread W R S Bool
  | [] => .done (.ok true)
  | k :: ks => .field a k fun v => match v with
    | .error e => .done (.error e)
    | .ok v => .field b k fun w => match w with
      | .error e => .done (.error e)
      | .ok w => if W.eq v w then eqFieldsT a b ks else .done (.ok false)

/-- `a == b` (record.py:281-289); `cls r` is `type(r)` -/
def eqT (H : Hasher W) (cls : R → RecClass W) (a b : R) : Thread W R S Bool :=
  if (cls a).cid ≠ (cls b).cid then .done (.ok false)
  else if (cls a).frozen then
    (hashT H (cls a) a).bind fun m => (hashT H (cls a) b).bind fun n =>
      if m ≠ n then .done (.ok false) else eqFieldsT a b (cls a).fields.keys
  else eqFieldsT a b (cls a).fields.keys

/-- `setattr(r, k, v)`, `k` not `_hash` (record.py:422-426) -/
def setT (C : RecClass W) (r : R) (k : String) (v : W.Obj) : Thread W R S Unit :=
  if C.frozen then .done (.error .typeError) else .assign r k v (.done (.ok ()))

/-- `return self._bool` (select.py:101); `bool()` refuses `None` -/
def returnTruth (x : S) : Thread W R S Bool := .truth x fun b => match b with
  | none => .done (.error .typeError)
  | some b => .done (.ok b)

/-- `Select.__bool__` (select.py:91-101) -/
def truthT (args : SelectArgs W.Obj) (x : S) : Thread W R S Bool := .truth x fun b => match b with
  | some _ => returnTruth x
  | none => .setTruth x args.mk'.truth.1 (returnTruth x)

/-- `select(mapping)` on a dict nobody else has (select.py:103-140) -/
def applyT (args : SelectArgs W.Obj) (x : S) (m : Dict W.Obj) : Thread W R S (Dict W.Obj) := (truthT args x).bind fun b =>
  if !b then .done (.ok m)
  else .done (match (args.mk'.edit m).err with | some e => .error e | none => .ok (args.mk'.edit m).dict)

/-! ### programs of threads -/

/-- an operation of a thread -/
inductive TOp (W : World) (R S : Type)
  | hash (r : R)
  | eq (a b : R)
  | export (r : R) (o : ExportOpts)
  | set (r : R) (k : String) (v : W.Obj)
  | apply (x : S) (m : Dict W.Obj)

/-- what an operation returns -/
inductive TAns (W : World)
  | hash (n : Int)
  | bool (b : Bool)
  | dict (d : Dict W.Obj)
  | none

/-- an operation, access by access; `sel x` are the arguments the Select was made from -/
def TOp.thread (H : Hasher W) (cls : R → RecClass W) (sel : S → SelectArgs W.Obj) : TOp W R S → Thread W R S (TAns W)
  | .hash r => (hashT H (cls r) r).bind fun n => .done (.ok (.hash n))
  | .eq a b => (eqT H cls a b).bind fun x => .done (.ok (.bool x))
  | .export r o => (exportT (cls r) r o).bind fun d => .done (.ok (.dict d))
  | .set r k v => (setT (cls r) r k v).bind fun _ => .done (.ok .none)
  | .apply x m => (applyT (sel x) x m).bind fun d => .done (.ok (.dict d))

/-- a thread that performs one operation after the other, and catches their exceptions -/
def program (H : Hasher W) (cls : R → RecClass W) (sel : S → SelectArgs W.Obj) :
    List (TOp W R S) → Thread W R S (List (Except Exc (TAns W)))
  | [] => .done (.ok [])
  | op :: ops => (op.thread H cls sel).andThen fun x => (program H cls sel ops).bind fun xs => .done (.ok (x :: xs))

/-- threads, and what they share -/
structure Machine (W : World) (R S : Type) (α : Type) where
  threads : List (Thread W R S α)
  shared : Shared W R S

/-- the thread `i` makes an access -/
def Machine.tick (E : Env W) (c : Machine W R S α) (i : Nat) : Machine W R S α :=
  match c.threads[i]? with
  | none => c
  | some t => ⟨c.threads.set i (t.step E c.shared).1, (t.step E c.shared).2⟩

/-- the threads make accesses in the order given -/
def Machine.run (E : Env W) : Machine W R S α → List Nat → Machine W R S α
  | c, [] => c
  | c, i :: sched => (c.tick E i).run E sched

end Records
