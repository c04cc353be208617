import Verif.Model.Base
/-
The Python world around the library, and the effect monad.

Everything the library does not define itself is a field of `World`; the theorems quantify over all worlds.
-/
namespace Records

/-- The objects, classes and built-in operations the library code uses.
Lean equality on `Obj` is object identity (`is`).  Simplifications: `==`, truthiness, `isinstance`, iteration and
`hash` of foreign objects are pure functions; iteration terminates. -/
structure World where
  Obj : Type
  Cls : Type
  /-- state user code can read and write -/
  St : Type
  decObj : DecidableEq Obj
  decCls : DecidableEq Cls
  /-- `object`, `bool`, `type(None)`, `type(...)`, `type`, `tuple` -/
  objectCls : Cls
  boolCls : Cls
  noneCls : Cls
  ellipsisCls : Cls
  typeCls : Cls
  tupleCls : Cls
  /-- `type(v)` -/
  typeOf : Obj → Cls
  /-- `issubclass(c, d)`, for tuples of classes see `isInstanceAny` -/
  isSub : Cls → Cls → Bool
  /-- `inspect.isabstract` -/
  isAbstract : Cls → Bool
  /-- `v is None` -/
  isNone : Obj → Bool
  /-- `v is ...` -/
  isEllipsis : Obj → Bool
  /-- `callable(v)` -/
  isCallable : Obj → Bool
  /-- `a == b` -/
  eq : Obj → Obj → Bool
  /-- `bool(v)` -/
  truthy : Obj → Bool
  /-- can `v` be hashed (is `v in some_dict` not a TypeError)? -/
  hashable : Obj → Bool
  /-- the class object `v`, if `v` is a class -/
  asClass : Obj → Option Cls
  /-- the text of `v`, if `isinstance(v, str)` -/
  strOf : Obj → Option String
  /-- can `v` be iterated? -/
  isIterable : Obj → Bool
  /-- does `v` have `items`? -/
  isMapping : Obj → Bool
  /-- `list(v)` -/
  elems : Obj → List Obj
  /-- `list(v.items())` -/
  items : Obj → List (Obj × Obj)
  /-- the objects `True`, `False` -/
  bool : Bool → Obj
  /-- the objects `0`, `1` -/
  zero : Obj
  one : Obj
  /-- `cls(iterable)` for an iterable with these elements -/
  mkIter : Cls → List Obj → St → Except Exc Obj × St
  /-- does calling the class with an iterator take all elements before doing anything else (`list`, `tuple`, ...), or none (`str`)?
  Other constructors are in `Lazy`. -/
  drains : Cls → Bool
  /-- `d.maxlen` -/
  maxlen : Obj → Obj
  /-- `cls(iterable, maxlen)` -/
  mkDeque : Cls → List Obj → Obj → St → Except Exc Obj × St
  /-- `cls(list_of_pairs)` -/
  mkMap : Cls → List (Obj × Obj) → St → Except Exc Obj × St
  /-- `d.default_factory` -/
  defaultFactory : Obj → Obj
  /-- `cls(default_factory, list_of_pairs)` -/
  mkDefaultDict : Cls → Obj → List (Obj × Obj) → St → Except Exc Obj × St
  /-- `cls(*args, **kwargs)` -/
  construct : Cls → List Obj → List (String × Obj) → St → Except Exc Obj × St

attribute [instance] World.decObj World.decCls

/-- `isinstance(v, c)` -/
def World.isInstance (W : World) (v : W.Obj) (c : W.Cls) : Bool := W.isSub (W.typeOf v) c

/-- `isinstance(v, (c1, ..., cn))` -/
def World.isInstanceAny (W : World) (v : W.Obj) (cs : List W.Cls) : Bool := cs.any (W.isInstance v)

/-- The whole mutable state: user state, and for every `LiteralFiller` (by id) the types that were inserted into its
`possible_values` defaultdict by failed lookups (typing_fillers.py:94-98, 111). -/
structure LState (W : World) where
  user : W.St
  lit : Nat → List W.Cls

/-- A computation: reads and changes the state, may raise; state changes survive exceptions. -/
def M (W : World) (α : Type) : Type := LState W → Except Exc α × LState W

namespace M
variable {W : World} {α β : Type}

def pure (a : α) : M W α := fun s => (.ok a, s)

/-- `raise e` -/
def throw (e : Exc) : M W α := fun s => (.error e, s)

def bind (x : M W α) (f : α → M W β) : M W β := fun s =>
  match x s with
  | (.ok a, s') => f a s'
  | (.error e, s') => (.error e, s')

instance : Monad (M W) where
  pure := M.pure
  bind := M.bind

/-- `try: x  except <handled>: handler` -/
def tryExcept (x : M W α) (handled : Exc → Bool) (handler : Exc → M W α) : M W α := fun s =>
  match x s with
  | (.ok a, s') => (.ok a, s')
  | (.error e, s') => if handled e then handler e s' else (.error e, s')

/-- `x` runs in a generator -/
def generator (x : M W α) : M W α := fun s =>
  match x s with
  | (.ok a, s') => (.ok a, s')
  | (.error e, s') => (.error e.leaving, s')

/-- an action on the user state only -/
def lift (f : W.St → Except Exc α × W.St) : M W α := fun s =>
  ((f s.user).1, { s with user := (f s.user).2 })

/-- turn a value-or-exception into a computation -/
def ofExcept : Except Exc α → M W α
  | .ok a => pure a
  | .error e => throw e

/-- `for x in xs: v = f x v` -/
def foldM (f : β → α → M W α) : List β → α → M W α
  | [], a => pure a
  | b :: bs, a => bind (f b a) (foldM f bs)

/-- `[f(x) for x in xs]` -/
def mapM (f : β → M W α) : List β → M W (List α)
  | [] => pure []
  | b :: bs => bind (f b) fun a => bind (mapM f bs) fun as => pure (a :: as)

end M
end Records
