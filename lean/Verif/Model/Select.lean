import Verif.Model.Base
/-
Model of records/select.py:8-143 (class `Select`).

A `Select` object stores six iterables and a cached truth value.  The iterables may be re-iterable
(`tuple`, `list`, items of a mapping) or one-shot iterators, because `__init__` only converts mappings and
strings (select.py:35-46) and stores anything else as is.
Simplification: keys are strings (the annotated type), so no entry is `None` and
`next(chain(...), None) is not None` (select.py:93-100) is "some source still has an entry".
-/
namespace Records

/-- A stored iterable: `many l` can be iterated any number of times, `once l` is an iterator with `l` left. -/
inductive Src (α : Type)
  | many (l : List α)
  | once (l : List α)
  deriving DecidableEq, Repr

namespace Src
variable {α : Type}

/-- What a `for` loop or `chain` over the source would yield now. -/
def remaining : Src α → List α
  | many l => l
  | once l => l

/-- `next(iter(src))` succeeded?, and the source afterwards (a one-shot iterator loses that entry). -/
def peek : Src α → Bool × Src α
  | many l => (!l.isEmpty, many l)
  | once [] => (false, once [])
  | once (_ :: t) => (true, once t)

/-- The source after a loop that left the entries `rest` unvisited. -/
def leave : Src α → List α → Src α
  | many l, _ => many l
  | once _, rest => once rest

/-- a tuple, list, ... : not a one-shot iterator -/
def isMany : Src α → Bool
  | many _ => true
  | once _ => false

end Src

/-- Argument for a pair-valued parameter of `Select.__init__`: a mapping or any iterable of pairs. -/
inductive PairArg (β : Type)
  | mapping (d : List (String × β))
  | iterable (s : Src (String × β))

/-- Argument for `keys_to_remove` / `keys_to_maybe_remove`: one string or any iterable of strings. -/
inductive KeyArg
  | str (k : String)
  | iterable (s : Src String)

/-- A `Select` instance (select.py:47-55). -/
structure Sel (V : Type) where
  add : Src (String × V)
  maybeAdd : Src (String × V)
  remove : Src String
  maybeRemove : Src String
  rename : Src (String × String)
  maybeRename : Src (String × String)
  /-- `_bool`, the cached truth value -/
  cache : Option Bool

variable {V : Type}

/-- select.py:35-42: `isinstance(x, Mapping)` → `tuple(x.items())`, anything else stored as is -/
def PairArg.store {β : Type} : PairArg β → Src (String × β)
  | .mapping d => .many d
  | .iterable s => s

/-- select.py:43-46: a string becomes a 1-tuple -/
def KeyArg.store : KeyArg → Src String
  | .str k => .many [k]
  | .iterable s => s

/-- `Select.__init__` (select.py:15-55). -/
def Sel.init (add maybeAdd : PairArg V) (remove maybeRemove : KeyArg)
    (rename maybeRename : PairArg String) : Sel V where
  add := add.store
  maybeAdd := maybeAdd.store
  remove := remove.store
  maybeRemove := maybeRemove.store
  rename := rename.store
  maybeRename := maybeRename.store
  cache := none

/-- The keyword arguments of `Select(...)` (select.py:15-22). -/
structure SelectArgs (V : Type) where
  add : PairArg V := .iterable (.many [])
  maybeAdd : PairArg V := .iterable (.many [])
  remove : KeyArg := .iterable (.many [])
  maybeRemove : KeyArg := .iterable (.many [])
  rename : PairArg String := .iterable (.many [])
  maybeRename : PairArg String := .iterable (.many [])

/-- `Select(**args)` -/
def SelectArgs.mk' (a : SelectArgs V) : Sel V :=
  Sel.init a.add a.maybeAdd a.remove a.maybeRemove a.rename a.maybeRename

/-- `Select.empty = Select()` (select.py:143); all parameters default to `()`. -/
def Sel.empty : Sel V :=
  Sel.init (.iterable (.many [])) (.iterable (.many [])) (.iterable (.many [])) (.iterable (.many []))
    (.iterable (.many [])) (.iterable (.many []))

/-- `Select.__bool__` (select.py:91-101): look for a first entry in the chained sources and cache the answer.
Returns the truth value and the object afterwards. -/
def Sel.truth (s : Sel V) : Bool × Sel V :=
  match s.cache with
  | some b => (b, s)
  | none =>
    let (b1, add) := s.add.peek
    if b1 then (true, { s with add := add, cache := some true }) else
    let (b2, maybeAdd) := s.maybeAdd.peek
    if b2 then (true, { s with maybeAdd := maybeAdd, cache := some true }) else
    let (b3, remove) := s.remove.peek
    if b3 then (true, { s with remove := remove, cache := some true }) else
    let (b4, maybeRemove) := s.maybeRemove.peek
    if b4 then (true, { s with maybeRemove := maybeRemove, cache := some true }) else
    let (b5, rename) := s.rename.peek
    if b5 then (true, { s with rename := rename, cache := some true }) else
    let (b6, maybeRename) := s.maybeRename.peek
    if b6 then (true, { s with maybeRename := maybeRename, cache := some true }) else
    (false, { s with cache := some false })

/-- The object after all its iterables have been iterated to the end. -/
def Sel.drained (s : Sel V) : Sel V :=
  { s with
    add := s.add.leave [], maybeAdd := s.maybeAdd.leave [], remove := s.remove.leave [],
    maybeRemove := s.maybeRemove.leave [], rename := s.rename.leave [], maybeRename := s.maybeRename.leave [] }

/-- `Select._merge` (select.py:57-69).  Result: the merged object, and `self`, `other` afterwards.
When one side is falsy the other object itself is returned. -/
def Sel.merge1 (self other : Sel V) : Sel V × Sel V × Sel V :=
  let (b, self) := self.truth
  if !b then (other, self, other) else
  let (b, other) := other.truth
  if !b then (self, self, other) else
  ({ add := .many (self.add.remaining ++ other.add.remaining)
     maybeAdd := .many (self.maybeAdd.remaining ++ other.maybeAdd.remaining)
     remove := .many (self.remove.remaining ++ other.remove.remaining)
     maybeRemove := .many (self.maybeRemove.remaining ++ other.maybeRemove.remaining)
     rename := .many (self.rename.remaining ++ other.rename.remaining)
     maybeRename := .many (self.maybeRename.remaining ++ other.maybeRename.remaining)
     cache := none },
   self.drained, other.drained)

/-- `Select.merge` (select.py:71-89): `others` positional, `kw` the Select built from keyword arguments
(`none` if no keyword was given).  Only the merged result is returned (operands are not needed afterwards). -/
def Sel.merge (self : Sel V) (others : List (Sel V)) (kw : Option (Sel V)) : Except Exc (Sel V) :=
  match others, kw with
  | [], none => .error .typeError
  | _, _ =>
    let ret := others.foldl (fun ret o => (ret.merge1 o).1) self
    match kw with
    | none => .ok ret
    | some k => .ok (ret.merge1 k).1

/-! ### The edits of `Select.__call__` (select.py:117-138) -/

/-- `mapping.pop(kti)` (select.py:118) -/
def editRemove (m : Dict V) (k : String) : Except Exc (Dict V) :=
  if m.has k then .ok (m.erase k) else .error .keyError

/-- `mapping.pop(kti, None)` (select.py:120) -/
def editMaybeRemove (m : Dict V) (k : String) : Except Exc (Dict V) :=
  .ok (m.erase k)

/-- body of the rename loop (select.py:122-124) -/
def editRename (m : Dict V) (sd : String × String) : Except Exc (Dict V) :=
  if m.has sd.2 then .error .valueError
  else match m.get? sd.1 with
    | none => .error .keyError
    | some v => .ok ((m.erase sd.1).set sd.2 v)

/-- body of the maybe-rename loop (select.py:126-130) -/
def editMaybeRename (m : Dict V) (sd : String × String) : Except Exc (Dict V) :=
  match m.get? sd.1 with
  | none => .ok m
  | some v => if m.has sd.2 then .error .valueError else .ok ((m.erase sd.1).set sd.2 v)

/-- body of the add loop (select.py:132-134) -/
def editAdd (m : Dict V) (sv : String × V) : Except Exc (Dict V) :=
  if m.has sv.1 then .error .valueError else .ok (m.set sv.1 sv.2)

/-- body of the maybe-add loop (select.py:136-138) -/
def editMaybeAdd (m : Dict V) (sv : String × V) : Except Exc (Dict V) :=
  if m.has sv.1 then .ok m else .ok (m.set sv.1 sv.2)

/-- Outcome of a `for` loop that edits a dict in place: the dict as it is afterwards (also after an
exception), the exception if any, and the entries not yet fetched from the iterable. -/
structure LoopRes (V α : Type) where
  dict : Dict V
  err : Option Exc
  rest : List α

/-- `for x in xs: <edit mapping with x>` -/
def editLoop {α : Type} (f : Dict V → α → Except Exc (Dict V)) : List α → Dict V → LoopRes V α
  | [], m => ⟨m, none, []⟩
  | x :: xs, m =>
    match f m x with
    | .ok m' => editLoop f xs m'
    | .error e => ⟨m, some e, xs⟩

/-- Result of running the edit loops on a dict in place. -/
structure EditRes (V : Type) where
  dict : Dict V
  err : Option Exc
  sel : Sel V

/-- The six loops of `Select.__call__` (select.py:117-138), editing `m` in place. -/
def Sel.edit (s : Sel V) (m : Dict V) : EditRes V :=
  let r1 := editLoop editRemove s.remove.remaining m
  let s := { s with remove := s.remove.leave r1.rest }
  match r1.err with
  | some e => ⟨r1.dict, some e, s⟩
  | none =>
  let r2 := editLoop editMaybeRemove s.maybeRemove.remaining r1.dict
  let s := { s with maybeRemove := s.maybeRemove.leave r2.rest }
  match r2.err with
  | some e => ⟨r2.dict, some e, s⟩
  | none =>
  let r3 := editLoop editRename s.rename.remaining r2.dict
  let s := { s with rename := s.rename.leave r3.rest }
  match r3.err with
  | some e => ⟨r3.dict, some e, s⟩
  | none =>
  let r4 := editLoop editMaybeRename s.maybeRename.remaining r3.dict
  let s := { s with maybeRename := s.maybeRename.leave r4.rest }
  match r4.err with
  | some e => ⟨r4.dict, some e, s⟩
  | none =>
  let r5 := editLoop editAdd s.add.remaining r4.dict
  let s := { s with add := s.add.leave r5.rest }
  match r5.err with
  | some e => ⟨r5.dict, some e, s⟩
  | none =>
  let r6 := editLoop editMaybeAdd s.maybeAdd.remaining r5.dict
  let s := { s with maybeAdd := s.maybeAdd.leave r6.rest }
  ⟨r6.dict, r6.err, s⟩

/-! ### Mapping objects on a heap, to express which objects a call mutates -/

/-- `dict` objects by address. -/
abbrev Heap (V : Type) := List (Dict V)

/-- A mapping object: a `dict`, or a `ChainMap` over `dict`s (collections.ChainMap; first map wins). -/
inductive MObj
  | dict (a : Nat)
  | chain (as : List Nat)
  deriving DecidableEq, Repr

/-- Entries of the dict stored at `a`. -/
def Heap.at (h : Heap V) (a : Nat) : Dict V := h.getD a []

/-- `dict(ChainMap(*maps))`: iteration order and values of a ChainMap
(CPython 3.9 `ChainMap.__iter__`: update over the reversed maps; `__getitem__`: first map holding the key).
Updating in reversed order realises both. -/
def chainItems (maps : List (Dict V)) : Dict V :=
  maps.reverse.foldl (fun d m => d.update m) []

/-- Entries of a mapping object. -/
def MObj.items (h : Heap V) : MObj → Dict V
  | .dict a => h.at a
  | .chain as => chainItems (as.map h.at)

/-- Result of calling a Select on a mapping object. -/
structure CallRes (V : Type) where
  /-- the returned mapping object, or the exception -/
  ret : Except Exc MObj
  heap : Heap V
  sel : Sel V

/-- `Select.__call__` (select.py:103-140). -/
def Sel.call (s : Sel V) (h : Heap V) (m : MObj) : CallRes V :=
  let (b, s) := s.truth
  -- select.py:112-113
  if !b then ⟨.ok m, h, s⟩ else
  -- select.py:114-115: a non-dict is copied into a fresh dict
  let (a, h) : Nat × Heap V := match m with
    | .dict a => (a, h)
    | .chain as => (h.length, h ++ [chainItems (as.map h.at)])
  let r := s.edit (h.at a)
  let h := h.set a r.dict
  match r.err with
  | some e => ⟨.error e, h, r.sel⟩
  | none => ⟨.ok (.dict a), h, r.sel⟩

/-! ### Bound selectable factories (select.py:148-213), selection part -/

/-- `SelectableFactory.Bound` (select.py:184-213): the factory function and class are fixed by the context, the
bound object carries the current select. `__get__` (select.py:178-182) starts with `Select.empty`. -/
structure BoundFactory (V : Type) where
  sel : Sel V

/-- `SelectableFactory.__get__` (select.py:178-182) -/
def BoundFactory.start : BoundFactory V := ⟨Sel.empty⟩

/-- `Bound.select(*selects, **kwargs)` (select.py:203-213) -/
def BoundFactory.select (b : BoundFactory V) (others : List (Sel V)) (kw : Option (Sel V)) :
    Except Exc (BoundFactory V) :=
  (b.sel.merge others kw).map BoundFactory.mk

/-- `SelectableFactory.run` up to the construction call (select.py:174-175): run the wrapped function, then
apply the select; the remaining step `cls(**mapping)` only reads the returned mapping.  `func` is the wrapped
function: it may allocate on the heap and returns a mapping object or raises. -/
def BoundFactory.mapping (b : BoundFactory V) (h : Heap V)
    (func : Heap V → Except Exc MObj × Heap V) : Except Exc MObj × Heap V :=
  match func h with
  | (.error e, h) => (.error e, h)
  | (.ok m, h) => let r := b.sel.call h m; (r.ret, r.heap)

/-- the wrapped function of `from_mapping` (record.py:434-449): `ChainMap(*maps, dict(**kwargs))` -/
def fromMappingFunc (maps : List Nat) (kwargs : Dict V) (h : Heap V) : Except Exc MObj × Heap V :=
  (.ok (.chain (maps ++ [h.length])), h ++ [kwargs])

end Records
