import Verif.Model.Filler
/-
The rebuilding of containers, step by step: the iterator that `GenericIterableFiller` and `TupleFiller` hand to the class
of a container whose elements changed (typing_fillers.py:183-226, 234-247, 278-292), and a constructor that asks it for
one element after the other.  `Filler` has the same for constructors that take all elements before doing anything else.

Simplification: the constructor lets exceptions of the iterator pass; it stops asking when the iterator is exhausted.
-/
namespace Records
variable {W : World}

/-- A constructor that gets an iterator: what it does before the first element (it may return or raise there), what it does with each
element (it may return or raise), and what it does when the iterator is exhausted.  `σ` is what it has made so far. -/
structure Ctor (W : World) where
  σ : Type
  start : W.St → Except Exc (W.Obj ⊕ σ) × W.St
  each : σ → W.Obj → W.St → Except Exc (W.Obj ⊕ σ) × W.St
  finish : σ → W.St → Except Exc W.Obj × W.St

/-- an element together with the filler of its position -/
abbrev Slot (W : World) := W.Obj × (W.Obj → M W W.Obj)

/-- The two iterables made by `_split_at` (typing_fillers.py:234-247).
* `slices`: iterators over `seq[:i]` and `seq[i + 1:]`; also `v[:n]`, `v[n + 1:]` of a tuple (typing_fillers.py:190-193, 219-222)
* `shared`: `islice(it, i)` and `islice(it, 1, None)` over one iterator `it`, given by the elements it has still to produce; `take` is what the
  first may still take, `skip` tells whether the second has still to drop an element. -/
inductive Parts (W : World)
  | slices (pre post : List (Slot W))
  | shared (it : List (Slot W)) (take : Nat) (skip : Bool)

/-- `_split_at(seq, i)` (typing_fillers.py:234-247); `sliceable`: `seq[:i]` does not raise TypeError -/
def splitAt (sliceable : Bool) (seq : List (Slot W)) (i : Nat) : Parts W :=
  if sliceable then .slices (seq.take i) (seq.drop (i + 1)) else .shared seq i true

/-- `next` of the first iterable; `islice` does not touch the iterator once it has taken enough -/
def Parts.nextPre : Parts W → Option (Slot W) × Parts W
  | .slices (x :: pre) post => (some x, .slices pre post)
  | .slices [] post => (none, .slices [] post)
  | .shared (x :: it) (n + 1) skip => (some x, .shared it n skip)
  | .shared [] (n + 1) skip => (none, .shared [] (n + 1) skip)
  | .shared it 0 skip => (none, .shared it 0 skip)

/-- `next` of the second iterable; `islice(it, 1, None)` drops an element when it is asked for the first time -/
def Parts.nextPost : Parts W → Option (Slot W) × Parts W
  | .slices pre (x :: post) => (some x, .slices pre post)
  | .slices pre [] => (none, .slices pre [])
  | .shared it n skip =>
    match (if skip then it.drop 1 else it) with
    | x :: it' => (some x, .shared it' n false)
    | [] => (none, .shared [] n false)

/-- where the `chain` is: in its first iterable, at `[filled]`, in the generator, or exhausted -/
inductive Phase
  | pre
  | mid
  | post
  | over
  deriving DecidableEq

/-- the `chain` object (typing_fillers.py:189-193, 218-223, 285-289) -/
structure Chain (W : World) where
  phase : Phase
  parts : Parts W
  filled : W.Obj

/-- `next(chain)`, for a chain that is not in its first iterable: `none` when exhausted.  The last iterable is a generator, which
fills the element; an exception ends it. -/
def Chain.nextLate (c : Chain W) (s : LState W) : Except Exc (Option W.Obj) × Chain W × LState W :=
  match c.phase with
  | .pre | .mid => (.ok (some c.filled), { c with phase := .post }, s)
  | .post =>
    match c.parts.nextPost with
    | (none, p) => (.ok none, { c with phase := .over, parts := p }, s)
    | (some x, p) =>
      match M.generator (x.2 x.1) s with
      | (.ok w, s') => (.ok (some w), { c with parts := p }, s')
      | (.error e, s') => (.error e, { c with phase := .over, parts := p }, s')
  | .over => (.ok none, c, s)

/-- `next(chain)` -/
def Chain.next (c : Chain W) (s : LState W) : Except Exc (Option W.Obj) × Chain W × LState W :=
  match c.phase with
  | .pre =>
    match c.parts.nextPre with
    | (some x, p) => (.ok (some x.1), { c with parts := p }, s)
    | (none, p) => Chain.nextLate { c with phase := .mid, parts := p } s
  | _ => c.nextLate s

/-- the constructor asks the chain for elements, at most `n` times -/
def Ctor.pull (k : Ctor W) : Nat → k.σ → Chain W → M W W.Obj
  | 0, _, _ => M.throw .recursionError
  | n + 1, st, c => fun s =>
    match c.next s with
    | (.error e, _, s') => (.error e, s')
    | (.ok none, _, s') => M.lift (k.finish st) s'
    | (.ok (some w), c', s') =>
      match M.lift (k.each st w) s' with
      | (.error e, s'') => (.error e, s'')
      | (.ok (.inl o), s'') => (.ok o, s'')
      | (.ok (.inr st'), s'') => k.pull n st' c' s''

/-- `type(v)(chain)` -/
def Ctor.call (k : Ctor W) (n : Nat) (c : Chain W) : M W W.Obj := fun s =>
  match M.lift k.start s with
  | (.error e, s') => (.error e, s')
  | (.ok (.inl o), s') => (.ok o, s')
  | (.ok (.inr st), s') => k.pull n st c s'

/-- The loop over the elements (typing_fillers.py:184-196, 213-226, 279-292): `n` is `hollow_passes`, `todo` what the loop has not visited
yet of `seq`. -/
def lazyLoop (k : Ctor W) (sliceable : Bool) (v : W.Obj) (seq : List (Slot W)) : List (Slot W) → Nat → M W W.Obj
  | [], _ => M.pure v
  | (e, f) :: todo, n => M.bind (f e) fun w =>
    if w = e then lazyLoop k sliceable v seq todo (n + 1)
    else k.call (seq.length + 1) ⟨.pre, splitAt sliceable seq n, w⟩

/-- `GenericIterableFiller.bind.inner_validator` (typing_fillers.py:277-292) and that of variadic tuples (182-196), which always slices.
`ctor v` is `type(v)` called with an iterator, for deques with `v.maxlen` (typing_fillers.py:266-267, 305-306). -/
def lazyValidator (ctor : W.Obj → Ctor W) (sliceable : W.Obj → Bool) (f : W.Obj → M W W.Obj) : Coercer W := fun v =>
  lazyLoop (ctor v) (sliceable v) v ((W.elems v).map fun e => (e, f)) ((W.elems v).map fun e => (e, f)) 0

/-- the per-position check of a fixed-length tuple (typing_fillers.py:211-226) -/
def lazyTuple (ctor : W.Obj → Ctor W) (fs : List (W.Obj → M W W.Obj)) : Coercer W := fun v =>
  lazyLoop (ctor v) true v ((W.elems v).zip fs) ((W.elems v).zip fs) 0

/-- a constructor that takes all elements first (`list`, `tuple`, ...) -/
def Ctor.collect (mk : List W.Obj → W.St → Except Exc W.Obj × W.St) : Ctor W where
  σ := List W.Obj
  start s := (.ok (.inr []), s)
  each l o s := (.ok (.inr (l ++ [o])), s)
  finish := mk

/-- a constructor that does not iterate (`str`) -/
def Ctor.ignore (mk : W.St → Except Exc W.Obj × W.St) : Ctor W where
  σ := Unit
  start s := ((mk s).1.map .inl, (mk s).2)
  each _ _ s := (.error .typeError, s)
  finish _ s := (.error .typeError, s)

/-- `set` and `frozenset`: each element is hashed before the next one is asked for -/
def Ctor.hashing (mk : List W.Obj → W.St → Except Exc W.Obj × W.St) : Ctor W where
  σ := List W.Obj
  start s := (.ok (.inr []), s)
  each l o s := if W.hashable o then (.ok (.inr (l ++ [o])), s) else (.error .typeError, s)
  finish := mk

end Records
