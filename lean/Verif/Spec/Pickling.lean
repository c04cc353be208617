import Verif.Model.Pickling
import Verif.Spec.Copying
/-
Specification for pickled object graphs.
-/
namespace Records
variable {W : World}

/-- `j` is what the record `i` is unpickled to: the same attributes, with the counterparts of their values, and the same `_hash`; a slot that
was not set is as in a new instance -/
structure RecordRestored (C : RecClass W) (φ : W.Obj → W.Obj → Prop) (i j : Inst W) : Prop where
  cls : j.cid = i.cid
  nodup : (j.dict.map (·.1)).Nodup
  keys : ∀ k, k ∈ j.dict.map (·.1) ↔ k ∈ i.dict.map (·.1)
  values : ∀ k v w, (k, v) ∈ i.dict → (k, w) ∈ j.dict → φ v w
  hash : j.hash = match i.hash with | some v => some v | none => if C.frozen then some none else none

/-- the second object contains the counterparts of what the first one contains, in the same places -/
inductive Restored (X : CopyEnv W) (φ : W.Obj → W.Obj → Prop) : Node W → Node W → Prop
  | list {xs ys} : Along φ xs ys → Restored X φ (.list xs) (.list ys)
  | tuple {xs ys} : Along φ xs ys → Restored X φ (.tuple xs) (.tuple ys)
  | dict {m m' : Dict W.Obj} : m'.keys = m.keys → Along φ m.values m'.values → Restored X φ (.dict m) (.dict m')
  | record {i j} : RecordRestored (X.cls i.cid) φ i j → Restored X φ (.record i) (.record j)

/-- the objects of the heap `h` from `x` on have been restored from `y` on in a process that had the heap `g` and `next` objects, and has
`g'` now: `φ` says which object is the counterpart of which -/
structure Unpickled (X : CopyEnv W) (h : W.Obj → Node W) (x : W.Obj) (g : W.Obj → Node W) (next : Nat) (y : W.Obj) (g' : W.Obj → Node W)
    (φ : W.Obj → W.Obj → Prop) : Prop where
  root : φ x y
  source : ∀ a, (∃ b, φ a b) ↔ Reaches h x a
  same : ∀ a b b', φ a b → φ a b' → b = b'
  distinct : ∀ a a' b, φ a b → φ a' b → a = a'
  restored : ∀ a b, φ a b → h a = .atom ∧ b = a ∨ NewObj X next b ∧ Restored X φ (h a) (g' b)
  kept : ∀ o, ¬ NewObj X next o → g' o = g o

/-- a record with all its fields, of a class whose `post_new` does nothing -/
structure Picklable (X : CopyEnv W) (i : Inst W) : Prop where
  cid : (X.cls i.cid).cid = i.cid
  creatable : Creatable (X.cls i.cid)
  post : PlainPost (X.cls i.cid)
  free : FreeNames (X.cls i.cid)
  full : Full (X.cls i.cid) i
  nodup : (i.dict.map (·.1)).Nodup

/-- the fields keep what they get -/
def KeepsAll (X : CopyEnv W) (i : Inst W) : Prop := ∀ k f, (k, f) ∈ (X.cls i.cid).fields → ∀ w, f.Keeps w

/-- the records reachable from `x` are as above; the numbers, strings … among the objects are not among those that will be made in the
process with `next` objects; the keys of a dict are distinct -/
structure PickleSource (X : CopyEnv W) (h : W.Obj → Node W) (next : Nat) (x : W.Obj) : Prop where
  atoms : ∀ a, Reaches h x a → h a = .atom → ¬ NewObj X next a
  records : ∀ r i, Reaches h x r → h r = .record i → Picklable X i
  dicts : ∀ a m, Reaches h x a → h a = .dict m → (m.map (·.1)).Nodup

/-- a chain of `k` references that start in tuples and records -/
inductive RefChain (h : W.Obj → Node W) : Nat → W.Obj → W.Obj → Prop
  | zero (x) : RefChain h 0 x x
  | tuple {k x xs c a} : h x = .tuple xs → c ∈ xs → RefChain h k c a → RefChain h (k + 1) x a
  | record {k x i c a} : h x = .record i → c ∈ i.dict.values → RefChain h k c a → RefChain h (k + 1) x a

/-- `a` is a list or dict -/
def ListOrDict (h : W.Obj → Node W) (a : W.Obj) : Prop := (∃ xs, h a = .list xs) ∨ ∃ m, h a = .dict m

/-- each of the objects is a tuple with an element among them, or a record with an exported attribute among them: so there is a cycle (if
they are finitely many) through tuples and records only -/
def Knotted (X : CopyEnv W) (h : W.Obj → Node W) (S : W.Obj → Prop) : Prop :=
  ∀ a, S a → ∃ c, S c ∧ ((∃ xs, h a = .tuple xs ∧ c ∈ xs) ∨ ∃ i, h a = .record i ∧ c ∈ (shown (X.cls i.cid) i).values)

end Records
