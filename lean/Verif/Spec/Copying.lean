import Verif.Model.Copying
import Verif.Spec.Roundtrip
import Verif.Spec.Sort
import Verif.Spec.Class
/-
Specification for deep copies of object graphs.
-/
namespace Records
variable {W : World}

/-- `a` is reachable from `x` -/
inductive Reaches (h : W.Obj → Node W) : W.Obj → W.Obj → Prop
  | refl (x) : Reaches h x x
  | step {x c a} : c ∈ (h x).children → Reaches h c a → Reaches h x a

/-- a chain of `k` references from `x` to `a` -/
inductive Path (h : W.Obj → Node W) : Nat → W.Obj → W.Obj → Prop
  | zero (x) : Path h 0 x x
  | step {k x c a} : c ∈ (h x).children → Path h k c a → Path h (k + 1) x a

/-- no chain of references from `x` is longer than `R` -/
def Shallow (h : W.Obj → Node W) (x : W.Obj) (R : Nat) : Prop := ∀ a k, Path h k x a → k ≤ R

/-- an atom, or a tuple of such -/
inductive Immutable (h : W.Obj → Node W) : W.Obj → Prop
  | atom {x} : h x = .atom → Immutable h x
  | tuple {x xs} : h x = .tuple xs → (∀ c ∈ xs, Immutable h c) → Immutable h x

/-- allocated after the first `n` objects -/
def NewObj (X : CopyEnv W) (n : Nat) (o : W.Obj) : Prop := ∃ k, n ≤ k ∧ o = X.fresh k

/-- `j` is a copy of the record `i`: a field that has a value equal to its plain default has the default object in the copy, any other
field has the copy of its value -/
structure RecordCopy (C : RecClass W) (φ : W.Obj → W.Obj → Prop) (i j : Inst W) : Prop where
  cls : j.cid = i.cid
  keys : (j.dict.map (·.1)).Perm (C.fields.map (·.1))
  values : ∀ k w, (k, w) ∈ j.dict → ∃ f v, (k, f) ∈ C.fields ∧ i.dict.get? k = some v ∧
    (¬ f.isPlainDefault v ∧ φ v w ∨ f.isPlainDefault v ∧ f.default = some (.value w))

/-- the second object contains copies of what the first one contains, in the same places -/
inductive CopyOf (X : CopyEnv W) (φ : W.Obj → W.Obj → Prop) : Node W → Node W → Prop
  | list {xs ys} : Along φ xs ys → CopyOf X φ (.list xs) (.list ys)
  | tuple {xs ys} : Along φ xs ys → CopyOf X φ (.tuple xs) (.tuple ys)
  | dict {m m' : Dict W.Obj} : m'.keys = m.keys → Along φ m.values m'.values → CopyOf X φ (.dict m) (.dict m')
  | record {i j} : RecordCopy (X.cls i.cid) φ i j → CopyOf X φ (.record i) (.record j)

/-- the objects from `x` on have been copied: `φ` says to what -/
structure DeepCopied (X : CopyEnv W) (σ σ' : CState W) (x y : W.Obj) (φ : W.Obj → W.Obj → Prop) : Prop where
  root : φ x y
  source : ∀ a b, φ a b → Reaches σ.heap x a
  same : ∀ a b b', φ a b → φ a b' → b = b'
  distinct : ∀ a a' b, φ a b → φ a' b → a = a'
  shared : ∀ a b, φ a b → Immutable σ.heap a → b = a
  copy : ∀ a b, φ a b → Immutable σ.heap a ∧ b = a ∨ NewObj X σ.next b ∧ CopyOf X φ (σ.heap a) (σ'.heap b)
  kept : ∀ o, ¬ NewObj X σ.next o → σ'.heap o = σ.heap o

/-- a record of a class whose fields keep what they get and whose `post_new` does nothing -/
structure Copyable (X : CopyEnv W) (i : Inst W) : Prop where
  cid : (X.cls i.cid).cid = i.cid
  creatable : Creatable (X.cls i.cid)
  post : PlainPost (X.cls i.cid)
  free : FreeNames (X.cls i.cid)
  keeps : ∀ k f, (k, f) ∈ (X.cls i.cid).fields → ∀ w, f.Keeps w
  full : Full (X.cls i.cid) i

/-- the objects reachable from `x` exist, the records among them are as above, and no record is reachable from its own attributes -/
structure CopySource (X : CopyEnv W) (σ : CState W) (x : W.Obj) : Prop where
  known : ∀ a, Reaches σ.heap x a → ¬ NewObj X σ.next a
  ok : ∀ r i, Reaches σ.heap x r → σ.heap r = .record i → Copyable X i
  acyclic : ∀ r i, Reaches σ.heap x r → σ.heap r = .record i → ∀ c ∈ i.dict.values, ¬ Reaches σ.heap c r

end Records
