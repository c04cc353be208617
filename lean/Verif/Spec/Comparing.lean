import Verif.Model.Comparing
import Verif.Spec.Copying
/-
Specification for comparing objects that contain each other.
-/
namespace Records
variable {W : World}

/-- lists or tuples of the same length, dicts with the same number of entries and the same keys, or records of the same class -/
inductive SameShape : Node W → Node W → Prop
  | list {xs ys} : xs.length = ys.length → SameShape (.list xs) (.list ys)
  | tuple {xs ys} : xs.length = ys.length → SameShape (.tuple xs) (.tuple ys)
  | dict {m m' : Dict W.Obj} : m.length = m'.length → (∀ k ∈ m.keys, k ∈ m'.keys) → SameShape (.dict m) (.dict m')
  | record {i j} : i.cid = j.cid → SameShape (.record i) (.record j)

/-- things that are seen to differ without looking inside: of different kinds, lists or dicts of different lengths, records of different
classes -/
inductive UnlikeAtOnce : Node W → Node W → Prop
  | list {xs ys} : xs.length ≠ ys.length → UnlikeAtOnce (.list xs) (.list ys)
  | dict {m m' : Dict W.Obj} : m.length ≠ m'.length → UnlikeAtOnce (.dict m) (.dict m')
  | record {i j} : i.cid ≠ j.cid → UnlikeAtOnce (.record i) (.record j)
  | kind {p q : Node W} : (∀ xs ys, ¬ (p = .list xs ∧ q = .list ys)) → (∀ xs ys, ¬ (p = .tuple xs ∧ q = .tuple ys)) →
      (∀ m m', ¬ (p = .dict m ∧ q = .dict m')) → (∀ i j, ¬ (p = .record i ∧ q = .record j)) → ¬ (p = .atom ∧ q = .atom) → UnlikeAtOnce p q

/-- `x` and `y` are different objects at the same place of two containers, or the values of the same field of two records -/
inductive ComparedIn (cls : W.Cls → RecClass W) : Node W → Node W → W.Obj → W.Obj → Prop
  | list {xs ys x y} {n : Nat} : xs[n]? = some x → ys[n]? = some y → x ≠ y → ComparedIn cls (.list xs) (.list ys) x y
  | tuple {xs ys x y} {n : Nat} : xs[n]? = some x → ys[n]? = some y → x ≠ y → ComparedIn cls (.tuple xs) (.tuple ys) x y
  | dict {m m' : Dict W.Obj} {x y k} : (k, x) ∈ m → m'.get? k = some y → x ≠ y → ComparedIn cls (.dict m) (.dict m') x y
  | record {i j x y k} : i.cid = j.cid → k ∈ (cls i.cid).fields.map (·.1) → i.dict.get? k = some x → j.dict.get? k = some y →
      ComparedIn cls (.record i) (.record j) x y

/-- neither has parts -/
def BothLeaves (h : W.Obj → Node W) (a b : W.Obj) : Prop := h a = .atom ∧ h b = .atom

/-- trees of the same shape with equal leaves, where elements may also be the same object -/
inductive Agrees (cls : W.Cls → RecClass W) (h : W.Obj → Node W) : W.Obj → W.Obj → Prop
  | leaf {a b} : BothLeaves h a b → W.eq a b = true → Agrees cls h a b
  | parts {a b} : SameShape (h a) (h b) → (∀ x y, ComparedIn cls (h a) (h b) x y → Agrees cls h x y) → Agrees cls h a b

/-- somewhere, at the same place in both, there are unequal leaves or things of different shape -/
inductive Disagrees (cls : W.Cls → RecClass W) (h : W.Obj → Node W) : W.Obj → W.Obj → Prop
  | leaf {a b} : BothLeaves h a b → W.eq a b = false → Disagrees cls h a b
  | shape {a b} : ¬ BothLeaves h a b → ¬ SameShape (h a) (h b) → Disagrees cls h a b
  | part {a b x y} : ComparedIn cls (h a) (h b) x y → Disagrees cls h x y → Disagrees cls h a b

/-- all records reachable from `a` have all their fields and are of classes that are not frozen -/
def OrdinaryIn (cls : W.Cls → RecClass W) (h : W.Obj → Node W) (a : W.Obj) : Prop :=
  ∀ r i, Reaches h a r → h r = .record i → Full (cls i.cid) i ∧ (cls i.cid).frozen = false

/-- `φ` relates objects that are alike: equal leaves, or the same shape with related objects at the same places -/
def Counterparts (cls : W.Cls → RecClass W) (h : W.Obj → Node W) (φ : W.Obj → W.Obj → Prop) : Prop :=
  ∀ a b, φ a b → BothLeaves h a b ∧ W.eq a b = true ∨ SameShape (h a) (h b) ∧ ∀ x y, ComparedIn cls (h a) (h b) x y → φ x y

/-- comparing `a` with `b` means, at some depth, at least one step on, comparing `x` with `y` -/
inductive LeadsTo (cls : W.Cls → RecClass W) (h : W.Obj → Node W) : W.Obj → W.Obj → W.Obj → W.Obj → Prop
  | one {a b x y} : ComparedIn cls (h a) (h b) x y → LeadsTo cls h a b x y
  | more {a b c d x y} : ComparedIn cls (h a) (h b) c d → LeadsTo cls h c d x y → LeadsTo cls h a b x y

/-- `x` is an element, the value of a key, or the value of a field -/
inductive PartOf (cls : W.Cls → RecClass W) : Node W → W.Obj → Prop
  | list {xs x} : x ∈ xs → PartOf cls (.list xs) x
  | tuple {xs x} : x ∈ xs → PartOf cls (.tuple xs) x
  | dict {m : Dict W.Obj} {k x} : (k, x) ∈ m → PartOf cls (.dict m) x
  | record {i k x} : k ∈ (cls i.cid).fields.map (·.1) → i.dict.get? k = some x → PartOf cls (.record i) x

/-- `c` is a part of a part of … `a` -/
inductive HasInside (cls : W.Cls → RecClass W) (h : W.Obj → Node W) : W.Obj → W.Obj → Prop
  | one {a c} : PartOf cls (h a) c → HasInside cls h a c
  | more {a b c} : PartOf cls (h a) b → HasInside cls h b c → HasInside cls h a c

/-- `φ` takes objects to separate copies: one for each, alike, and sharing only immutable objects with the original -/
structure SeparateCopies (cls : W.Cls → RecClass W) (h : W.Obj → Node W) (φ : W.Obj → W.Obj → Prop) : Prop where
  alike : Counterparts cls h φ
  one : ∀ a b b', φ a b → φ a b' → b = b'
  apart : ∀ a b x, φ a b → PartOf cls (h a) x → PartOf cls (h b) x → Immutable h x

end Records
