import Verif.Model.Nested
import Verif.Spec.Instance
import Verif.Spec.Class
import Verif.Spec.Sort
/-
Specification for objects nested in each other.
-/
namespace Records
variable {W : World}

/-- The objects of the world, as `h` says what they contain: `==` and `hash` are those of the library and the standard containers;
objects without parts obey the contract of `==` and `hash`; records have all their fields, values of frozen records other than defaults
are hashable; no object contains itself, at any depth. -/
structure Nested (E : Env W) (H : Hasher W) (cls : W.Cls → RecClass W) (h : W.Obj → Node W) : Prop where
  eq : ∀ a b s r, nodeEq E H cls s (h a) (h b) = some (.ok r) → W.eq a b = r
  hash : ∀ a s r, nodeHash E H cls s (h a) = some r → (W.hashable a = true ↔ ∃ n, r = .ok n) ∧ ∀ n, r = .ok n → H.obj a = n
  refl : ∀ a, h a = .atom → W.eq a a = true
  symm : ∀ a b, h a = .atom → h b = .atom → W.eq a b = true → W.eq b a = true
  trans : ∀ a b c, h a = .atom → h b = .atom → h c = .atom → W.eq a b = true → W.eq b c = true → W.eq a c = true
  contract : ∀ a b, h a = .atom → h b = .atom → W.eq a b = true → W.hashable a = true → W.hashable b = true → H.obj a = H.obj b
  records : ∀ a i, h a = .record i → Creatable (cls i.cid) ∧ Proper H (cls i.cid) i
  dicts : ∀ a m, h a = .dict m → (m.map (·.1)).Nodup
  depth : ∃ rank : W.Obj → Nat, ∀ a, ∀ c ∈ (h a).children, rank c < rank a

/-- trees of the same shape with equal leaves -/
inductive SameTree (cls : W.Cls → RecClass W) (h : W.Obj → Node W) : W.Obj → W.Obj → Prop
  | leaf {a b} : h a = .atom → h b = .atom → W.eq a b = true → SameTree cls h a b
  | list {a b xs ys} : h a = .list xs → h b = .list ys → xs.length = ys.length →
      (∀ (n : Nat) x y, xs[n]? = some x → ys[n]? = some y → SameTree cls h x y) → SameTree cls h a b
  | tuple {a b xs ys} : h a = .tuple xs → h b = .tuple ys → xs.length = ys.length →
      (∀ (n : Nat) x y, xs[n]? = some x → ys[n]? = some y → SameTree cls h x y) → SameTree cls h a b
  | dict {a b m m'} : h a = .dict m → h b = .dict m' → (∀ k, k ∈ m.map (·.1) ↔ k ∈ m'.map (·.1)) →
      (∀ k x y, m.get? k = some x → m'.get? k = some y → SameTree cls h x y) → SameTree cls h a b
  | record {a b i j} : h a = .record i → h b = .record j → i.cid = j.cid →
      (∀ k x y, k ∈ (cls i.cid).fields.map (·.1) → i.dict.get? k = some x → j.dict.get? k = some y → SameTree cls h x y) →
      SameTree cls h a b

/-- a hashable object: a hashable leaf, a tuple of hashable objects, or a record of a frozen class -/
inductive HashableTree (cls : W.Cls → RecClass W) (h : W.Obj → Node W) : W.Obj → Prop
  | leaf {a} : h a = .atom → W.hashable a = true → HashableTree cls h a
  | tuple {a xs} : h a = .tuple xs → (∀ x ∈ xs, HashableTree cls h x) → HashableTree cls h a
  | record {a i} : h a = .record i → (cls i.cid).frozen = true → HashableTree cls h a

/-- `<`, `<=`, `>`, `>=` of objects that are records are those of the library; those of two lists or two tuples are Python's (the first
pair of elements that are neither identical nor equal decides, else the lengths) -/
structure NestedCmp (E : Env W) (O : ObjCmp W) (cls : W.Cls → RecClass W) (h : W.Obj → Node W) : Prop where
  records : ∀ op a b i j, h a = .record i → h b = .record j → O op a b = compare E O op (cls i.cid) i (cls j.cid) j
  lists : ∀ op a b xs ys, h a = .list xs → h b = .list ys → O op a b = listCmp O op xs ys
  tuples : ∀ op a b xs ys, h a = .tuple xs → h b = .tuple ys → O op a b = listCmp O op xs ys

/-- Kinds of objects to be ordered: objects ordered by `le`, records of the class `c` with objects of these kinds in their fields, lists or
tuples (of any length) with an object of the kind `elems n` at position `n`. -/
inductive SortKind (W : World) where
  | base (le : W.Obj → W.Obj → Prop) (D : W.Obj → Prop)
  | record (c : W.Cls) (fields : String → SortKind W)
  | list (elems : Nat → SortKind W)
  | tuple (elems : Nat → SortKind W)

/-- the sequence has elements in `D` -/
def SeqIn (D : Nat → W.Obj → Prop) (xs : List W.Obj) : Prop := ∀ (n : Nat) x, xs[n]? = some x → D n x

/-- lexicographic order of sequences: a prefix comes first, else the first position where one is smaller decides -/
def SeqLe (le : Nat → W.Obj → W.Obj → Prop) : List W.Obj → List W.Obj → Prop
  | [], _ => True
  | _ :: _, [] => False
  | x :: xs, y :: ys => le 0 x y ∧ (le 0 y x → SeqLe (fun n => le (n + 1)) xs ys)

/-- the objects of the kind -/
def SortKind.dom (cls : W.Cls → RecClass W) (h : W.Obj → Node W) : SortKind W → W.Obj → Prop
  | .base _ D => D
  | .record c ks => fun a => ∃ i, h a = .record i ∧ i.cid = c ∧ InDomain (cls c) (fun k => (ks k).dom cls h) i
  | .list ks => fun a => ∃ xs, h a = .list xs ∧ SeqIn (fun n => (ks n).dom cls h) xs
  | .tuple ks => fun a => ∃ xs, h a = .tuple xs ∧ SeqIn (fun n => (ks n).dom cls h) xs

/-- their order: lexicographic in the fields or elements -/
def SortKind.le (cls : W.Cls → RecClass W) (h : W.Obj → Node W) : SortKind W → W.Obj → W.Obj → Prop
  | .base le _ => le
  | .record c ks => fun a b => ∃ i j, h a = .record i ∧ h b = .record j ∧ LexLe (fun k => (ks k).le cls h) (orderNames (cls c)) i j
  | .list ks => fun a b => ∃ xs ys, h a = .list xs ∧ h b = .list ys ∧ SeqLe (fun n => (ks n).le cls h) xs ys
  | .tuple ks => fun a b => ∃ xs ys, h a = .tuple xs ∧ h b = .tuple ys ∧ SeqLe (fun n => (ks n).le cls h) xs ys

/-- base kinds are totally ordered; the classes are ordered, no field is excluded from the ordering -/
def SortKind.OK (O : ObjCmp W) (cls : W.Cls → RecClass W) (h : W.Obj → Node W) : SortKind W → Prop
  | .base le D => TotalOn O le D
  | .record c ks => (cls c).cid = c ∧ (cls c).ordered = true ∧ W.isSub c c = true ∧ (∀ kf ∈ (cls c).fields, excludeTag ∉ kf.2.tags) ∧
      ∀ k ∈ orderNames (cls c), (ks k).OK O cls h
  | .list ks => ∀ n, (ks n).OK O cls h
  | .tuple ks => ∀ n, (ks n).OK O cls h

end Records
