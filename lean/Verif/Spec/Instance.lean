import Verif.Model.Instance
/-
Specification of equality, hashing and ordering of records.
-/
namespace Records
variable {W : World}

/-- the instance has all fields of the class -/
def Full (C : RecClass W) (i : Inst W) : Prop := ∀ k ∈ C.fields.map (·.1), k ∈ i.dict.map (·.1)

/-- is `v` equal to the plain default of the field? -/
def Field.plainDefault (f : Field W) (v : W.Obj) : Bool :=
  match f.default with
  | some (.value d) => W.eq d v
  | _ => false

/-- the fields whose values differ from the plain default, in field order -/
def shown (C : RecClass W) (i : Inst W) : Dict W.Obj := C.fields.filterMap fun kf =>
  match i.dict.get? kf.1 with
  | none => none
  | some v => if kf.2.plainDefault v then none else some (kf.1, v)

/-- `==` on field values is an equivalence relation -/
structure EqOK (W : World) : Prop where
  refl : ∀ a, W.eq a a = true
  symm : ∀ {a b}, W.eq a b = true → W.eq b a = true
  trans : ∀ {a b c}, W.eq a b = true → W.eq b c = true → W.eq a c = true

/-- equal hashable values have equal hashes -/
def HashContract (H : Hasher W) : Prop :=
  ∀ a b, W.eq a b = true → W.hashable a = true → W.hashable b = true → H.obj a = H.obj b

/-- the hash a frozen record should have -/
def recordHash (H : Hasher W) (C : RecClass W) (i : Inst W) : Int := H.tuple ((shown C i).map fun kv => H.obj kv.2)

/-- A record of class `C` with all its fields. If the class is frozen, the values other than defaults are hashable, and the cache is
empty or holds the hash. -/
structure Proper (H : Hasher W) (C : RecClass W) (i : Inst W) : Prop where
  cls : i.cid = C.cid
  full : Full C i
  hashable : C.frozen = true → ∀ kv ∈ shown C i, W.hashable kv.2 = true
  cache : C.frozen = true → i.hash = some none ∨ i.hash = some (some (recordHash H C i))

/-- the two records agree in the field `k` -/
def SameField (a b : Inst W) (k : String) : Prop :=
  ∃ v w, a.dict.get? k = some v ∧ b.dict.get? k = some w ∧ W.eq v w = true

/-- the two records agree in all fields of the class -/
def SameFields (C : RecClass W) (a b : Inst W) : Prop := ∀ k ∈ C.fields.map (·.1), SameField a b k

/-- `a == b` returns `True` -/
def Equal (E : Env W) (H : Hasher W) (C : RecClass W) (a b : Inst W) : Prop := ∀ s, (eqInst E H C a b s).1 = .ok true

/-! ### ordering -/

/-- `<`, `<=`, `>`, `>=` and `==` on the values in `D` come from the total preorder `le` -/
structure TotalOn (O : ObjCmp W) (le : W.Obj → W.Obj → Prop) (D : W.Obj → Prop) : Prop where
  total : ∀ {a b}, D a → D b → le a b ∨ le b a
  trans : ∀ {a b c}, D a → D b → D c → le a b → le b c → le a c
  eq : ∀ {a b}, D a → D b → (W.eq a b = true ↔ le a b ∧ le b a)
  ans : ∀ {a b} op, D a → D b → ∃ r, O op a b = .ok r ∧
    (r = true ↔ match op with | .lt => ¬ le b a | .le => le a b | .gt => ¬ le a b | .ge => le b a)

/-- the names of the fields that count for the ordering, in field order -/
def orderNames (C : RecClass W) : List String := (C.fields.filter fun kf => !kf.2.tags.contains excludeTag).map (·.1)

/-- the values of each field that counts are totally ordered -/
def FieldsOrdered (O : ObjCmp W) (C : RecClass W) (le : String → W.Obj → W.Obj → Prop) (D : String → W.Obj → Prop) : Prop :=
  ∀ k ∈ orderNames C, TotalOn O (le k) (D k)

/-- the fields of the record that count have values in `D` -/
def InDomain (C : RecClass W) (D : String → W.Obj → Prop) (i : Inst W) : Prop :=
  ∀ k ∈ orderNames C, ∃ v, i.dict.get? k = some v ∧ D k v

/-- the value of field `k` is smaller in `a` than in `b` -/
def FieldLt (le : String → W.Obj → W.Obj → Prop) (a b : Inst W) (k : String) : Prop :=
  ∃ v w, a.dict.get? k = some v ∧ b.dict.get? k = some w ∧ ¬ le k w v

/-- lexicographic order: the first of the fields in which the records differ is smaller in `a` -/
def LexLt (le : String → W.Obj → W.Obj → Prop) (names : List String) (a b : Inst W) : Prop :=
  ∃ pre k post, names = pre ++ k :: post ∧ (∀ j ∈ pre, SameField a b j) ∧ FieldLt le a b k

/-- the records agree in the fields that count -/
def LexEq (names : List String) (a b : Inst W) : Prop := ∀ k ∈ names, SameField a b k

/-- what an operator should answer -/
def LexAns (le : String → W.Obj → W.Obj → Prop) (ks : List String) (a b : Inst W) : CmpOp → Prop
  | .lt => LexLt le ks a b
  | .le => LexLt le ks a b ∨ LexEq ks a b
  | .gt => LexLt le ks b a
  | .ge => LexLt le ks b a ∨ LexEq ks b a

end Records
