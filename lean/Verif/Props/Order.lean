import Verif.Proofs.Order
import Verif.Props.Equality
set_option linter.unusedSimpArgs false
/-
C72-C74: ordering of records.
-/
namespace Records
variable {W : World}

theorem orderingKey_names (E : Env W) (C : RecClass W) (i : Inst W) : orderingKey E C i = attrs E i (orderNames C) := by
  unfold orderingKey orderNames
  have : (C.fields.filter fun kf => decide (excludeTag ∉ kf.2.tags)) = C.fields.filter fun kf => !kf.2.tags.contains excludeTag := by
    apply List.filter_congr
    intro kf _
    simp [List.contains_iff_mem]
  rw [this]
  rfl

/-- comparing records of one ordered class -/
theorem compare_same {E : Env W} {O : ObjCmp W} {C : RecClass W} (ho : C.ordered = true) {a b : Inst W} (ha : a.cid = C.cid)
    (hb : b.cid = C.cid) (hs : W.isSub C.cid C.cid = true) {le : String → W.Obj → W.Obj → Prop} {D : String → W.Obj → Prop}
    (hO : FieldsOrdered O C le D) (da : InDomain C D a) (db : InDomain C D b) (op : CmpOp) :
    ∃ r, compare E O op C a C b = .ok r ∧ (r = true ↔ LexAns le (orderNames C) a b op) := by
  obtain ⟨ka, kb, r, h1, h2, h3, h4⟩ := listCmp_lex (E := E) (ks := orderNames C) hO da db op
  refine ⟨r, ?_, h4⟩
  unfold compare
  rw [if_neg (by rw [ha, hb]; simp)]
  have : cmpMethod E O op C a C b = .ok (some r) := by
    unfold cmpMethod
    simp [ho, ha, hb, hs, orderingKey_names, h1, h2, h3, Except.map]
  rw [this]
  rfl

/-! ### C72 -/

/-- C72: on records of one ordered class whose (non-excluded) field values are totally ordered, the operators do not raise, and are the
lexicographic order of the non-excluded fields in field order. -/
theorem C72_lexicographic {E : Env W} {O : ObjCmp W} {C : RecClass W} (ho : C.ordered = true) {a b : Inst W} (ha : a.cid = C.cid)
    (hb : b.cid = C.cid) (hs : W.isSub C.cid C.cid = true) {le : String → W.Obj → W.Obj → Prop} {D : String → W.Obj → Prop}
    (hO : FieldsOrdered O C le D) (da : InDomain C D a) (db : InDomain C D b) :
    (∃ r, compare E O .lt C a C b = .ok r ∧ (r = true ↔ LexLt le (orderNames C) a b)) ∧
    (∃ r, compare E O .le C a C b = .ok r ∧ (r = true ↔ LexLt le (orderNames C) a b ∨ LexEq (orderNames C) a b)) ∧
    (∃ r, compare E O .gt C a C b = .ok r ∧ (r = true ↔ LexLt le (orderNames C) b a)) ∧
    (∃ r, compare E O .ge C a C b = .ok r ∧ (r = true ↔ LexLt le (orderNames C) b a ∨ LexEq (orderNames C) b a)) :=
  ⟨compare_same ho ha hb hs hO da db .lt, compare_same ho ha hb hs hO da db .le, compare_same ho ha hb hs hO da db .gt,
    compare_same ho ha hb hs hO da db .ge⟩

theorem compare_true {E : Env W} {O : ObjCmp W} {C : RecClass W} (ho : C.ordered = true) {a b : Inst W} (ha : a.cid = C.cid)
    (hb : b.cid = C.cid) (hs : W.isSub C.cid C.cid = true) {le : String → W.Obj → W.Obj → Prop} {D : String → W.Obj → Prop}
    (hO : FieldsOrdered O C le D) (da : InDomain C D a) (db : InDomain C D b) (op : CmpOp) :
    compare E O op C a C b = .ok true ↔ LexAns le (orderNames C) a b op := by
  obtain ⟨r, h1, h2⟩ := compare_same (E := E) ho ha hb hs hO da db op
  rw [h1, ← h2]
  constructor
  · intro h; cases h; rfl
  · intro h; rw [h]

/-- C72: `a < b` iff not `b <= a`; `a > b` iff `b < a`; `a >= b` iff `b <= a`. -/
theorem C72_consistent {E : Env W} {O : ObjCmp W} {C : RecClass W} (ho : C.ordered = true) {a b : Inst W} (ha : a.cid = C.cid)
    (hb : b.cid = C.cid) (hs : W.isSub C.cid C.cid = true) {le : String → W.Obj → W.Obj → Prop} {D : String → W.Obj → Prop}
    (hO : FieldsOrdered O C le D) (da : InDomain C D a) (db : InDomain C D b) :
    (compare E O .lt C a C b = .ok true ↔ compare E O .le C b C a = .ok false) ∧
    compare E O .gt C a C b = compare E O .lt C b C a ∧ compare E O .ge C a C b = compare E O .le C b C a := by
  obtain ⟨⟨r1, e1, h1⟩, ⟨r2, e2, h2⟩, ⟨r3, e3, h3⟩, ⟨r4, e4, h4⟩⟩ := C72_lexicographic (E := E) ho ha hb hs hO da db
  obtain ⟨⟨q1, f1, g1⟩, ⟨q2, f2, g2⟩, _, _⟩ := C72_lexicographic (E := E) ho hb ha hs hO db da
  rw [e1, e3, e4, f1, f2]
  have tri := lex_trichotomy hO da db
  have hsy : LexEq (orderNames C) b a ↔ LexEq (orderNames C) a b := ⟨lexEq_symm hO db da, lexEq_symm hO da db⟩
  refine ⟨?_, ?_, ?_⟩
  · have : r1 = true ↔ q2 = false := by
      rw [h1, ← Bool.not_eq_true, g2, hsy]
      grind
    constructor
    · intro h; cases h; rw [this.1 rfl]
    · intro h; cases h; rw [this.2 rfl]
  · rw [Bool.eq_iff_iff.2 (h3.trans g1.symm)]
  · rw [Bool.eq_iff_iff.2 (h4.trans g2.symm)]

/-- C72: any two records are comparable. -/
theorem C72_total {E : Env W} {O : ObjCmp W} {C : RecClass W} (ho : C.ordered = true) {a b : Inst W} (ha : a.cid = C.cid)
    (hb : b.cid = C.cid) (hs : W.isSub C.cid C.cid = true) {le : String → W.Obj → W.Obj → Prop} {D : String → W.Obj → Prop}
    (hO : FieldsOrdered O C le D) (da : InDomain C D a) (db : InDomain C D b) :
    compare E O .le C a C b = .ok true ∨ compare E O .le C b C a = .ok true := by
  rw [compare_true ho ha hb hs hO da db, compare_true ho hb ha hs hO db da]
  have tri := lex_trichotomy hO da db
  show (_ ∨ _) ∨ (_ ∨ _)
  rcases tri with h | h | h
  · exact .inl (.inl h.1)
  · exact .inl (.inr h.2.1)
  · exact .inr (.inl h.2.2)

/-- C72: `<=` is transitive. -/
theorem C72_trans {E : Env W} {O : ObjCmp W} {C : RecClass W} (ho : C.ordered = true) {a b c : Inst W} (ha : a.cid = C.cid)
    (hb : b.cid = C.cid) (hc : c.cid = C.cid) (hs : W.isSub C.cid C.cid = true) {le : String → W.Obj → W.Obj → Prop}
    {D : String → W.Obj → Prop} (hO : FieldsOrdered O C le D) (da : InDomain C D a) (db : InDomain C D b) (dc : InDomain C D c)
    (h1 : compare E O .le C a C b = .ok true) (h2 : compare E O .le C b C c = .ok true) : compare E O .le C a C c = .ok true := by
  rw [compare_true ho ha hb hs hO da db] at h1
  rw [compare_true ho hb hc hs hO db dc] at h2
  rw [compare_true ho ha hc hs hO da dc]
  exact lex_trans hO da db dc h1 h2

/-! ### C73 -/

/-- C73: `a <= b` and `b <= a` iff the records agree in the fields that are not excluded from the ordering. -/
theorem C73_mutual_le {E : Env W} {O : ObjCmp W} {C : RecClass W} (ho : C.ordered = true) {a b : Inst W} (ha : a.cid = C.cid)
    (hb : b.cid = C.cid) (hs : W.isSub C.cid C.cid = true) {le : String → W.Obj → W.Obj → Prop} {D : String → W.Obj → Prop}
    (hO : FieldsOrdered O C le D) (da : InDomain C D a) (db : InDomain C D b) :
    (compare E O .le C a C b = .ok true ∧ compare E O .le C b C a = .ok true) ↔ ∀ k ∈ orderNames C, SameField a b k := by
  rw [compare_true ho ha hb hs hO da db, compare_true ho hb ha hs hO db da]
  have tri := lex_trichotomy hO da db
  have hsy : LexEq (orderNames C) b a ↔ LexEq (orderNames C) a b := ⟨lexEq_symm hO db da, lexEq_symm hO da db⟩
  show ((_ ∨ _) ∧ (_ ∨ _)) ↔ LexEq (orderNames C) a b
  rw [hsy]
  grind

/-- C73: if no field is excluded, `a <= b` and `b <= a` iff `a == b`. -/
theorem C73_agrees_with_eq {E : Env W} {O : ObjCmp W} {H : Hasher W} (hW : EqOK W) (hH : HashContract H) {C : RecClass W}
    (hC : Creatable C) (ho : C.ordered = true) (hx : ∀ kf ∈ C.fields, excludeTag ∉ kf.2.tags) {a b : Inst W} (ha : Proper H C a)
    (hb : Proper H C b) (hs : W.isSub C.cid C.cid = true) {le : String → W.Obj → W.Obj → Prop} {D : String → W.Obj → Prop}
    (hO : FieldsOrdered O C le D) (da : InDomain C D a) (db : InDomain C D b) (s : LState W) :
    (compare E O .le C a C b = .ok true ∧ compare E O .le C b C a = .ok true) ↔ (eqInst E H C a b s).1 = .ok true := by
  rw [C73_mutual_le ho ha.cls hb.cls hs hO da db, equal_iff hW hH hC ha hb]
  have : orderNames C = C.fields.map (·.1) := by
    unfold orderNames
    rw [List.filter_eq_self.2]
    intro kf hkf
    simpa [List.contains_iff_mem] using hx kf hkf
  rw [this]
  rfl

/-- C73: equal records are never in the relation `<`. -/
theorem C73_equal_not_less {E : Env W} {O : ObjCmp W} {H : Hasher W} (hW : EqOK W) (hH : HashContract H) {C : RecClass W}
    (hC : Creatable C) (ho : C.ordered = true) {a b : Inst W} (ha : Proper H C a)
    (hb : Proper H C b) (hs : W.isSub C.cid C.cid = true) {le : String → W.Obj → W.Obj → Prop} {D : String → W.Obj → Prop}
    (hO : FieldsOrdered O C le D) (da : InDomain C D a) (db : InDomain C D b) (s : LState W)
    (h : (eqInst E H C a b s).1 = .ok true) : compare E O .lt C a C b = .ok false := by
  rw [equal_iff hW hH hC ha hb] at h
  obtain ⟨r, h1, h2⟩ := compare_same (E := E) ho ha.cls hb.cls hs hO da db .lt
  rw [h1]
  cases r with
  | false => rfl
  | true =>
    exfalso
    obtain ⟨pre, k, post, he, _, v, w, hv, hw, hn⟩ := h2.1 rfl
    have hk : k ∈ orderNames C := by rw [he]; simp
    obtain ⟨v', hv', dv⟩ := da k hk
    obtain ⟨w', hw', dw⟩ := db k hk
    rw [hv] at hv'; rw [hw] at hw'; cases hv'; cases hw'
    have hk' : k ∈ C.fields.map (·.1) := by
      unfold orderNames at hk
      obtain ⟨kf, hkf, rfl⟩ := List.mem_map.1 hk
      exact List.mem_map.2 ⟨kf, (List.mem_filter.1 hkf).1, rfl⟩
    have := (sameField_iff hv hw).1 (h k hk')
    rw [(hO k hk).eq dv dw] at this
    exact hn this.2

/-! ### C74 -/

/-- no two different classes are subclasses of each other; every class is a subclass of itself -/
structure SubOK (W : World) : Prop where
  refl : ∀ c, W.isSub c c = true
  antisymm : ∀ c d, W.isSub c d = true → W.isSub d c = true → c = d

/-- C74: comparing records raises TypeError if the class of one of them is not ordered. -/
theorem C74_unordered {E : Env W} {O : ObjCmp W} (hS : SubOK W) {Ca Cb : RecClass W} {a b : Inst W} (hab : a.cid = b.cid → Ca = Cb)
    (h : Ca.ordered = false ∨ Cb.ordered = false) (op : CmpOp) :
    compare E O op Ca a Cb b = .error .typeError := by
  have unord : ∀ (op : CmpOp) (Ca Cb : RecClass W) (a b : Inst W), Ca.ordered = false →
      cmpMethod E O op Ca a Cb b = .error .typeError := by
    intro op Ca Cb a b h; unfold cmpMethod; rw [h]; rfl
  have nonsub : ∀ (op : CmpOp) (Ca Cb : RecClass W) (a b : Inst W), Ca.ordered = true → W.isSub b.cid a.cid = false →
      cmpMethod E O op Ca a Cb b = .ok none := by
    intro op Ca Cb a b h h'; unfold cmpMethod; rw [h, h']; rfl
  unfold compare
  by_cases hc : a.cid = b.cid
  · rw [if_neg (by simp [hc])]
    have : Ca.ordered = false := by
      rcases h with h | h
      · exact h
      · rw [hab hc]; exact h
    rw [unord op Ca Cb a b this]
    rfl
  · cases hs : W.isSub b.cid a.cid with
    | true =>
      rw [if_pos ⟨hc, rfl⟩]
      cases hb : Cb.ordered with
      | false => rw [unord _ Cb Ca b a hb]; rfl
      | true =>
        have hns : W.isSub a.cid b.cid = false := by
          cases h : W.isSub a.cid b.cid with
          | false => rfl
          | true => exact absurd (hS.antisymm _ _ h hs) hc
        have ha : Ca.ordered = false := by
          rcases h with h | h
          · exact h
          · rw [hb] at h; cases h
        rw [nonsub _ Cb Ca b a hb hns, unord _ Ca Cb a b ha]
        rfl
    | false =>
      rw [if_neg (by simp)]
      cases ha : Ca.ordered with
      | false => rw [unord _ Ca Cb a b ha]; rfl
      | true =>
        have hb : Cb.ordered = false := by
          rcases h with h | h
          · rw [ha] at h; cases h
          · exact h
        rw [nonsub _ Ca Cb a b ha hs, unord _ Cb Ca b a hb]
        rfl

/-- C74: comparing records of unrelated classes raises TypeError. -/
theorem C74_unrelated {E : Env W} {O : ObjCmp W} {Ca Cb : RecClass W} {a b : Inst W} (h1 : W.isSub b.cid a.cid = false)
    (h2 : W.isSub a.cid b.cid = false) (op : CmpOp) : compare E O op Ca a Cb b = .error .typeError := by
  unfold compare
  rw [if_neg (by simp [h1])]
  unfold cmpMethod
  rw [h1, h2]
  cases Ca.ordered <;> cases Cb.ordered <;> rfl

/-- C74: for records of different classes, `a < b` and `b > a` (and `a <= b` and `b >= a`) have the same outcome, also if it is an
exception. -/
theorem C74_reflected {E : Env W} {O : ObjCmp W} (hS : SubOK W) {Ca Cb : RecClass W} {a b : Inst W} (hab : a.cid ≠ b.cid) (op : CmpOp) :
    compare E O op Ca a Cb b = compare E O op.swap Cb b Ca a := by
  have hsw : op.swap.swap = op := by cases op <;> rfl
  cases h1 : W.isSub b.cid a.cid with
  | true =>
    have h2 : W.isSub a.cid b.cid = false := by
      cases h : W.isSub a.cid b.cid with
      | false => rfl
      | true => exact absurd (hS.antisymm _ _ h h1) hab
    unfold compare
    rw [if_pos ⟨hab, h1⟩, if_neg (by simp [h2]), hsw]
  | false =>
    cases h2 : W.isSub a.cid b.cid with
    | true =>
      unfold compare
      rw [if_neg (by simp [h1]), if_pos ⟨fun h => hab h.symm, h2⟩, hsw]
    | false => rw [C74_unrelated h1 h2, C74_unrelated h2 h1]

/-- C74: the same for records of one class, if the operators of the field values have this property and `==` is symmetric. -/
theorem C74_reflected_same {E : Env W} {O : ObjCmp W} (hO : ∀ op v w, O op v w = O op.swap w v) (hW : EqOK W) (hs : SubOK W)
    {C : RecClass W} {a b : Inst W} (ha : Full C a) (hb : Full C b) (hab : a.cid = b.cid) (op : CmpOp) :
    compare E O op C a C b = compare E O op.swap C b C a := by
  have hfull : ∀ i : Inst W, Full C i → ∃ vs, attrs E i (orderNames C) = .ok vs := fun i hi =>
    attrs_ok (D := fun _ _ => True) (fun k hk => by
      unfold orderNames at hk
      obtain ⟨kf, hkf, rfl⟩ := List.mem_map.1 hk
      obtain ⟨v, hv⟩ := hi.get (List.mem_map.2 ⟨kf, (List.mem_filter.1 hkf).1, rfl⟩)
      exact ⟨v, hv, trivial⟩)
  obtain ⟨va, hva⟩ := hfull a ha
  obtain ⟨vb, hvb⟩ := hfull b hb
  have key : ∀ va vb : List W.Obj, listCmp O op va vb = listCmp O op.swap vb va := by
    intro va
    induction va with
    | nil =>
      intro vb
      cases vb <;> (unfold listCmp; cases op <;> simp [CmpOp.swap, CmpOp.nat])
    | cons v va ih =>
      intro vb
      cases vb with
      | nil => unfold listCmp; cases op <;> simp [CmpOp.swap, CmpOp.nat]
      | cons w vb =>
        unfold listCmp
        have : (v = w ∨ W.eq v w = true) ↔ (w = v ∨ W.eq w v = true) :=
          ⟨fun h => h.imp Eq.symm hW.symm, fun h => h.imp Eq.symm hW.symm⟩
        by_cases h : v = w ∨ W.eq v w = true
        · rw [if_pos h, if_pos (this.1 h), ih]
        · rw [if_neg h, if_neg (fun hc => h (this.2 hc)), hO]
  unfold compare
  rw [if_neg (by simp [hab]), if_neg (by simp [hab])]
  unfold cmpMethod
  have hs' := hs.refl b.cid
  rw [hab]
  simp only [hs', orderingKey_names, hva, hvb, key va vb]
  cases C.ordered
  · rfl
  · have hsw : op.swap.swap = op := by cases op <;> rfl
    simp only [hsw]
    have k2 := key va vb
    cases listCmp O op.swap vb va <;> simp [Except.map, compare.orElse]

/-- C74: a record compared with one of an ordered subclass is compared by the fields that count in the two classes: the answer of
comparing the two lists of values. -/
theorem C74_subclass {E : Env W} {O : ObjCmp W} (hS : SubOK W) {Ca Cb : RecClass W} {a b : Inst W} (hab : a.cid ≠ b.cid)
    (hsub : W.isSub b.cid a.cid = true) (hoa : Ca.ordered = true) (hob : Cb.ordered = true) {va vb : List W.Obj}
    (hva : attrs E a (orderNames Ca) = .ok va) (hvb : attrs E b (orderNames Cb) = .ok vb) (op : CmpOp) :
    compare E O op Ca a Cb b = listCmp O op va vb := by
  have h2 : W.isSub a.cid b.cid = false := by
    cases h : W.isSub a.cid b.cid with
    | false => rfl
    | true => exact absurd (hS.antisymm _ _ h hsub) hab
  unfold compare
  rw [if_pos ⟨hab, hsub⟩]
  unfold cmpMethod
  simp only [hoa, hob, hsub, h2, orderingKey_names, hva, hvb]
  cases listCmp O op va vb <;> rfl

end Records

/-! ### examples -/
namespace Records.Toy.Order
open Toy

/-- comparison of numbers -/
def cmpNum (op : CmpOp) (i j : Int) : Bool := match op with
  | .lt => decide (i < j) | .le => decide (i ≤ j) | .gt => decide (j < i) | .ge => decide (j ≤ i)

/-- comparison of objects: only numbers -/
def cmpObj (op : CmpOp) (v w : TObj) : Except Exc Bool := match num v, num w with
  | some i, some j => .ok (cmpNum op i j)
  | _, _ => .error .typeError

def O : ObjCmp W := cmpObj

def leNum (v w : TObj) : Prop := ∃ i j, num v = some i ∧ num w = some j ∧ i ≤ j

theorem leNum_iff {v w : TObj} {i j : Int} (h1 : num v = some i) (h2 : num w = some j) : leNum v w ↔ i ≤ j := by
  constructor
  · rintro ⟨i', j', h3, h4, h⟩
    rw [h1] at h3; rw [h2] at h4; cases h3; cases h4; exact h
  · intro h; exact ⟨i, j, h1, h2, h⟩

theorem eqNum_iff {v w : TObj} {i j : Int} (h1 : num v = some i) (h2 : num w = some j) : eq v w = true ↔ i = j := by
  unfold eq
  rw [h1, h2]
  simp

theorem totalNum : TotalOn (W := W) O leNum (fun v => ∃ i, num v = some i) where
  total := by
    rintro a b ⟨i, hi⟩ ⟨j, hj⟩
    rw [leNum_iff hi hj, leNum_iff hj hi]
    omega
  trans := by
    rintro a b c ⟨i, hi⟩ ⟨j, hj⟩ ⟨k, hk⟩
    rw [leNum_iff hi hj, leNum_iff hj hk, leNum_iff hi hk]
    omega
  eq := by
    rintro a b ⟨i, hi⟩ ⟨j, hj⟩
    show eq a b = true ↔ _
    rw [eqNum_iff hi hj, leNum_iff hi hj, leNum_iff hj hi]
    omega
  ans := by
    rintro a b op ⟨i, hi⟩ ⟨j, hj⟩
    refine ⟨cmpNum op i j, ?_, ?_⟩
    · show cmpObj op a b = _
      unfold cmpObj; rw [hi, hj]
    · cases op <;> simp only [leNum_iff hi hj, leNum_iff hj hi, cmpNum, decide_eq_true_eq] <;> omega

/-- `class P(RecordBase, ordered=True): x: int; n: Annotated[int, exclude_from_ordering]; y: int` -/
def spP : ClassSpec W :=
  { cid := .record 1, ordered := true,
    anns := [("x", .plain (.cls .int)), ("n", .plain (.annotated (.cls .int) [.tag excludeTag])), ("y", .plain (.cls .int))] }
def P : RecClass W := clsOf spP noClass
theorem P_creatable : Creatable P := .intro spP P ⟨by decide, by decide, nofun⟩ nofun rfl

/-- `class Q(P, ordered=True): z: int` -/
def spQ (o : Bool) : ClassSpec W := { cid := .record 2, ordered := o, anns := [("z", .plain (.cls .int))], parents := [P] }
def Q (o : Bool) : RecClass W := clsOf (spQ o) noClass

def mkP (x n y : Int) : Inst W := { cid := .record 1, dict := [("x", .int x), ("n", .int n), ("y", .int y)], hash := Option.none }
def mkQ (x n y z : Int) : Inst W :=
  { cid := .record 2, dict := [("x", .int x), ("n", .int n), ("y", .int y), ("z", .int z)], hash := Option.none }

theorem P_names : orderNames P = ["x", "y"] := by decide

theorem P_ordered : FieldsOrdered O P (fun _ => leNum) (fun _ v => ∃ i, num v = some i) := fun _ _ => totalNum

theorem mkP_dom (x n y : Int) : InDomain P (fun _ v => ∃ i, num v = some i) (mkP x n y) := by
  intro k hk
  rw [P_names] at hk
  rcases hk with _ | ⟨_, _ | ⟨_, hk⟩⟩
  · exact ⟨_, rfl, x, rfl⟩
  · exact ⟨_, rfl, y, rfl⟩
  · cases hk

theorem mkP_proper (H : Hasher W) (x n y : Int) : Proper H P (mkP x n y) := ⟨rfl, fun _ hk => hk, nofun, nofun⟩

/-- `C72`: the second field does not count -/
example : compare env O .lt P (mkP 1 9 3) P (mkP 1 5 4) = .ok true := rfl
example : compare env O .le P (mkP 2 5 3) P (mkP 1 9 4) = .ok false := rfl
example : compare env O .ge P (mkP 1 5 3) P (mkP 1 9 3) = .ok true := rfl
example := C72_lexicographic (E := env) (C := P) rfl (a := mkP 1 9 3) (b := mkP 1 5 4) rfl rfl rfl P_ordered (mkP_dom _ _ _) (mkP_dom _ _ _)
example : LexLt (W := W) (fun _ => leNum) (orderNames P) (mkP 1 9 3) (mkP 1 5 4) :=
  ⟨["x"], "y", [], P_names, (by
    intro j hj
    rcases hj with _ | ⟨_, hj⟩
    · exact ⟨_, _, rfl, rfl, rfl⟩
    · cases hj), .int 3, .int 4, rfl, rfl, fun h => absurd ((leNum_iff (i := 4) (j := 3) rfl rfl).1 h) (by decide)⟩
example := C72_consistent (E := env) (C := P) rfl (a := mkP 1 9 3) (b := mkP 1 5 4) rfl rfl rfl P_ordered (mkP_dom _ _ _) (mkP_dom _ _ _)
example := C72_total (E := env) (C := P) rfl (a := mkP 1 9 3) (b := mkP 1 5 4) rfl rfl rfl P_ordered (mkP_dom _ _ _) (mkP_dom _ _ _)
example : compare env O .le P (mkP 1 9 3) P (mkP 2 0 0) = .ok true :=
  C72_trans (E := env) (C := P) rfl (a := mkP 1 9 3) (b := mkP 1 5 4) (c := mkP 2 0 0) rfl rfl rfl rfl P_ordered (mkP_dom _ _ _) (mkP_dom _ _ _)
    (mkP_dom _ _ _) rfl rfl

/-- `C73` -/
example := C73_mutual_le (E := env) (C := P) rfl (a := mkP 1 9 3) (b := mkP 1 5 3) rfl rfl rfl P_ordered (mkP_dom _ _ _) (mkP_dom _ _ _)
example : compare env O .lt P (mkP 1 9 3) P (mkP 1 9 3) = .ok false :=
  C73_equal_not_less (H := hasher 0) eqOK (contract 0) P_creatable rfl (mkP_proper ..) (mkP_proper ..) rfl P_ordered (mkP_dom _ _ _) (mkP_dom _ _ _) s0 rfl

/-- `class A2(RecordBase, ordered=True): x: int; y: int = 3` -/
def spA2 : ClassSpec W := { spA with ordered := true }
def A2 : RecClass W := clsOf spA2 noClass
theorem A2_creatable : Creatable A2 := .intro spA2 A2 ⟨by decide, by decide, nofun⟩ nofun rfl

example := C73_agrees_with_eq (E := env) (H := hasher 0) (O := O) (le := fun _ => leNum) (D := fun _ v => ∃ i, num v = some i) eqOK (contract 0)
  A2_creatable rfl (by
    intro kf hkf
    rcases hkf with _ | ⟨_, _ | ⟨_, hkf⟩⟩
    · nofun
    · nofun
    · cases hkf) (a := mkA (.int 1) (.int 2)) (b := mkA (.bool true) (.int 2)) ⟨rfl, fun _ h => h, nofun, nofun⟩
    ⟨rfl, fun _ h => h, nofun, nofun⟩ rfl (fun _ _ => totalNum) (by
      intro k hk
      rcases hk with _ | ⟨_, _ | ⟨_, hk⟩⟩
      · exact ⟨_, rfl, 1, rfl⟩
      · exact ⟨_, rfl, 2, rfl⟩
      · cases hk) (by
      intro k hk
      rcases hk with _ | ⟨_, _ | ⟨_, hk⟩⟩
      · exact ⟨_, rfl, 1, rfl⟩
      · exact ⟨_, rfl, 2, rfl⟩
      · cases hk) s0

theorem isSub_antisymm (c d : TCls) (h1 : isSub c d = true) (h2 : isSub d c = true) : c = d := by
  revert h1 h2
  unfold isSub
  simp only [Bool.or_eq_true, Bool.and_eq_true, decide_eq_true_eq]
  grind

/-- the class hierarchy of the toy world -/
theorem subOK : SubOK W where
  refl (c : TCls) := by show isSub c c = true; simp [isSub]
  antisymm := isSub_antisymm

/-- `C74` -/
example : compare env O .lt A (mkA (.int 1) (.int 2)) A (mkA (.int 1) (.int 3)) = .error .typeError :=
  C74_unordered subOK (fun _ => rfl) (.inl rfl) .lt
example : compare env O .lt P (mkP 1 1 1) (Q false) (mkQ 1 1 1 1) = .error .typeError :=
  C74_unordered subOK (fun h => absurd h (by decide)) (.inr rfl) .lt
example : compare env O .lt P (mkP 1 1 1) A2 (mkA (.int 1) (.int 2)) = .error .typeError := C74_unrelated (by decide) (by decide) .lt
example : compare env O .lt P (mkP 1 1 1) (Q true) (mkQ 1 0 1 1) = .ok true := rfl
example : compare env O .lt P (mkP 1 1 1) (Q true) (mkQ 1 0 1 1) = listCmp O .lt [.int 1, .int 1] [.int 1, .int 1, .int 1] :=
  C74_subclass subOK (by decide) rfl rfl rfl rfl rfl .lt
example : compare env O .lt P (mkP 1 1 1) (Q true) (mkQ 1 0 1 1) = compare env O .gt (Q true) (mkQ 1 0 1 1) P (mkP 1 1 1) :=
  C74_reflected subOK (by decide) .lt

theorem O_swap : ∀ op v w, O op v w = O op.swap w v := by
  intro op v w
  show cmpObj op v w = cmpObj op.swap w v
  unfold cmpObj
  cases num v <;> cases num w <;> try rfl
  cases op <;> rfl

example : compare env O .lt P (mkP 1 1 1) P (mkP 1 0 2) = compare env O .gt P (mkP 1 0 2) P (mkP 1 1 1) :=
  C74_reflected_same O_swap eqOK subOK (mkP_proper (hasher 0) 1 1 1).full (mkP_proper (hasher 0) 1 0 2).full rfl .lt

end Records.Toy.Order

/-! ### refuted claims -/
namespace Records
open Toy Toy.Order

/-- The claim that the ordering agrees with equality: `a <= b` and `b <= a` iff `a == b`. -/
def C73_claim : Prop := ∀ (W : World) (E : Env W) (O : ObjCmp W) (H : Hasher W) (C : RecClass W), EqOK W → HashContract H → Creatable C →
  C.ordered = true → W.isSub C.cid C.cid = true → ∀ (le : String → W.Obj → W.Obj → Prop) (D : String → W.Obj → Prop),
  FieldsOrdered O C le D → ∀ a b : Inst W, Proper H C a → Proper H C b → InDomain C D a → InDomain C D b → ∀ s,
    (compare E O .le C a C b = .ok true ∧ compare E O .le C b C a = .ok true) ↔ (eqInst E H C a b s).1 = .ok true

/-- C73: it does not hold: the records differ in an excluded field. -/
theorem C73_refuted : ¬ C73_claim := by
  intro h
  have := (h W env O (hasher 0) P eqOK (contract 0) P_creatable rfl rfl _ _ P_ordered (mkP 1 9 3) (mkP 1 5 3) (mkP_proper ..) (mkP_proper ..)
    (mkP_dom _ _ _) (mkP_dom _ _ _) s0).1 ⟨rfl, rfl⟩
  cases (this : Except.ok false = Except.ok true)

end Records
