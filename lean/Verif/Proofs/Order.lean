import Verif.Spec.Instance
import Verif.Proofs.Dict
set_option linter.unusedSimpArgs false
/- Lemmas about the lexicographic order and `list` comparison. -/
namespace Records
variable {W : World}

theorem lexLt_cons {le : String → W.Obj → W.Obj → Prop} {k : String} {ks : List String} {a b : Inst W} :
    LexLt le (k :: ks) a b ↔ FieldLt le a b k ∨ (SameField a b k ∧ LexLt le ks a b) := by
  constructor
  · rintro ⟨pre, j, post, he, hp, hj⟩
    cases pre with
    | nil => cases he; exact .inl hj
    | cons x pre =>
      cases he
      exact .inr ⟨hp k (by simp), pre, j, post, rfl, fun i hi => hp i (by simp [hi]), hj⟩
  · rintro (h | ⟨h, pre, j, post, rfl, hp, hj⟩)
    · exact ⟨[], k, ks, rfl, by simp, h⟩
    · refine ⟨k :: pre, j, post, rfl, ?_, hj⟩
      intro i hi
      cases hi with
      | head => exact h
      | tail _ hi => exact hp i hi

theorem lexEq_cons {k : String} {ks : List String} {a b : Inst W} : LexEq (k :: ks) a b ↔ SameField a b k ∧ LexEq ks a b := by
  unfold LexEq; simp

theorem not_lexLt_nil {le : String → W.Obj → W.Obj → Prop} {a b : Inst W} : ¬ LexLt le [] a b := by
  rintro ⟨pre, j, post, he, _⟩
  cases pre <;> cases he

/-- a list of fields with ordered values -/
def OrderedList (O : ObjCmp W) (le : String → W.Obj → W.Obj → Prop) (D : String → W.Obj → Prop) (ks : List String) : Prop :=
  ∀ k ∈ ks, TotalOn O (le k) (D k)

def DomList (D : String → W.Obj → Prop) (ks : List String) (i : Inst W) : Prop := ∀ k ∈ ks, ∃ v, i.dict.get? k = some v ∧ D k v

/-- the relations of one field, given the values -/
theorem field_rel {O : ObjCmp W} {le : W.Obj → W.Obj → Prop} {D : W.Obj → Prop} (h : TotalOn O le D) {v w : W.Obj} (hv : D v) (hw : D w) :
    (W.eq v w = true ∧ le v w ∧ le w v) ∨ (¬ W.eq v w = true ∧ le v w ∧ ¬ le w v) ∨ (¬ W.eq v w = true ∧ ¬ le v w ∧ le w v) := by
  rw [h.eq hv hw]
  rcases h.total hv hw with h1 | h1
  · by_cases h2 : le w v
    · exact .inl ⟨⟨h1, h2⟩, h1, h2⟩
    · exact .inr (.inl ⟨fun hc => h2 hc.2, h1, h2⟩)
  · by_cases h2 : le v w
    · exact .inl ⟨⟨h2, h1⟩, h2, h1⟩
    · exact .inr (.inr ⟨fun hc => h2 hc.1, h2, h1⟩)

theorem sameField_iff {a b : Inst W} {k : String} {v w : W.Obj} (hv : a.dict.get? k = some v) (hw : b.dict.get? k = some w) :
    SameField a b k ↔ W.eq v w = true := by
  constructor
  · rintro ⟨v', w', h1, h2, h3⟩
    rw [hv] at h1; rw [hw] at h2; cases h1; cases h2; exact h3
  · intro h; exact ⟨v, w, hv, hw, h⟩

theorem fieldLt_iff {le : String → W.Obj → W.Obj → Prop} {a b : Inst W} {k : String} {v w : W.Obj} (hv : a.dict.get? k = some v)
    (hw : b.dict.get? k = some w) : FieldLt le a b k ↔ ¬ le k w v := by
  constructor
  · rintro ⟨v', w', h1, h2, h3⟩
    rw [hv] at h1; rw [hw] at h2; cases h1; cases h2; exact h3
  · intro h; exact ⟨v, w, hv, hw, h⟩

variable {O : ObjCmp W} {le : String → W.Obj → W.Obj → Prop} {D : String → W.Obj → Prop}

theorem OrderedList.tail {k : String} {ks : List String} (h : OrderedList O le D (k :: ks)) : OrderedList O le D ks :=
  fun j hj => h j (by simp [hj])
theorem DomList.tail {k : String} {ks : List String} {i : Inst W} (h : DomList D (k :: ks) i) : DomList D ks i :=
  fun j hj => h j (by simp [hj])

theorem lexEq_symm {ks : List String} {a b : Inst W} (hO : OrderedList O le D ks) (ha : DomList D ks a) (hb : DomList D ks b)
    (h : LexEq ks a b) : LexEq ks b a := by
  intro k hk
  obtain ⟨v, hv, dv⟩ := ha k hk
  obtain ⟨w, hw, dw⟩ := hb k hk
  rw [sameField_iff hw hv, (hO k hk).eq dw dv]
  have := (sameField_iff hv hw).1 (h k hk)
  rw [(hO k hk).eq dv dw] at this
  exact ⟨this.2, this.1⟩

/-- exactly one of: smaller, equal, greater -/
theorem lex_trichotomy {ks : List String} {a b : Inst W} (hO : OrderedList O le D ks) (ha : DomList D ks a) (hb : DomList D ks b) :
    (LexLt le ks a b ∧ ¬ LexEq ks a b ∧ ¬ LexLt le ks b a) ∨ (¬ LexLt le ks a b ∧ LexEq ks a b ∧ ¬ LexLt le ks b a) ∨
      (¬ LexLt le ks a b ∧ ¬ LexEq ks a b ∧ LexLt le ks b a) := by
  induction ks with
  | nil => exact .inr (.inl ⟨not_lexLt_nil, nofun, not_lexLt_nil⟩)
  | cons k ks ih =>
    obtain ⟨v, hv, dv⟩ := ha k (by simp)
    obtain ⟨w, hw, dw⟩ := hb k (by simp)
    have hT := hO k (by simp)
    have ih := ih hO.tail ha.tail hb.tail
    rw [lexLt_cons, lexLt_cons, lexEq_cons, sameField_iff hv hw, sameField_iff hw hv, fieldLt_iff hv hw, fieldLt_iff hw hv,
      hT.eq dv dw, hT.eq dw dv]
    rcases hT.total dv dw with h | h <;> grind

theorem lex_trans {ks : List String} {a b c : Inst W} (hO : OrderedList O le D ks) (ha : DomList D ks a) (hb : DomList D ks b)
    (hc : DomList D ks c) (h1 : LexLt le ks a b ∨ LexEq ks a b) (h2 : LexLt le ks b c ∨ LexEq ks b c) :
    LexLt le ks a c ∨ LexEq ks a c := by
  induction ks with
  | nil => exact .inr nofun
  | cons k ks ih =>
    obtain ⟨v, hv, dv⟩ := ha k (by simp)
    obtain ⟨w, hw, dw⟩ := hb k (by simp)
    obtain ⟨x, hx, dx⟩ := hc k (by simp)
    have hT := hO k (by simp)
    have ih := ih hO.tail ha.tail hb.tail hc.tail
    have t1 := hT.trans dv dw dx
    have t2 := hT.trans dx dw dv
    have t3 := hT.trans dx dv dw
    have t4 := hT.trans dw dx dv
    have o1 := hT.total dv dw
    have o2 := hT.total dw dx
    have o3 := hT.total dv dx
    rw [lexLt_cons, lexEq_cons, sameField_iff hv hw, fieldLt_iff hv hw, hT.eq dv dw] at h1
    rw [lexLt_cons, lexEq_cons, sameField_iff hw hx, fieldLt_iff hw hx, hT.eq dw dx] at h2
    rw [lexLt_cons, lexEq_cons, sameField_iff hv hx, fieldLt_iff hv hx, hT.eq dv dx]
    grind

theorem attrs_ok {E : Env W} {ks : List String} {i : Inst W} (h : DomList D ks i) : ∃ vs, attrs E i ks = .ok vs := by
  induction ks with
  | nil => exact ⟨[], rfl⟩
  | cons k ks ih =>
    obtain ⟨v, hv, _⟩ := h k (by simp)
    obtain ⟨vs, hvs⟩ := ih h.tail
    refine ⟨v :: vs, ?_⟩
    unfold attrs
    rw [show i.attr E k = .ok v by unfold Inst.attr; rw [hv]]
    simp only [hvs]

theorem listCmp_lex {E : Env W} {ks : List String} {a b : Inst W} (hO : OrderedList O le D ks) (ha : DomList D ks a)
    (hb : DomList D ks b) (op : CmpOp) :
    ∃ ka kb r, attrs E a ks = .ok ka ∧ attrs E b ks = .ok kb ∧ listCmp O op ka kb = .ok r ∧ (r = true ↔ LexAns le ks a b op) := by
  induction ks with
  | nil =>
    refine ⟨[], [], _, rfl, rfl, rfl, ?_⟩
    have hn : ∀ a b : Inst W, ¬ LexLt le [] a b := fun _ _ => not_lexLt_nil
    have he : ∀ a b : Inst W, LexEq [] a b := fun _ _ => nofun
    cases op <;> simp [CmpOp.nat, LexAns, hn, he]
  | cons k ks ih =>
    obtain ⟨v, hv, dv⟩ := ha k (by simp)
    obtain ⟨w, hw, dw⟩ := hb k (by simp)
    have hT := hO k (by simp)
    obtain ⟨ka, kb, r, h1, h2, h3, h4⟩ := ih hO.tail ha.tail hb.tail
    have ea : attrs E a (k :: ks) = .ok (v :: ka) := by
      unfold attrs
      rw [show a.attr E k = .ok v by unfold Inst.attr; rw [hv]]
      simp only [h1]
    have eb : attrs E b (k :: ks) = .ok (w :: kb) := by
      unfold attrs
      rw [show b.attr E k = .ok w by unfold Inst.attr; rw [hw]]
      simp only [h2]
    have hid : v = w ∨ W.eq v w = true ↔ W.eq v w = true := by
      constructor
      · rintro (rfl | h)
        · rw [hT.eq dv dv]
          rcases hT.total dv dv with h | h <;> exact ⟨h, h⟩
        · exact h
      · exact .inr
    have hsym : W.eq v w = true ↔ W.eq w v = true := by rw [hT.eq dv dw, hT.eq dw dv]; exact And.comm
    by_cases he : W.eq v w = true
    · refine ⟨v :: ka, w :: kb, r, ea, eb, by rw [listCmp, if_pos (hid.2 he)]; exact h3, ?_⟩
      rw [h4]
      have he' := (hT.eq dv dw).1 he
      cases op <;>
        simp only [LexAns, lexLt_cons, lexEq_cons, sameField_iff hv hw, sameField_iff hw hv, fieldLt_iff hv hw, fieldLt_iff hw hv] <;>
        grind
    · obtain ⟨r', hr', hr''⟩ := hT.ans op dv dw
      refine ⟨v :: ka, w :: kb, r', ea, eb, by rw [listCmp, if_neg (by rw [hid]; exact he)]; exact hr', ?_⟩
      rw [hr'']
      have := hT.total dv dw
      rw [hT.eq dv dw] at he
      have he2 : ¬ W.eq w v = true := by rw [hT.eq dw dv]; exact fun h => he h.symm
      cases op <;>
        simp only [LexAns, lexLt_cons, lexEq_cons, sameField_iff hv hw, sameField_iff hw hv, fieldLt_iff hv hw, fieldLt_iff hw hv,
          hT.eq dv dw, hT.eq dw dv] <;>
        grind

end Records
