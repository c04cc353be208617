import Verif.Spec.Kin
import Verif.Proofs.Order
import Verif.Props.Class
set_option linter.unusedSimpArgs false
/- Lemmas about the order of records of a line of classes. -/
namespace Records
variable {W : World} {O : ObjCmp W} {le : String → W.Obj → W.Obj → Prop} {D : String → W.Obj → Prop}

/-- one list continues the other -/
def Continues (na nb : List String) : Prop := (∃ m, nb = na ++ m) ∨ ∃ m, na = nb ++ m

theorem Continues.symm {na nb : List String} (h : Continues na nb) : Continues nb na := h.elim .inr .inl

theorem Continues.cons {k j : String} {na nb : List String} (h : Continues (k :: na) (j :: nb)) : k = j ∧ Continues na nb := by
  rcases h with ⟨m, h⟩ | ⟨m, h⟩
  · simp only [List.cons_append, List.cons.injEq] at h
    exact ⟨h.1.symm, .inl ⟨m, h.2⟩⟩
  · simp only [List.cons_append, List.cons.injEq] at h
    exact ⟨h.1, .inr ⟨m, h.2⟩⟩

theorem kinLt_cons {k : String} {na nb : List String} {a b : Inst W} :
    KinLt le (k :: na) (k :: nb) a b ↔ FieldLt le a b k ∨ (SameField a b k ∧ KinLt le na nb a b) := by
  constructor
  · rintro (⟨pre, j, post, post', h1, h2, hp, hj⟩ | ⟨j, rest, h, hs⟩)
    · cases pre with
      | nil => cases h1; exact .inl hj
      | cons x pre =>
        cases h1; cases h2
        exact .inr ⟨hp _ (by simp), .inl ⟨pre, j, post, post', rfl, rfl, fun i hi => hp i (by simp [hi]), hj⟩⟩
    · simp only [List.cons_append, List.cons.injEq, true_and] at h
      exact .inr ⟨hs _ (by simp), .inr ⟨j, rest, h, fun i hi => hs i (by simp [hi])⟩⟩
  · rintro (h | ⟨h, ⟨pre, j, post, post', rfl, rfl, hp, hj⟩ | ⟨j, rest, rfl, hs⟩⟩)
    · exact .inl ⟨[], k, na, nb, rfl, rfl, by simp, h⟩
    · refine .inl ⟨k :: pre, j, post, post', rfl, rfl, ?_, hj⟩
      intro i hi
      cases hi with
      | head => exact h
      | tail _ hi => exact hp i hi
    · refine .inr ⟨j, rest, rfl, ?_⟩
      intro i hi
      cases hi with
      | head => exact h
      | tail _ hi => exact hs i hi

theorem kinLt_nil_cons {k : String} {nb : List String} {a b : Inst W} : KinLt le [] (k :: nb) a b := .inr ⟨k, nb, rfl, nofun⟩

theorem not_kinLt_nil {na : List String} {a b : Inst W} : ¬ KinLt le na [] a b := by
  rintro (⟨pre, j, post, post', h1, h2, _⟩ | ⟨j, rest, h, _⟩)
  · cases pre <;> cases h2
  · cases na <;> cases h

theorem kinEq_cons {k : String} {na nb : List String} {a b : Inst W} :
    KinEq (k :: na) (k :: nb) a b ↔ SameField a b k ∧ KinEq na nb a b := by
  unfold KinEq
  simp only [List.cons.injEq, true_and, List.mem_cons, forall_eq_or_imp]
  constructor
  · rintro ⟨h1, h2, h3⟩; exact ⟨h2, h1, h3⟩
  · rintro ⟨h1, h2, h3⟩; exact ⟨h2, h1, h3⟩

theorem kinEq_nil {a b : Inst W} : KinEq [] [] a b := ⟨rfl, nofun⟩
theorem not_kinEq_nil_cons {k : String} {nb : List String} {a b : Inst W} : ¬ KinEq [] (k :: nb) a b := fun h => by cases h.1
theorem not_kinEq_cons_nil {k : String} {na : List String} {a b : Inst W} : ¬ KinEq (k :: na) [] a b := fun h => by cases h.1

theorem kinEq_symm {na nb : List String} {a b : Inst W} (hO : OrderedList O le D na) (ha : DomList D na a) (hb : DomList D nb b)
    (h : KinEq na nb a b) : KinEq nb na b a := by
  obtain ⟨rfl, h⟩ := h
  exact ⟨rfl, lexEq_symm hO ha hb h⟩

/-- exactly one of: before, alike, after -/
theorem kin_trichotomy {na nb : List String} {a b : Inst W} (hc : Continues na nb) (hO : OrderedList O le D na)
    (ha : DomList D na a) (hb : DomList D nb b) :
    (KinLt le na nb a b ∧ ¬ KinEq na nb a b ∧ ¬ KinLt le nb na b a) ∨ (¬ KinLt le na nb a b ∧ KinEq na nb a b ∧ ¬ KinLt le nb na b a) ∨
      (¬ KinLt le na nb a b ∧ ¬ KinEq na nb a b ∧ KinLt le nb na b a) := by
  induction na generalizing nb with
  | nil =>
    cases nb with
    | nil => exact .inr (.inl ⟨not_kinLt_nil, kinEq_nil, not_kinLt_nil⟩)
    | cons k nb => exact .inl ⟨kinLt_nil_cons, not_kinEq_nil_cons, not_kinLt_nil⟩
  | cons k na ih =>
    cases nb with
    | nil => exact .inr (.inr ⟨not_kinLt_nil, not_kinEq_cons_nil, kinLt_nil_cons⟩)
    | cons j nb =>
      obtain ⟨rfl, hcn⟩ := hc.cons
      obtain ⟨v, hv, dv⟩ := ha k (by simp)
      obtain ⟨w, hw, dw⟩ := hb k (by simp)
      have hT := hO k (by simp)
      have ih := ih hcn hO.tail ha.tail hb.tail
      rw [kinLt_cons, kinLt_cons, kinEq_cons, sameField_iff hv hw, sameField_iff hw hv, fieldLt_iff hv hw, fieldLt_iff hw hv,
        hT.eq dv dw, hT.eq dw dv]
      rcases hT.total dv dw with h | h <;> grind

theorem kin_trans {na nb nc : List String} {a b c : Inst W} (hab : Continues na nb) (hbc : Continues nb nc)
    (hO : OrderedList O le D na) (ha : DomList D na a) (hb : DomList D nb b) (hc : DomList D nc c)
    (h1 : KinLt le na nb a b ∨ KinEq na nb a b) (h2 : KinLt le nb nc b c ∨ KinEq nb nc b c) :
    KinLt le na nc a c ∨ KinEq na nc a c := by
  induction na generalizing nb nc with
  | nil =>
    cases nc with
    | nil => exact .inr kinEq_nil
    | cons k nc => exact .inl kinLt_nil_cons
  | cons k na ih =>
    cases nb with
    | nil => exact absurd h1 (fun h => h.elim not_kinLt_nil not_kinEq_cons_nil)
    | cons j nb =>
      obtain ⟨rfl, hab'⟩ := hab.cons
      cases nc with
      | nil => exact absurd h2 (fun h => h.elim not_kinLt_nil not_kinEq_cons_nil)
      | cons j nc =>
        obtain ⟨rfl, hbc'⟩ := hbc.cons
        obtain ⟨v, hv, dv⟩ := ha k (by simp)
        obtain ⟨w, hw, dw⟩ := hb k (by simp)
        obtain ⟨x, hx, dx⟩ := hc k (by simp)
        have hT := hO k (by simp)
        have ih := ih hab' hbc' hO.tail ha.tail hb.tail hc.tail
        have t1 := hT.trans dv dw dx
        have t2 := hT.trans dx dw dv
        have t3 := hT.trans dx dv dw
        have t4 := hT.trans dw dx dv
        have o1 := hT.total dv dw
        have o2 := hT.total dw dx
        have o3 := hT.total dv dx
        rw [kinLt_cons, kinEq_cons, sameField_iff hv hw, fieldLt_iff hv hw, hT.eq dv dw] at h1
        rw [kinLt_cons, kinEq_cons, sameField_iff hw hx, fieldLt_iff hw hx, hT.eq dw dx] at h2
        rw [kinLt_cons, kinEq_cons, sameField_iff hv hx, fieldLt_iff hv hx, hT.eq dv dx]
        grind

theorem listCmp_kin {E : Env W} {na nb : List String} {a b : Inst W} (hc : Continues na nb) (hO : OrderedList O le D na)
    (ha : DomList D na a) (hb : DomList D nb b) (op : CmpOp) :
    ∃ ka kb r, attrs E a na = .ok ka ∧ attrs E b nb = .ok kb ∧ listCmp O op ka kb = .ok r ∧ (r = true ↔ KinAns le na nb a b op) := by
  induction na generalizing nb with
  | nil =>
    obtain ⟨kb, hkb⟩ := attrs_ok (E := E) hb
    cases nb with
    | nil =>
      cases hkb
      refine ⟨[], [], _, rfl, rfl, rfl, ?_⟩
      have hn : ∀ a b : Inst W, ¬ KinLt le [] [] a b := fun _ _ => not_kinLt_nil
      have he : ∀ a b : Inst W, KinEq [] [] a b := fun _ _ => kinEq_nil
      cases op <;> simp [CmpOp.nat, KinAns, hn, he]
    | cons k nb =>
      obtain ⟨w, kb', rfl⟩ : ∃ w kb', kb = w :: kb' := by
        unfold attrs at hkb
        split at hkb
        · cases hkb
        · split at hkb
          · cases hkb
          · cases hkb; exact ⟨_, _, rfl⟩
      refine ⟨[], _, _, rfl, hkb, rfl, ?_⟩
      have h1 : KinLt le [] (k :: nb) a b := kinLt_nil_cons
      have h2 : ¬ KinLt le (k :: nb) [] b a := not_kinLt_nil
      have h3 : ¬ KinEq (k :: nb) [] b a := not_kinEq_cons_nil
      cases op <;> simp [CmpOp.nat, KinAns, h1, h2, h3]
  | cons k na ih =>
    cases nb with
    | nil =>
      obtain ⟨ka, hka⟩ := attrs_ok (E := E) ha
      obtain ⟨w, ka', rfl⟩ : ∃ w ka', ka = w :: ka' := by
        unfold attrs at hka
        split at hka
        · cases hka
        · split at hka
          · cases hka
          · cases hka; exact ⟨_, _, rfl⟩
      refine ⟨_, [], _, hka, rfl, rfl, ?_⟩
      have h1 : KinLt le [] (k :: na) b a := kinLt_nil_cons
      have h2 : ¬ KinLt le (k :: na) [] a b := not_kinLt_nil
      have h3 : ¬ KinEq (k :: na) [] a b := not_kinEq_cons_nil
      cases op <;> simp [CmpOp.nat, KinAns, h1, h2, h3]
    | cons j nb =>
      obtain ⟨rfl, hcn⟩ := hc.cons
      obtain ⟨v, hv, dv⟩ := ha k (by simp)
      obtain ⟨w, hw, dw⟩ := hb k (by simp)
      have hT := hO k (by simp)
      obtain ⟨ka, kb, r, h1, h2, h3, h4⟩ := ih hcn hO.tail ha.tail hb.tail
      have ea : attrs E a (k :: na) = .ok (v :: ka) := by
        unfold attrs
        rw [show a.attr E k = .ok v by unfold Inst.attr; rw [hv]]
        simp only [h1]
      have eb : attrs E b (k :: nb) = .ok (w :: kb) := by
        unfold attrs
        rw [show b.attr E k = .ok w by unfold Inst.attr; rw [hw]]
        simp only [h2]
      have hr := field_rel hT dv dw
      have hs1 := sameField_iff hv hw
      have hs2 := sameField_iff hw hv
      have hl1 := fieldLt_iff (le := le) hv hw
      have hl2 := fieldLt_iff (le := le) hw hv
      have he := hT.eq dw dv
      by_cases hvw : W.eq v w = true
      · refine ⟨_, _, r, ea, eb, ?_, ?_⟩
        · unfold listCmp; rw [if_pos (.inr hvw)]; exact h3
        · rw [h4]
          cases op <;> simp only [KinAns, kinLt_cons, kinEq_cons] <;> grind
      · obtain ⟨r', h5, h6⟩ := hT.ans op dv dw
        have hne : ¬ (v = w ∨ W.eq v w = true) := by
          rintro (e | e)
          · subst e
            rcases hT.total dv dv with h | h <;> exact hvw ((hT.eq dv dv).2 ⟨h, h⟩)
          · exact hvw e
        refine ⟨_, _, r', ea, eb, ?_, ?_⟩
        · unfold listCmp; rw [if_neg hne]; exact h5
        · rw [h6]
          cases op <;> simp only [KinAns, kinLt_cons, kinEq_cons] <;> grind

/-! lines of descent -/

theorem Line.desc {B D : RecClass W} (h : Line B D) : Desc B D := by
  induction h with
  | refl => exact .refl
  | step sp C D rest hok hp hmk hps _ ih => exact .step sp D C hok hp hmk (by rw [hps]; simp) ih

/-- the names that count, given the fields -/
theorem orderNames_filter {C : RecClass W} (wf : C.WF) : orderNames C =
    (C.fields.map (·.1)).filter fun k => match C.fields.get? k with | some f => !f.tags.contains excludeTag | none => false := by
  unfold orderNames
  rw [List.filter_map]
  congr 1
  apply List.filter_congr
  intro kf hkf
  simp only [Function.comp]
  rw [Dict.mem_get? _ wf.nodup kf.1 kf.2 hkf]

theorem Line.continues {B D : RecClass W} (h : Line B D) : ∃ more, orderNames D = orderNames B ++ more := by
  induction h with
  | refl => exact ⟨[], by simp⟩
  | step sp C D rest hok hp hmk hps hl ih =>
    obtain ⟨m, hm⟩ := ih
    have hC : Creatable C := hp C (by rw [hps]; simp)
    have hD : Creatable D := .intro sp D hok hp hmk
    obtain ⟨own, -, hkeys⟩ := mkClass_keys hok hmk
    have hk : D.fields.map (·.1) = C.fields.map (·.1) ++ ((rest.flatMap fun p => p.fields.map (·.1)) ++ own.map (·.1)) := by
      have e : D.fields.map (·.1) = sp.inherited ++ own.map (·.1) := hkeys
      rw [e]
      unfold ClassSpec.inherited
      rw [hps, List.flatMap_cons, List.append_assoc]
    rw [orderNames_filter hD.wf, hk, List.filter_append]
    have e : (C.fields.map (·.1)).filter (fun k => match D.fields.get? k with | some f => !f.tags.contains excludeTag | none => false) =
        orderNames C := by
      rw [orderNames_filter hC.wf]
      apply List.filter_congr
      intro k hkm
      obtain ⟨f, hf⟩ := Option.isSome_iff_exists.1 ((Dict.get?_isSome_iff _ _).2 hkm)
      rw [hf, mkClass_inherits hok hmk (fun p hpm => (hp p hpm).wf.bound) (p := C) (by rw [hps]; simp) hf]
    rw [e, hm, List.append_assoc]
    exact ⟨_, rfl⟩

end Records
