import Verif.Spec.Class
import Verif.Proofs.Dict
import Verif.Proofs.Bind
set_option linter.unusedSimpArgs false
/-
Lemmas about class creation.
-/
namespace Records
variable {W : World}

theorem perm_of_nodup {α : Type} {l₁ l₂ : List α} (h₁ : l₁.Nodup) (h₂ : l₂.Nodup) (h : ∀ x, x ∈ l₁ ↔ x ∈ l₂) :
    l₁.Perm l₂ := by
  induction l₁ generalizing l₂ with
  | nil =>
    cases l₂ with
    | nil => exact .nil
    | cons a l => exact absurd ((h a).2 (.head _)) (by simp)
  | cons a l ih =>
    obtain ⟨s, t, rfl⟩ := List.append_of_mem ((h a).1 (.head _))
    have h₁' := List.nodup_cons.1 h₁
    have hp : (s ++ a :: t).Perm (a :: (s ++ t)) := List.perm_middle
    have h₂' := List.nodup_cons.1 (hp.nodup_iff.1 h₂)
    refine (List.Perm.cons a (ih h₁'.2 h₂'.2 ?_)).trans hp.symm
    intro x
    have := h x
    rw [hp.mem_iff] at this
    simp only [List.mem_cons] at this
    constructor
    · intro hx
      rcases this.1 (.inr hx) with rfl | h
      · exact absurd hx h₁'.1
      · exact h
    · intro hx
      rcases this.2 (.inr hx) with rfl | h
      · exact absurd hx h₂'.1
      · exact h

/-! ### own declarations -/

theorem fieldFromHint_some {o : W.Cls} {fr : Bool} {n : String} {d : Option (Deflt W)} {h : FHint W} {f : Field W}
    (hf : fieldFromHint o fr n d h = .ok (some f)) :
    f.name = n ∧ f.default = d ∧ f.owner = o ∧ ∃ t, h.type? = some t ∧ getFiller t = .ok f.filler ∧
      (∀ toks, h = .final t toks → fr = true) := by
  cases h with
  | classVar => cases hf
  | rawFinal => cases hf
  | plain t =>
    simp only [fieldFromHint] at hf
    cases hg : getFiller t with
    | error e => simp [hg] at hf
    | ok g => simp only [hg] at hf; cases hf; exact ⟨rfl, rfl, rfl, t, rfl, hg, nofun⟩
  | final t toks =>
    simp only [fieldFromHint] at hf
    cases fr with
    | false => simp at hf
    | true =>
      simp only [Bool.not_true, Bool.false_eq_true, if_false] at hf
      cases hg : getFiller t with
      | error e => simp [hg] at hf
      | ok g => simp only [hg] at hf; cases hf; exact ⟨rfl, rfl, rfl, t, rfl, hg, fun _ _ => rfl⟩

theorem fieldFromHint_none {o : W.Cls} {fr : Bool} {n : String} {d : Option (Deflt W)} {h : FHint W}
    (hf : fieldFromHint o fr n d h = .ok none) : h = .classVar := by
  cases h with
  | classVar => rfl
  | rawFinal => cases hf
  | plain t =>
    simp only [fieldFromHint] at hf
    cases hg : getFiller t <;> simp [hg] at hf
  | final t toks =>
    simp only [fieldFromHint] at hf
    cases fr <;> simp at hf
    cases hg : getFiller t <;> simp [hg] at hf

theorem FHint.declares_of_type {h : FHint W} {t : Hint W} (ht : h.type? = some t) : h.declares = true := by
  cases h <;> simp_all [FHint.type?, FHint.declares]

theorem ownFields_ok {sp : ClassSpec W} {l : List (String × FHint W)} {fs : Dict (Field W)}
    (h : ownFields sp l = .ok fs) :
    fs.keys = (l.filter fun a => a.2.declares).map (·.1) ∧
    ∀ n f, (n, f) ∈ fs → ∃ hh, (n, hh) ∈ l ∧ fieldFromHint sp.cid sp.frozen n (sp.defaultOf n) hh = .ok (some f) := by
  induction l generalizing fs with
  | nil => cases h; exact ⟨rfl, nofun⟩
  | cons a l ih =>
    obtain ⟨n, hh⟩ := a
    simp only [ownFields] at h
    cases h1 : fieldFromHint sp.cid sp.frozen n (sp.defaultOf n) hh with
    | error e => simp [h1] at h
    | ok f =>
      simp only [h1] at h
      cases h2 : ownFields sp l with
      | error e => simp [h2] at h
      | ok fs' =>
        simp only [h2] at h
        obtain ⟨ih1, ih2⟩ := ih h2
        cases f with
        | none =>
          cases h
          have := fieldFromHint_none h1
          subst this
          refine ⟨by simpa [FHint.declares] using ih1, fun n f hm => ?_⟩
          obtain ⟨hh, hm, he⟩ := ih2 n f hm
          exact ⟨hh, .tail _ hm, he⟩
        | some f =>
          cases h
          obtain ⟨-, -, -, t, ht, -, -⟩ := fieldFromHint_some h1
          refine ⟨?_, fun n' f' hm => ?_⟩
          · simp only [Dict.keys] at ih1 ⊢
            simp [FHint.declares_of_type ht, ih1]
          · cases hm with
            | head => exact ⟨hh, .head _, h1⟩
            | tail _ hm =>
              obtain ⟨hh, hm, he⟩ := ih2 n' f' hm
              exact ⟨hh, .tail _ hm, he⟩

/-- own fields for legal hints -/
theorem ownFields_mem {sp : ClassSpec W} {l : List (String × FHint W)} {fs : Dict (Field W)}
    (h : ownFields sp l = .ok fs) {n : String} {hh : FHint W} (hm : (n, hh) ∈ l) :
    hh = .classVar ∨ ∃ f, (n, f) ∈ fs ∧ fieldFromHint sp.cid sp.frozen n (sp.defaultOf n) hh = .ok (some f) := by
  induction l generalizing fs with
  | nil => cases hm
  | cons a l ih =>
    obtain ⟨n', hh'⟩ := a
    simp only [ownFields] at h
    cases h1 : fieldFromHint sp.cid sp.frozen n' (sp.defaultOf n') hh' with
    | error e => simp [h1] at h
    | ok f =>
      simp only [h1] at h
      cases h2 : ownFields sp l with
      | error e => simp [h2] at h
      | ok fs' =>
        simp only [h2] at h
        cases h
        cases hm with
        | head =>
          cases f with
          | none => exact .inl (fieldFromHint_none h1)
          | some f => exact .inr ⟨f, .head _, h1⟩
        | tail _ hm =>
          rcases ih h2 hm with h | ⟨f', hf', he⟩
          · exact .inl h
          · refine .inr ⟨f', ?_, he⟩
            cases f with
            | none => exact hf'
            | some f => exact .tail _ hf'

theorem ownFields_exists {sp : ClassSpec W} {l : List (String × FHint W)}
    (h : ∀ a ∈ l, ∃ f, fieldFromHint sp.cid sp.frozen a.1 (sp.defaultOf a.1) a.2 = .ok f) : ∃ fs, ownFields sp l = .ok fs := by
  induction l with
  | nil => exact ⟨_, rfl⟩
  | cons a l ih =>
    obtain ⟨f, hf⟩ := h a (.head _)
    obtain ⟨fs, hfs⟩ := ih fun b hb => h b (.tail _ hb)
    simp only [ownFields, hf, hfs]
    exact ⟨_, rfl⟩

/-! ### order of the hints -/

theorem hints_perm {sp : ClassSpec W} (hok : sp.OK) : sp.hints.Perm sp.anns := by
  have hanns : sp.anns.Nodup := List.Pairwise.of_map _ (fun a b h he => h (congrArg _ he)) hok.anns
  have hwf : Dict.WF sp.anns := hok.anns
  have hmem : ∀ x, x ∈ (sp.baseAnns.filterMap fun n => (Dict.get? sp.anns n).map fun h => (n, h)) ↔
      x ∈ sp.anns.filter fun a => decide (a.1 ∈ sp.baseAnns) := by
    intro x
    simp only [List.mem_filterMap, Option.map_eq_some_iff, List.mem_filter, decide_eq_true_eq]
    constructor
    · rintro ⟨n, hn, h, hh, rfl⟩
      exact ⟨Dict.get?_eq_some_mem _ _ _ hh, hn⟩
    · rintro ⟨hx, hb⟩
      exact ⟨x.1, hb, x.2, Dict.mem_get? _ hwf _ _ hx, rfl⟩
  have hnd : (sp.baseAnns.filterMap fun n => (Dict.get? sp.anns n).map fun h => (n, h)).Nodup := by
    have : ∀ l : List String, l.Nodup → (l.filterMap fun n => (Dict.get? sp.anns n).map fun h => (n, h)).Nodup := by
      intro l hl
      induction l with
      | nil => exact .nil
      | cons a l ih =>
        have hl' := List.nodup_cons.1 hl
        simp only [List.filterMap_cons]
        cases hg : Dict.get? sp.anns a with
        | none => exact ih hl'.2
        | some h =>
          simp only [Option.map_some]
          refine List.nodup_cons.2 ⟨?_, ih hl'.2⟩
          simp only [List.mem_filterMap, Option.map_eq_some_iff, not_exists, not_and]
          intro n hn h' _ he
          cases he
          exact hl'.1 hn
    exact this _ hok.bases
  have h1 := perm_of_nodup hnd (hanns.filter _) hmem
  refine (h1.append_right _).trans ?_
  have := List.filter_append_perm (fun a : String × FHint W => decide (a.1 ∈ sp.baseAnns)) sp.anns
  simpa using this

theorem hints_disjoint {sp : ClassSpec W} (h : ∀ n ∈ sp.baseAnns, n ∉ sp.anns.map (·.1)) : sp.hints = sp.anns := by
  unfold ClassSpec.hints
  have h1 : (sp.baseAnns.filterMap fun n => (Dict.get? sp.anns n).map fun h => (n, h)) = [] := by
    rw [List.filterMap_eq_nil_iff]
    intro n hn
    rw [(Dict.get?_eq_none_iff sp.anns n).2 (h n hn)]; rfl
  rw [h1, List.nil_append, List.filter_eq_self]
  intro a ha
  simp only [decide_eq_true_eq]
  exact fun hb => h _ hb (List.mem_map_of_mem ha)

/-! ### inherited fields -/

theorem addInherited_ok {own l acc r : Dict (Field W)} (h : addInherited own l acc = .ok r) :
    r = acc ++ l ∧ (acc.WF → r.WF) ∧ ∀ k ∈ l.keys, k ∉ own.keys := by
  induction l generalizing acc with
  | nil => cases h; exact ⟨by simp, id, nofun⟩
  | cons a l ih =>
    obtain ⟨k, f⟩ := a
    simp only [addInherited] at h
    split at h
    · cases h
    · rename_i hc
      simp only [Bool.or_eq_true, not_or, Bool.not_eq_true] at hc
      obtain ⟨h1, h2, h3⟩ := ih h
      have hk := (Dict.has_eq_false_iff acc k).1 hc.2
      rw [Dict.set_of_not_mem _ _ _ hk] at h1
      refine ⟨by simp [h1], fun hw => h2 (hw.set _ _), ?_⟩
      intro k' hk'
      simp only [Dict.keys, List.map_cons, List.mem_cons] at hk'
      rcases hk' with rfl | hk'
      · exact (Dict.has_eq_false_iff own _).1 hc.1
      · exact h3 k' hk'

theorem addInherited_error {own l acc : Dict (Field W)} {e : Exc} (h : addInherited own l acc = .error e) :
    e = .valueError ∧ (acc.WF → (∃ k ∈ l.keys, k ∈ own.keys) ∨ ¬ Dict.WF (acc ++ l)) := by
  induction l generalizing acc with
  | nil => cases h
  | cons a l ih =>
    obtain ⟨k, f⟩ := a
    simp only [addInherited] at h
    split at h
    · rename_i hc
      cases h
      refine ⟨rfl, fun hw => ?_⟩
      simp only [Bool.or_eq_true, Dict.has_iff] at hc
      rcases hc with hc | hc
      · exact .inl ⟨k, by simp [Dict.keys], hc⟩
      · refine .inr fun hwf => ?_
        simp only [Dict.WF, Dict.keys, List.map_append, List.map_cons] at hwf
        exact (List.nodup_append.1 hwf).2.2 k hc k (by simp) rfl
    · rename_i hc
      simp only [Bool.or_eq_true, not_or, Bool.not_eq_true] at hc
      have hk := (Dict.has_eq_false_iff acc k).1 hc.2
      rw [Dict.set_of_not_mem _ _ _ hk] at h
      obtain ⟨h1, h2⟩ := ih h
      refine ⟨h1, fun hw => ?_⟩
      have hw' : Dict.WF (acc ++ [(k, f)]) := by rw [← Dict.set_of_not_mem _ _ f hk]; exact hw.set _ _
      rcases h2 hw' with ⟨k', h3, h4⟩ | h3
      · exact .inl ⟨k', by simp only [Dict.keys] at h3 ⊢; simp [h3], h4⟩
      · exact .inr (by simpa using h3)

theorem inheritedFields_ok {own acc r : Dict (Field W)} {ps : List (RecClass W)}
    (h : inheritedFields own ps acc = .ok r) :
    r = acc ++ ps.flatMap (·.fields) ∧ (acc.WF → r.WF) ∧ ∀ k ∈ Dict.keys (ps.flatMap (·.fields)), k ∉ own.keys := by
  induction ps generalizing acc with
  | nil => cases h; exact ⟨by simp, id, nofun⟩
  | cons p ps ih =>
    simp only [inheritedFields] at h
    cases h1 : addInherited own p.fields acc with
    | error e => simp [h1] at h
    | ok acc' =>
      simp only [h1] at h
      obtain ⟨a1, a2, a3⟩ := addInherited_ok h1
      obtain ⟨b1, b2, b3⟩ := ih h
      refine ⟨by simp [b1, a1], fun hw => b2 (a2 hw), ?_⟩
      intro k hk
      simp only [Dict.keys, List.flatMap_cons, List.map_append, List.mem_append] at hk
      rcases hk with hk | hk
      · exact a3 k hk
      · exact b3 k hk

theorem inheritedFields_error {own acc : Dict (Field W)} {ps : List (RecClass W)} {e : Exc}
    (h : inheritedFields own ps acc = .error e) :
    e = .valueError ∧ (acc.WF → (∃ k ∈ Dict.keys (ps.flatMap (·.fields)), k ∈ own.keys) ∨
      ¬ Dict.WF (acc ++ ps.flatMap (·.fields))) := by
  induction ps generalizing acc with
  | nil => cases h
  | cons p ps ih =>
    simp only [inheritedFields] at h
    cases h1 : addInherited own p.fields acc with
    | error e =>
      simp only [h1] at h; cases h
      obtain ⟨a1, a2⟩ := addInherited_error h1
      refine ⟨a1, fun hw => ?_⟩
      rcases a2 hw with ⟨k, hk, ho⟩ | hn
      · exact .inl ⟨k, by simp only [Dict.keys] at hk ⊢; simp [hk], ho⟩
      · refine .inr fun hwf => hn ?_
        simp only [Dict.WF, Dict.keys, List.map_append, List.flatMap_cons] at hwf ⊢
        rw [← List.append_assoc] at hwf
        exact (List.nodup_append.1 hwf).1
    | ok acc' =>
      simp only [h1] at h
      obtain ⟨a1, a2, a3⟩ := addInherited_ok h1
      obtain ⟨b1, b2⟩ := ih h
      refine ⟨b1, fun hw => ?_⟩
      rcases b2 (a2 hw) with ⟨k, hk, ho⟩ | hn
      · exact .inl ⟨k, by simp only [Dict.keys] at hk ⊢; simp [hk], ho⟩
      · exact .inr (by rw [a1] at hn; simpa using hn)

/-! ### pre_bind and bind, field by field -/

theorem Dict.keys_set_self {V : Type} {d : Dict V} {k : String} {v w : V} (h : d.get? k = some v) :
    Dict.keys (d.set k w) = d.keys :=
  Dict.keys_set_of_mem _ _ _ (Dict.keys_mem_of_mem (Dict.get?_eq_some_mem _ _ _ h))

/-- the tokens for one name -/
def tokFor (pre : List (String × Option Int × Tok W)) (n : String) : List (Option Int × Tok W) :=
  pre.filterMap fun q => if q.1 = n then some (q.2.1, q.2.2) else none

theorem preBind_ok {pre : List (String × Option Int × Tok W)} {fs fs' : Dict (Field W)} (h : preBind pre fs = .ok fs') :
    fs'.keys = fs.keys ∧ (∀ q ∈ pre, q.1 ∈ fs.keys) ∧
    ∀ k f, fs.get? k = some f → ∃ g, f.filler.applyPre (tokFor pre k) = .ok g ∧ fs'.get? k = some { f with filler := g } := by
  induction pre generalizing fs with
  | nil => cases h; exact ⟨rfl, nofun, fun k f hf => ⟨f.filler, rfl, hf⟩⟩
  | cons q pre ih =>
    obtain ⟨n, key, t⟩ := q
    simp only [preBind] at h
    cases h1 : preStep fs n key t with
    | error e => simp [h1] at h
    | ok fs1 =>
      simp only [h1] at h
      obtain ⟨i1, i2, i3⟩ := ih h
      unfold preStep at h1
      cases hn : fs.get? n with
      | none => simp [hn] at h1
      | some f0 =>
        simp only [hn] at h1
        cases ha : f0.filler.applySub key t with
        | error e => simp [ha] at h1
        | ok g =>
          simp only [ha] at h1
          cases h1
          have hk : Dict.keys (fs.set n { f0 with filler := g }) = fs.keys := Dict.keys_set_self hn
          rw [hk] at i1 i2
          refine ⟨i1, ?_, ?_⟩
          · intro q hq
            cases hq with
            | head => exact Dict.keys_mem_of_mem (Dict.get?_eq_some_mem _ _ _ hn)
            | tail _ hq => exact i2 q hq
          · intro k f hf
            have hset := Dict.get?_set fs n k { f0 with filler := g }
            by_cases hkn : k = n
            · subst hkn
              rw [hn] at hf; cases hf
              rw [if_pos rfl] at hset
              obtain ⟨g', hg', hr⟩ := i3 k _ hset
              exact ⟨g', by simp only [tokFor, List.filterMap_cons, if_true, F.applyPre, ha]; exact hg', hr⟩
            · rw [if_neg hkn] at hset
              obtain ⟨g', hg', hr⟩ := i3 k f (hset.trans hf)
              refine ⟨g', ?_, hr⟩
              have : (if n = k then some (key, t) else Option.none) = Option.none := if_neg fun h => hkn h.symm
              simp only [tokFor, List.filterMap_cons, this]; exact hg'

theorem applyPre_append_ok {f g : F W} {a b : List (Option Int × Tok W)} (h : f.applyPre (a ++ b) = .ok g) :
    ∃ g', f.applyPre a = .ok g' ∧ g'.applyPre b = .ok g := by
  induction a generalizing f with
  | nil => exact ⟨f, rfl, h⟩
  | cons q a ih =>
    obtain ⟨key, t⟩ := q
    simp only [List.cons_append, F.applyPre] at h ⊢
    cases ha : f.applySub key t with
    | error e => simp [ha] at h
    | ok f' => simp only [ha] at h; exact ih h

theorem preBind_exists {pre : List (String × Option Int × Tok W)} {fs : Dict (Field W)}
    (hn : ∀ q ∈ pre, q.1 ∈ fs.keys)
    (h : ∀ k f, fs.get? k = some f → ∃ g, f.filler.applyPre (tokFor pre k) = .ok g) : ∃ fs', preBind pre fs = .ok fs' := by
  induction pre generalizing fs with
  | nil => exact ⟨_, rfl⟩
  | cons q pre ih =>
    obtain ⟨n, key, t⟩ := q
    have hm : n ∈ fs.keys := hn _ (.head _)
    obtain ⟨f0, hf0⟩ := Option.isSome_iff_exists.1 ((Dict.get?_isSome_iff fs n).2 hm)
    obtain ⟨g, hg⟩ := h n f0 hf0
    simp only [tokFor, List.filterMap_cons, if_true, F.applyPre] at hg
    cases ha : f0.filler.applySub key t with
    | error e => simp [ha] at hg
    | ok g0 =>
      simp only [ha] at hg
      have hk : Dict.keys (fs.set n { f0 with filler := g0 }) = fs.keys := Dict.keys_set_self hf0
      have := ih (fs := fs.set n { f0 with filler := g0 }) (by rw [hk]; exact fun q hq => hn q (.tail _ hq)) ?_
      · simpa only [preBind, preStep, hf0, ha] using this
      · intro k f hf
        rw [Dict.get?_set] at hf
        by_cases hkn : k = n
        · subst hkn
          rw [if_pos rfl] at hf; cases hf
          exact ⟨g, hg⟩
        · rw [if_neg hkn] at hf
          obtain ⟨g', hg'⟩ := h k f hf
          have : (if n = k then some (key, t) else Option.none) = Option.none := if_neg fun h => hkn h.symm
          simp only [tokFor, List.filterMap_cons, this] at hg'
          exact ⟨g', hg'⟩

theorem bindFields_ok {c : W.Cls} {d : Style} {fs fs' : Dict (Field W)} (h : bindFields c d fs = .ok fs') :
    fs'.keys = fs.keys ∧ ∀ k f, fs.get? k = some f →
      (f.owner = c ∧ ∃ g, f.filler.bind d = .ok g ∧ fs'.get? k = some { f with filler := g }) ∨
      (f.owner ≠ c ∧ fs'.get? k = some f) := by
  induction fs generalizing fs' with
  | nil => cases h; exact ⟨rfl, nofun⟩
  | cons a fs ih =>
    obtain ⟨n, f0⟩ := a
    simp only [bindFields] at h
    by_cases ho : f0.owner = c
    · simp only [ho, if_true] at h
      cases hb : f0.filler.bind d with
      | error e => simp [hb] at h
      | ok g =>
        simp only [hb] at h
        cases hr : bindFields c d fs with
        | error e => simp [hr] at h
        | ok l' =>
          simp only [hr] at h
          cases h
          obtain ⟨i1, i2⟩ := ih hr
          refine ⟨by simp only [Dict.keys] at i1 ⊢; simp [i1], fun k f hf => ?_⟩
          simp only [Dict.get?] at hf ⊢
          by_cases hk : n = k
          · simp only [hk, if_true] at hf ⊢
            cases hf
            exact .inl ⟨ho, g, hb, by rw [← ho]⟩
          · simp only [hk, if_false] at hf ⊢
            exact i2 k f hf
    · simp only [ho, if_false] at h
      cases hr : bindFields c d fs with
      | error e => simp [hr] at h
      | ok l' =>
        simp only [hr] at h
        cases h
        obtain ⟨i1, i2⟩ := ih hr
        refine ⟨by simp only [Dict.keys] at i1 ⊢; simp [i1], fun k f hf => ?_⟩
        simp only [Dict.get?] at hf ⊢
        by_cases hk : n = k
        · simp only [hk, if_true] at hf ⊢
          cases hf
          exact .inr ⟨ho, rfl⟩
        · simp only [hk, if_false] at hf ⊢
          exact i2 k f hf

theorem bindFields_exists {c : W.Cls} {d : Style} {fs : Dict (Field W)}
    (h : ∀ kf ∈ fs, kf.2.owner = c → ∃ g, kf.2.filler.bind d = .ok g) : ∃ fs', bindFields c d fs = .ok fs' := by
  induction fs with
  | nil => exact ⟨_, rfl⟩
  | cons a fs ih =>
    obtain ⟨n, f0⟩ := a
    obtain ⟨l', hl'⟩ := ih fun kf hkf => h kf (.tail _ hkf)
    simp only [bindFields]
    by_cases ho : f0.owner = c
    · obtain ⟨g, hg⟩ := h _ (.head _) ho
      simp only [ho, if_true, hg, hl']; exact ⟨_, rfl⟩
    · simp only [ho, if_false, hl']; exact ⟨_, rfl⟩

end Records
