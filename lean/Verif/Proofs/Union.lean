import Verif.Spec.Union
import Verif.Proofs.Bind
/-
The union loop.
-/
namespace Records
variable {W : World}

theorem TPK.rank_inj {a b : TPK} (h : a.rank = b.rank) : a = b := by cases a <;> cases b <;> simp_all [TPK.rank]

/-- what the loop remembers of the outcomes so far -/
def UInv (rs : List (Except Exc (W.Obj × TPK))) (best : List W.Obj) (key : Option TPK) : Prop :=
  (key = none ∧ best = [] ∧ ∀ x j, .ok (x, j) ∉ rs) ∨
  ∃ k, key = some k ∧ best ≠ [] ∧ (∀ x, x ∈ best ↔ .ok (x, k) ∈ rs) ∧ ∀ x j, .ok (x, j) ∈ rs → k.rank ≤ j.rank

theorem UInv.step_error {rs : List (Except Exc (W.Obj × TPK))} {best : List W.Obj} {key : Option TPK} (h : UInv rs best key)
    (e : Exc) : UInv (rs ++ [.error e]) best key := by
  rcases h with ⟨h1, h2, h3⟩ | ⟨k, h1, h2, h3, h4⟩
  · exact .inl ⟨h1, h2, by simpa using h3⟩
  · exact .inr ⟨k, h1, h2, by simpa using h3, by simpa using h4⟩

/-- the decision after the loop -/
theorem unionLoop_end {rs : List (Except Exc (W.Obj × TPK))} {best : List W.Obj} {key : Option TPK} (h : UInv rs best key)
    (v : W.Obj) (s : LState W) :
    (∀ w k, Best rs w k → unionLoop v [] best key s = (.ok (w, k), s)) ∧
    (∀ w k s', unionLoop v [] best key s = (.ok (w, k), s') → Best rs w k ∧ s' = s) ∧
    (Ambiguous rs → unionLoop v [] best key s = (.error .valueError, s)) := by
  rcases h with ⟨rfl, rfl, h3⟩ | ⟨k, rfl, h2, h3, h4⟩
  · refine ⟨fun w k hb => absurd hb.1 (h3 w k), ?_, ?_⟩
    · intro w k s' h; simp [unionLoop, M.throw] at h
    · rintro ⟨w, x, k, hw, -⟩; exact absurd hw (h3 w k)
  · obtain ⟨b, bs, rfl⟩ : ∃ b bs, best = b :: bs := by
      cases best with
      | nil => exact absurd rfl h2
      | cons b bs => exact ⟨b, bs, rfl⟩
    have hbk : ∀ w j, Best rs w j → j = k ∧ ∀ x ∈ b :: bs, x = w := by
      rintro w j ⟨g1, g2⟩
      have e1 := h4 w j g1
      have e2 := (g2 b k ((h3 b).1 (by simp))).1
      have e3 : j = k := TPK.rank_inj (by omega)
      refine ⟨e3, fun x hx => (g2 x k ((h3 x).1 hx)).2 e3.symm⟩
    by_cases hany : bs.any (fun r => decide (r ≠ b)) = true
    · simp only [unionLoop, hany, if_true, M.throw]
      obtain ⟨r, hr, hrb⟩ := List.any_eq_true.1 hany
      have hrb' : r ≠ b := of_decide_eq_true hrb
      refine ⟨?_, by simp, by simp⟩
      intro w j hb
      obtain ⟨-, hx⟩ := hbk w j hb
      exact absurd ((hx r (by simp [hr])).trans (hx b (by simp)).symm) hrb'
    · have hall : ∀ x ∈ b :: bs, x = b := by
        intro x hx
        rcases List.mem_cons.1 hx with rfl | hx
        · rfl
        · apply Classical.byContradiction
          intro hne
          exact hany (List.any_eq_true.2 ⟨x, hx, by simpa using hne⟩)
      have hany' : bs.any (fun r => decide (r ≠ b)) = false := by simpa using hany
      simp only [unionLoop, hany']
      refine ⟨?_, ?_, ?_⟩
      · intro w j hb
        obtain ⟨rfl, hx⟩ := hbk w j hb
        simp [hx b (by simp), M.pure]
      · intro w j s' h
        simp [M.pure] at h
        obtain ⟨⟨rfl, rfl⟩, rfl⟩ := h
        refine ⟨⟨(h3 _).1 (by simp), ?_⟩, rfl⟩
        intro x j hx
        refine ⟨h4 x j hx, ?_⟩
        rintro rfl
        exact hall x ((h3 x).2 hx)
      · rintro ⟨w, x, j, hw, hx, hne, hmin⟩
        have e1 := h4 w j hw
        have e2 := hmin b k ((h3 b).1 (by simp))
        have e3 : j = k := TPK.rank_inj (by omega)
        subst e3
        exact absurd ((hall w ((h3 w).2 hw)).trans (hall x ((h3 x).2 hx)).symm) hne

/-- the loop over the members that are left -/
theorem unionLoop_tried {v : W.Obj} : ∀ {fs : List (F W)} {s : LState W} {rs : List (Except Exc (W.Obj × TPK))} {s' : LState W},
    AllTried v fs s rs s' → ∀ {ps : List (Except Exc (W.Obj × TPK))} {best : List W.Obj} {key : Option TPK}, UInv ps best key →
    (∀ w k, Best (ps ++ rs) w k → unionLoop v (F.fills fs) best key s = (.ok (w, k), s')) ∧
    (∀ w k s'', unionLoop v (F.fills fs) best key s = (.ok (w, k), s'') → Best (ps ++ rs) w k ∧ s'' = s') ∧
    (Ambiguous (ps ++ rs) → unionLoop v (F.fills fs) best key s = (.error .valueError, s')) ∧
    ((∀ x j, .ok (x, j) ∉ ps ++ rs) → ∀ l e, rs = l ++ [.error e] →
      unionLoop v (F.fills fs) best key s = (.error e, s')) := by
  intro fs s rs s' h
  induction h with
  | nil s =>
    intro ps best key hi
    have := unionLoop_end hi v s
    simp only [List.append_nil]
    refine ⟨this.1, this.2.1, this.2.2, ?_⟩
    intro _ l e h
    simp at h
  | @cons f fs s r s1 rs s2 hf hex ht ih =>
    intro ps best key hi
    cases r with
    | error e =>
      have hee := hex e rfl
      have hi' := hi.step_error e
      have := ih hi'
      rw [List.append_assoc] at this
      simp only [List.cons_append, List.nil_append] at this
      by_cases hlast : (best.isEmpty && (F.fills fs).isEmpty) = true
      · -- the last member fails and nothing matched before
        have hb : best = [] := by
          simp only [Bool.and_eq_true, List.isEmpty_iff] at hlast; exact hlast.1
        have hfs : fs = [] := by
          simp only [Bool.and_eq_true, List.isEmpty_iff] at hlast
          cases fs with
          | nil => rfl
          | cons g gs => simp [F.fills] at hlast
        subst hb; subst hfs
        cases ht
        have hno : ∀ x j, (.ok (x, j) : Except Exc (W.Obj × TPK)) ∉ ps := by
          rcases hi with ⟨-, -, h3⟩ | ⟨k, -, h2, -⟩
          · exact h3
          · exact absurd rfl h2
        have hrun : unionLoop v (F.fills [f]) [] key s = (.error e, s1) := by
          simp [F.fills, unionLoop, hf, hee]
        rw [hrun]
        refine ⟨?_, ?_, ?_, ?_⟩
        · intro w k hb
          have := hb.1
          simp [hno] at this
        · intro w k s'' h; cases h
        · rintro ⟨w, x, k, hw, -⟩
          simp [hno] at hw
        · intro _ l e' hl
          have : l = [] ∧ e' = e := by
            cases l with
            | nil => simp at hl; exact ⟨rfl, hl.symm⟩
            | cons a l => simp at hl
          rw [this.2]
      · have hrun : unionLoop v (F.fills (f :: fs)) best key s = unionLoop v (F.fills fs) best key s1 := by
          simp only [F.fills, unionLoop, hf, hee]
          simp [hlast]
        rw [hrun]
        refine ⟨this.1, this.2.1, this.2.2.1, ?_⟩
        intro hno l e' hl
        cases l with
        | nil =>
          simp at hl
          obtain ⟨rfl, rfl⟩ := hl
          cases ht
          exfalso
          apply hlast
          have hb : best = [] := by
            rcases hi with ⟨-, h2, -⟩ | ⟨k, -, h2, h3, -⟩
            · exact h2
            · exfalso
              obtain ⟨b, hb⟩ := List.exists_mem_of_ne_nil best h2
              exact hno b k (by simp [(h3 b).1 hb])
          simp [hb, F.fills]
        | cons a l =>
          simp at hl
          exact this.2.2.2 hno l e' hl.2
    | ok r =>
      obtain ⟨x, k⟩ := r
      have hps : ∀ y j, (.ok (y, j) : Except Exc (W.Obj × TPK)) ∈ ps ++ [.ok (x, k)] ↔ .ok (y, j) ∈ ps ∨ (y = x ∧ j = k) := by
        intro y j; simp
      have step : ∃ best' key', unionLoop v (F.fills (f :: fs)) best key s = unionLoop v (F.fills fs) best' key' s1 ∧
          UInv (ps ++ [.ok (x, k)]) best' key' := by
        rcases hi with ⟨rfl, rfl, h3⟩ | ⟨bk, rfl, h2, h3, h4⟩
        · refine ⟨[x], some k, by simp only [F.fills, unionLoop, hf], .inr ⟨k, rfl, by simp, ?_, ?_⟩⟩
          · intro y; rw [hps]; simp [h3]
          · intro y j hy; rw [hps] at hy; simp [h3] at hy; rw [hy.2]; exact Nat.le_refl _
        · by_cases h5 : k.rank < bk.rank
          · refine ⟨[x], some k, by simp only [F.fills, unionLoop, hf, h5, if_true], .inr ⟨k, rfl, by simp, ?_, ?_⟩⟩
            · intro y; rw [hps]
              have : (.ok (y, k) : Except Exc (W.Obj × TPK)) ∉ ps := fun hy => by have := h4 y k hy; omega
              simp [this]
            · intro y j hy; rw [hps] at hy
              rcases hy with hy | ⟨-, rfl⟩
              · have := h4 y j hy; omega
              · exact Nat.le_refl _
          · by_cases h6 : k.rank = bk.rank
            · have h7 : k = bk := TPK.rank_inj h6
              subst h7
              refine ⟨best ++ [x], some k, by simp [F.fills, unionLoop, hf], .inr ⟨k, rfl, by simp, ?_, ?_⟩⟩
              · intro y; rw [hps]; simp [h3]
              · intro y j hy; rw [hps] at hy
                rcases hy with hy | ⟨-, rfl⟩
                · exact h4 y j hy
                · exact Nat.le_refl _
            · refine ⟨best, some bk, by simp [F.fills, unionLoop, hf, h5, h6], .inr ⟨bk, rfl, h2, ?_, ?_⟩⟩
              · intro y; rw [hps, h3]
                have : bk ≠ k := fun h => h6 (by rw [h])
                simp [this]
              · intro y j hy; rw [hps] at hy
                rcases hy with hy | ⟨-, rfl⟩
                · exact h4 y j hy
                · omega
      obtain ⟨best', key', hrun, hi'⟩ := step
      have := ih hi'
      rw [List.append_assoc] at this
      simp only [List.cons_append, List.nil_append] at this
      rw [hrun]
      refine ⟨this.1, this.2.1, this.2.2.1, ?_⟩
      intro hno
      exact absurd (by simp) (hno x k)

/-- either all members are tried, or one raises something that is no `Exception`, which propagates -/
theorem tried_or_base (v : W.Obj) : ∀ (fs : List (F W)) (s : LState W),
    (∃ rs s', AllTried v fs s rs s') ∨
    (∃ e s', e.isException = false ∧ (∃ pre f post, fs = pre ++ f :: post ∧ ∃ s1 rs, AllTried v pre s rs s1 ∧ f.fill v s1 = (.error e, s')) ∧
      ∀ best key, unionLoop v (F.fills fs) best key s = (.error e, s'))
  | [], s => .inl ⟨[], s, .nil s⟩
  | f :: fs, s => by
    rcases hf : f.fill v s with ⟨r, s1⟩
    by_cases hb : ∃ e, r = .error e ∧ e.isException = false
    · obtain ⟨e, rfl, he⟩ := hb
      refine .inr ⟨e, s1, he, ⟨[], f, fs, rfl, s, [], .nil s, hf⟩, ?_⟩
      intro best key
      simp [F.fills, unionLoop, hf, he]
    · have hex : ∀ e, r = .error e → e.isException = true := by
        intro e he
        cases h : e.isException with
        | true => rfl
        | false => exact absurd ⟨e, he, h⟩ hb
      rcases tried_or_base v fs s1 with ⟨rs, s', ht⟩ | ⟨e, s', he, ⟨pre, g, post, hfs, s2, rs, ht, hg⟩, hrun⟩
      · exact .inl ⟨r :: rs, s', .cons hf hex ht⟩
      · refine .inr ⟨e, s', he, ⟨f :: pre, g, post, by simp [hfs], s2, r :: rs, .cons hf hex ht, hg⟩, ?_⟩
        intro best key
        cases r with
        | error e' =>
          have := hex e' rfl
          have hne : (F.fills fs).isEmpty = false := by
            rw [hfs]; cases pre <;> simp [F.fills]
          simp only [F.fills, unionLoop, hf, this]
          simp [hne, hrun]
        | ok r =>
          obtain ⟨x, k⟩ := r
          simp only [F.fills, unionLoop, hf]
          cases key with
          | none => exact hrun _ _
          | some bk =>
            simp only
            split
            · exact hrun _ _
            · split <;> exact hrun _ _

end Records
