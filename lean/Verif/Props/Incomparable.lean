import Verif.Props.Validators
set_option linter.unusedSimpArgs false
/-
C106: `Clamp` and `Within` on values that need not be comparable with each other (sets, floats with NaN).
-/
namespace Records
variable {α : Type}

/-- The comparison operators of a partially ordered type: `<` is a strict order, the others are what the name says.  `==` need not be
reflexive (NaN). -/
structure Cmp.Strict (C : Cmp α) : Prop where
  irrefl : ∀ a, C.lt a a = false
  trans : ∀ a b c, C.lt a b → C.lt b c → C.lt a c
  gt_iff : ∀ a b, C.gt a b = C.lt b a
  le_iff : ∀ a b, C.le a b = (C.lt a b || C.eq a b)
  ge_iff : ∀ a b, C.ge a b = C.le b a
  eq_symm : ∀ a b, C.eq a b = C.eq b a
  eq_lt : ∀ a b, C.eq a b → C.lt a b = false

/-- Nothing is smaller than, greater than or equal to `a` (not even `a`): NaN -/
def Cmp.Alone (C : Cmp α) (a : α) : Prop := ∀ b, C.lt a b = false ∧ C.lt b a = false ∧ C.eq a b = false

/-- the value satisfies the two bounds, compared with `<` / `==`: the lower one inclusive iff `gEq`, the upper one iff `lEq` -/
def Between (C : Cmp α) (lo hi : Option α) (gEq lEq : Bool) (v : α) : Prop :=
  (∀ l, lo = some l → C.lt l v = true ∨ (gEq = true ∧ C.eq l v = true)) ∧
  (∀ u, hi = some u → C.lt v u = true ∨ (lEq = true ∧ C.eq v u = true))

theorem clamp_made {C : Cmp α} {lo hi : Option α} {c : Clamp α} (hc : Clamp.init C (loBound lo) (hiBound hi) = .ok c) :
    c = ⟨loBound lo, hiBound hi⟩ ∧ ∀ l u, lo = some l → hi = some u → C.gt l u = false := by
  unfold Clamp.init at hc
  split at hc
  · cases hc
  · rename_i h
    cases hc
    refine ⟨rfl, ?_⟩
    rintro l u rfl rfl
    simpa [loBound, hiBound, Bound.gt] using h

/-- **C106**, constructors: bounds are refused iff they are comparable and in the wrong order (for `Within` also if they are equal and
not both inclusive); incomparable bounds are accepted. -/
theorem C106_init (C : Cmp α) (h : C.Strict) (lo hi : Option α) (gEq lEq : Bool) :
    (Clamp.init C (loBound lo) (hiBound hi) = .error .valueError ↔ ∃ l u, lo = some l ∧ hi = some u ∧ C.lt u l = true) ∧
    ((¬ ∃ l u, lo = some l ∧ hi = some u ∧ C.lt u l = true) → Clamp.init C (loBound lo) (hiBound hi) = .ok ⟨loBound lo, hiBound hi⟩) ∧
    (Within.init C (loBound lo) (hiBound hi) gEq lEq = .error .valueError ↔
      ∃ l u, lo = some l ∧ hi = some u ∧ (C.lt u l = true ∨ (¬ (gEq = true ∧ lEq = true) ∧ C.eq l u = true))) ∧
    ((¬ ∃ l u, lo = some l ∧ hi = some u ∧ (C.lt u l = true ∨ (¬ (gEq = true ∧ lEq = true) ∧ C.eq l u = true))) →
      Within.init C (loBound lo) (hiBound hi) gEq lEq = .ok ⟨loBound lo, hiBound hi, gEq, lEq⟩) := by
  cases lo <;> cases hi <;> simp [Clamp.init, Within.init, loBound, hiBound, Bound.gt, Bound.eq, h.gt_iff]
  rename_i l u
  cases C.lt u l <;> cases C.eq l u <;> cases gEq <;> cases lEq <;> simp

/-- **C106**, `Clamp`: a value below the lower bound becomes the lower bound, one above the upper bound the upper bound, and every other
value is returned as it is, comparable or not; so the result is never below the lower or above the upper bound, and clamping again
changes nothing. -/
theorem C106_clamp (C : Cmp α) (h : C.Strict) (lo hi : Option α) (c : Clamp α)
    (hc : Clamp.init C (loBound lo) (hiBound hi) = .ok c) (v : α) :
    ∃ r, c.inner C (.val v) = .val r ∧
      (∀ l, lo = some l → C.lt v l = true → r = l) ∧ (∀ u, hi = some u → C.lt u v = true → r = u) ∧
      ((∀ l, lo = some l → C.lt v l = false) → (∀ u, hi = some u → C.lt u v = false) → r = v) ∧
      (∀ l, lo = some l → C.lt r l = false) ∧ (∀ u, hi = some u → C.lt u r = false) ∧ c.inner C (.val r) = .val r := by
  obtain ⟨rfl, hb⟩ := clamp_made hc
  cases lo with
  | none =>
    cases hi with
    | none => exact ⟨v, by simp [Clamp.inner, loBound, hiBound, Bound.max, Bound.min, Bound.gt, Bound.lt]⟩
    | some u =>
      cases e : C.lt u v with
      | true => exact ⟨u, by simp [Clamp.inner, loBound, hiBound, Bound.max, Bound.min, Bound.gt, Bound.lt, e, h.irrefl]⟩
      | false => exact ⟨v, by simp [Clamp.inner, loBound, hiBound, Bound.max, Bound.min, Bound.gt, Bound.lt, e]⟩
  | some l =>
    cases hi with
    | none =>
      cases e : C.lt v l with
      | true => exact ⟨l, by simp [Clamp.inner, loBound, hiBound, Bound.max, Bound.min, Bound.gt, Bound.lt, e, h.irrefl, h.gt_iff]⟩
      | false => exact ⟨v, by simp [Clamp.inner, loBound, hiBound, Bound.max, Bound.min, Bound.gt, Bound.lt, e, h.gt_iff]⟩
    | some u =>
      have hlu := hb l u rfl rfl
      rw [h.gt_iff] at hlu
      cases e : C.lt v l with
      | true =>
        have e' : C.lt u v = false := by
          cases e' : C.lt u v with
          | false => rfl
          | true => rw [h.trans _ _ _ e' e] at hlu; cases hlu
        exact ⟨l, by simp [Clamp.inner, loBound, hiBound, Bound.max, Bound.min, Bound.gt, Bound.lt, e, e', h.irrefl, h.gt_iff, hlu]⟩
      | false =>
        cases e' : C.lt u v with
        | true => exact ⟨u, by simp [Clamp.inner, loBound, hiBound, Bound.max, Bound.min, Bound.gt, Bound.lt, e, e', h.irrefl, h.gt_iff, hlu]⟩
        | false => exact ⟨v, by simp [Clamp.inner, loBound, hiBound, Bound.max, Bound.min, Bound.gt, Bound.lt, e, e', h.irrefl, h.gt_iff, hlu]⟩

/-- **C106**, `Within`: a value passes iff it compares with each given bound as required; so a value that is not comparable with a
bound is refused. -/
theorem C106_within (C : Cmp α) (h : C.Strict) (lo hi : Option α) (gEq lEq : Bool) (w : Within α)
    (hw : Within.init C (loBound lo) (hiBound hi) gEq lEq = .ok w) (v : α) :
    w.assert C (.val v) = true ↔ Between C lo hi gEq lEq v := by
  have : w = ⟨loBound lo, hiBound hi, gEq, lEq⟩ := by
    unfold Within.init at hw; split at hw <;> cases hw; rfl
  subst this
  cases lo <;> cases hi <;> cases gEq <;> cases lEq <;>
    simp [Within.assert, Between, loBound, hiBound, Bound.gt, Bound.lt, Bound.le, Bound.ge, h.gt_iff, h.le_iff, h.ge_iff]

/-- **C106**, the two together: what `Within` with inclusive bounds passes, `Clamp` with these bounds returns as it is.  The converse
holds if the value is comparable with the bounds. -/
theorem C106_agree (C : Cmp α) (h : C.Strict) (lo hi : Option α) (c : Clamp α) (w : Within α)
    (hc : Clamp.init C (loBound lo) (hiBound hi) = .ok c) (hw : Within.init C (loBound lo) (hiBound hi) true true = .ok w) (v : α) :
    (w.assert C (.val v) = true → c.inner C (.val v) = .val v) ∧
    ((∀ l, lo = some l → C.lt l v = true ∨ C.eq l v = true ∨ C.lt v l = true) →
      (∀ u, hi = some u → C.lt v u = true ∨ C.eq v u = true ∨ C.lt u v = true) → c.inner C (.val v) = .val v → w.assert C (.val v) = true) := by
  have asymm : ∀ a b, C.lt a b = true → C.lt b a = false := by
    intro a b hab
    cases hba : C.lt b a with
    | false => rfl
    | true => have := h.trans _ _ _ hab hba; rw [h.irrefl] at this; cases this
  rw [C106_within C h lo hi true true w hw v]
  obtain ⟨r, hr, h1, h2, h3, h4, h5, -⟩ := C106_clamp C h lo hi c hc v
  refine ⟨?_, ?_⟩
  · rintro ⟨hl, hu⟩
    rw [hr, h3 ?_ ?_]
    · intro l e
      rcases hl l e with hx | ⟨-, hx⟩
      · exact asymm _ _ hx
      · exact h.eq_lt _ _ (by rw [h.eq_symm]; exact hx)
    · intro u e
      rcases hu u e with hx | ⟨-, hx⟩
      · exact asymm _ _ hx
      · exact h.eq_lt _ _ (by rw [h.eq_symm]; exact hx)
  · intro hl hu hv
    rw [hr] at hv
    cases hv
    refine ⟨fun l e => ?_, fun u e => ?_⟩
    · rcases hl l e with hx | hx | hx
      · exact .inl hx
      · exact .inr ⟨rfl, hx⟩
      · rw [h4 l e] at hx; cases hx
    · rcases hu u e with hx | hx | hx
      · exact .inl hx
      · exact .inr ⟨rfl, hx⟩
      · rw [h5 u e] at hx; cases hx

/-- **C106**, NaN as a bound: it is always accepted, and then `Clamp` does not constrain that side, while `Within` refuses every value. -/
theorem C106_nan_bound (C : Cmp α) (h : C.Strict) (n : α) (hn : C.Alone n) (other : Option α) (gEq lEq : Bool) (v : α) :
    (∃ c c', Clamp.init C (.val n) (hiBound other) = .ok c ∧ Clamp.init C .least (hiBound other) = .ok c' ∧
      c.inner C (.val v) = c'.inner C (.val v)) ∧
    (∃ c c', Clamp.init C (loBound other) (.val n) = .ok c ∧ Clamp.init C (loBound other) .greatest = .ok c' ∧
      c.inner C (.val v) = c'.inner C (.val v)) ∧
    (∃ w, Within.init C (.val n) (hiBound other) gEq lEq = .ok w ∧ w.assert C (.val v) = false) ∧
    (∃ w, Within.init C (loBound other) (.val n) gEq lEq = .ok w ∧ w.assert C (.val v) = false) := by
  have h1 : ∀ b, C.lt n b = false := fun b => (hn b).1
  have h2 : ∀ b, C.lt b n = false := fun b => (hn b).2.1
  have h3 : ∀ b, C.eq n b = false := fun b => (hn b).2.2
  have h4 : ∀ b, C.eq b n = false := fun b => by rw [h.eq_symm]; exact h3 b
  refine ⟨?_, ?_, ?_, ?_⟩
  · refine ⟨⟨.val n, hiBound other⟩, ⟨.least, hiBound other⟩, ?_, ?_, ?_⟩ <;> cases other <;>
      simp [Clamp.init, Clamp.inner, hiBound, Bound.gt, Bound.max, h.gt_iff, h1, h2]
  · refine ⟨⟨loBound other, .val n⟩, ⟨loBound other, .greatest⟩, ?_, ?_, ?_⟩
    · cases other <;> simp [Clamp.init, loBound, Bound.gt, h.gt_iff, h1]
    · cases other <;> simp [Clamp.init, loBound, Bound.gt]
    · cases other with
      | none => simp [Clamp.inner, loBound, Bound.max, Bound.min, Bound.gt, Bound.lt, h1]
      | some l =>
        by_cases e : C.gt l v = true <;> simp [Clamp.inner, loBound, Bound.max, Bound.min, Bound.gt, Bound.lt, h1, e]
  · refine ⟨⟨.val n, hiBound other, gEq, lEq⟩, ?_, ?_⟩
    · cases other <;> simp [Within.init, hiBound, Bound.gt, Bound.eq, h.gt_iff, h2, h3]
    · cases gEq <;> simp [Within.assert, Bound.le, Bound.lt, h.le_iff, h1, h3]
  · refine ⟨⟨loBound other, .val n, gEq, lEq⟩, ?_, ?_⟩
    · cases other <;> simp [Within.init, loBound, Bound.gt, Bound.eq, h.gt_iff, h1, h4]
    · cases gEq <;> cases lEq <;> simp [Within.assert, Bound.ge, Bound.gt, h.gt_iff, h.ge_iff, h.le_iff, h2, h4]

/-! ### concrete cases -/

theorem nanCmp_strict : nanCmp.Strict where
  irrefl a := by cases a <;> simp [nanCmp]
  trans a b c := by cases a <;> cases b <;> cases c <;> simp [nanCmp]; omega
  gt_iff a b := by cases a <;> cases b <;> simp [nanCmp]
  le_iff a b := by
    cases a <;> cases b <;> simp [nanCmp]
    rw [← Bool.decide_or]
    congr 1
    exact propext (by omega)
  ge_iff a b := by cases a <;> cases b <;> simp [nanCmp]
  eq_symm a b := by cases a <;> cases b <;> simp [nanCmp, eq_comm]
  eq_lt a b := by cases a <;> cases b <;> simp [nanCmp]; omega

/-- subsets of `{1, 2}`, compared by inclusion -/
def setCmp : Cmp (Bool × Bool) where
  lt a b := (!a.1 || b.1) && (!a.2 || b.2) && a != b
  le a b := (!a.1 || b.1) && (!a.2 || b.2)
  gt a b := (!b.1 || a.1) && (!b.2 || a.2) && a != b
  ge a b := (!b.1 || a.1) && (!b.2 || a.2)
  eq a b := a == b

theorem setCmp_strict : setCmp.Strict where
  irrefl := by rintro ⟨⟨⟩, ⟨⟩⟩ <;> decide
  trans := by rintro ⟨⟨⟩, ⟨⟩⟩ ⟨⟨⟩, ⟨⟩⟩ ⟨⟨⟩, ⟨⟩⟩ <;> decide
  gt_iff := by rintro ⟨⟨⟩, ⟨⟩⟩ ⟨⟨⟩, ⟨⟩⟩ <;> decide
  le_iff := by rintro ⟨⟨⟩, ⟨⟩⟩ ⟨⟨⟩, ⟨⟩⟩ <;> decide
  ge_iff := by rintro ⟨⟨⟩, ⟨⟩⟩ ⟨⟨⟩, ⟨⟩⟩ <;> decide
  eq_symm := by rintro ⟨⟨⟩, ⟨⟩⟩ ⟨⟨⟩, ⟨⟩⟩ <;> decide
  eq_lt := by rintro ⟨⟨⟩, ⟨⟩⟩ ⟨⟨⟩, ⟨⟩⟩ <;> decide

/-- the claim that what `Clamp` returns passes `Within` with the same, inclusive, bounds -/
def C106_claim : Prop :=
  ∀ (α : Type) (C : Cmp α) (_ : C.Strict) (l u v : α) (c : Clamp α) (w : Within α), Clamp.init C (.val l) (.val u) = .ok c →
    Within.init C (.val l) (.val u) true true = .ok w → w.assert C (c.inner C (.val v)) = true

/-- **C106**, counterexample: NaN, also the set `{2}` for the bounds `{1}` and `{1}` -/
theorem C106_refuted : ¬ C106_claim := fun h => by
  have := h _ setCmp setCmp_strict (true, false) (true, false) (false, true) _ _ rfl rfl
  cases this

example : Clamp.init nanCmp (.val (some 1)) (.val (some 5)) = .ok ⟨.val (some 1), .val (some 5)⟩ ∧
    Clamp.inner nanCmp ⟨.val (some 1), .val (some 5)⟩ (.val none) = .val none ∧
    Within.assert nanCmp ⟨.val (some 1), .val (some 5), true, true⟩ (.val none) = false := ⟨rfl, rfl, rfl⟩

/-- all the cases of `C106_clamp` occur with sets: below, above, incomparable -/
example : Clamp.inner setCmp ⟨.val (true, false), .val (true, false)⟩ (.val (false, false)) = .val (true, false) ∧
    Clamp.inner setCmp ⟨.val (true, false), .val (true, false)⟩ (.val (true, true)) = .val (true, false) ∧
    Clamp.inner setCmp ⟨.val (true, false), .val (true, false)⟩ (.val (false, true)) = .val (false, true) := ⟨rfl, rfl, rfl⟩

/-- incomparable bounds are accepted -/
example : Clamp.init setCmp (.val (true, false)) (.val (false, true)) = .ok ⟨.val (true, false), .val (false, true)⟩ ∧
    Within.init setCmp (.val (true, false)) (.val (false, true)) = .ok ⟨.val (true, false), .val (false, true), true, false⟩ := ⟨rfl, rfl⟩

/-- NaN is alone; the instances of the theorems -/
theorem nan_alone : nanCmp.Alone none := fun b => by cases b <;> exact ⟨rfl, rfl, rfl⟩
example := C106_clamp nanCmp nanCmp_strict (some (some 1)) (some (some 5)) _ rfl none
example := C106_nan_bound nanCmp nanCmp_strict none nan_alone (some (some 5)) true false (some 7)
example := C106_agree setCmp setCmp_strict (some (true, false)) (some (true, false)) _ _ rfl rfl (false, true)
example : Clamp.inner nanCmp ⟨.val none, .val (some 5)⟩ (.val (some (-7))) = .val (some (-7)) ∧
    Within.assert nanCmp ⟨.val none, .val (some 5), true, false⟩ (.val (some 3)) = false := ⟨rfl, rfl⟩

end Records
