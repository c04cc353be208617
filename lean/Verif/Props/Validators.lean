import Verif.Model.Validators
import Verif.Spec.Toy
/-
Properties C08 - C11: built-in validators.
-/
namespace Records
variable {α : Type}

/-- The comparison operators of a totally ordered type (up to `==`: e.g. `1`, `1.0` and `True` may be distinct objects
that compare equal): everything is determined by a total, transitive `<=`. -/
structure Cmp.Total (C : Cmp α) : Prop where
  trans : ∀ a b c, C.le a b → C.le b c → C.le a c
  total : ∀ a b, C.le a b ∨ C.le b a
  lt_iff : ∀ a b, C.lt a b = !C.le b a
  gt_iff : ∀ a b, C.gt a b = !C.le a b
  ge_iff : ∀ a b, C.ge a b = C.le b a
  eq_iff : ∀ a b, C.eq a b = (C.le a b && C.le b a)

/-- the integers -/
def intCmp : Cmp Int where
  lt a b := decide (a < b)
  le a b := decide (a ≤ b)
  gt a b := decide (a > b)
  ge a b := decide (a ≥ b)
  eq a b := decide (a = b)

theorem intCmp_total : intCmp.Total where
  trans := by simp [intCmp]; omega
  total := by simp [intCmp]; omega
  lt_iff a b := by by_cases h : a < b <;> simp [intCmp, h] <;> omega
  gt_iff a b := by by_cases h : a > b <;> simp [intCmp, h] <;> omega
  ge_iff := by simp [intCmp]
  eq_iff := by simp [intCmp]; intro a b; rw [← Bool.decide_and]; congr 1; exact propext (by omega)

/-- lower bound as documented: a given value, or no lower bound -/
def loBound : Option α → Bound α
  | none => .least
  | some a => .val a

/-- upper bound as documented: a given value, or no upper bound -/
def hiBound : Option α → Bound α
  | none => .greatest
  | some a => .val a

/-! ## C08 -/

/-- **C08**, constructor: ValueError iff both bounds are given and the lower is greater than the upper. -/
theorem C08_clamp_init (C : Cmp α) (h : C.Total) (lo hi : Option α) :
    (Clamp.init C (loBound lo) (hiBound hi) = .error .valueError ↔ ∃ l u, lo = some l ∧ hi = some u ∧ ¬ C.le l u) ∧
    (Clamp.init C (loBound lo) (hiBound hi) ≠ .error .valueError →
      Clamp.init C (loBound lo) (hiBound hi) = .ok ⟨loBound lo, hiBound hi⟩) := by
  cases lo <;> cases hi <;> simp [Clamp.init, loBound, hiBound, Bound.gt, h.gt_iff]

/-- **C08.** For accepted bounds, `Clamp` returns, for every value: the value itself if it lies within the bounds, the
lower bound if it lies below, the upper bound if it lies above; hence a value within the bounds. -/
theorem C08_clamp_nearest (C : Cmp α) (h : C.Total) (lo hi : Option α) (c : Clamp α)
    (hc : Clamp.init C (loBound lo) (hiBound hi) = .ok c) (v : α) :
    ∃ r, c.inner C (.val v) = .val r ∧
      (∀ l, lo = some l → C.le l r) ∧ (∀ u, hi = some u → C.le r u) ∧
      ((∀ l, lo = some l → C.le l v) → (∀ u, hi = some u → C.le v u) → r = v) ∧
      (∀ l, lo = some l → ¬ C.le l v → r = l) ∧ (∀ u, hi = some u → ¬ C.le v u → r = u) := by
  have refl : ∀ a, C.le a a = true := fun a => (h.total a a).elim id id
  cases lo with
  | none =>
    cases hi with
    | none =>
      simp [Clamp.init, loBound, hiBound, Bound.gt] at hc; subst hc
      exact ⟨v, by simp [Clamp.inner, Bound.max, Bound.min, Bound.gt, Bound.lt], by simp⟩
    | some u =>
      simp [Clamp.init, loBound, hiBound, Bound.gt] at hc; subst hc
      cases hvu : C.le v u with
      | true => exact ⟨v, by simp [Clamp.inner, Bound.max, Bound.min, Bound.gt, Bound.lt, h.lt_iff, hvu], by simp [hvu]⟩
      | false =>
        exact ⟨u, by simp [Clamp.inner, Bound.max, Bound.min, Bound.gt, Bound.lt, h.lt_iff, hvu], by simp [hvu, refl]⟩
  | some l =>
    cases hi with
    | none =>
      simp [Clamp.init, loBound, hiBound, Bound.gt] at hc; subst hc
      cases hlv : C.le l v with
      | true => exact ⟨v, by simp [Clamp.inner, Bound.max, Bound.min, Bound.gt, Bound.lt, h.gt_iff, hlv], by simp [hlv]⟩
      | false =>
        exact ⟨l, by simp [Clamp.inner, Bound.max, Bound.min, Bound.gt, Bound.lt, h.gt_iff, hlv], by simp [hlv, refl]⟩
    | some u =>
      simp only [Clamp.init, loBound, hiBound, Bound.gt, h.gt_iff] at hc
      cases hlu : C.le l u with
      | false => simp [hlu] at hc
      | true =>
        simp [hlu] at hc; subst hc
        cases hlv : C.le l v with
        | true =>
          cases hvu : C.le v u with
          | true =>
            exact ⟨v, by simp [Clamp.inner, Bound.max, Bound.min, Bound.gt, Bound.lt, h.gt_iff, h.lt_iff, hlv, hvu],
              by simp [hlv, hvu]⟩
          | false =>
            exact ⟨u, by simp [Clamp.inner, Bound.max, Bound.min, Bound.gt, Bound.lt, h.gt_iff, h.lt_iff, hlv, hvu],
              by simp [hlv, hvu, hlu, refl]⟩
        | false =>
          have hvl : C.le v l = true := by have := h.total l v; simpa [hlv] using this
          have hvu : C.le v u = true := h.trans _ _ _ hvl hlu
          exact ⟨l, by simp [Clamp.inner, Bound.max, Bound.min, Bound.gt, Bound.lt, h.gt_iff, h.lt_iff, hlv, hlu],
            by simp [hlv, hlu, hvu, refl]⟩

/-- **C08**, idempotent (returns the identical object the second time). -/
theorem C08_clamp_idempotent (C : Cmp α) (h : C.Total) (lo hi : Option α) (c : Clamp α)
    (hc : Clamp.init C (loBound lo) (hiBound hi) = .ok c) (v : α) :
    c.inner C (c.inner C (.val v)) = c.inner C (.val v) := by
  obtain ⟨r, hr, h1, h2, _⟩ := C08_clamp_nearest C h lo hi c hc v
  obtain ⟨r', hr', _, _, h3, _⟩ := C08_clamp_nearest C h lo hi c hc r
  rw [hr, hr', h3 h1 h2]

/-- **C08**, monotone. -/
theorem C08_clamp_monotone (C : Cmp α) (h : C.Total) (lo hi : Option α) (c : Clamp α)
    (hc : Clamp.init C (loBound lo) (hiBound hi) = .ok c) (v w : α) (hvw : C.le v w) :
    (c.inner C (.val v)).le C (c.inner C (.val w)) = true := by
  obtain ⟨r, hr, h1, h2, h3, h4, h5⟩ := C08_clamp_nearest C h lo hi c hc v
  obtain ⟨r', hr', k1, k2, k3, k4, k5⟩ := C08_clamp_nearest C h lo hi c hc w
  rw [hr, hr']
  simp only [Bound.le]
  by_cases a1 : ∃ l, lo = some l ∧ ¬ C.le l v
  · obtain ⟨l, e, hl⟩ := a1; rw [h4 l e hl]; exact k1 l e
  · by_cases a2 : ∃ u, hi = some u ∧ ¬ C.le w u
    · obtain ⟨u, e, hu⟩ := a2; rw [k5 u e hu]; exact h2 u e
    · have lv : ∀ l, lo = some l → C.le l v := fun l e => by
        cases hx : C.le l v with
        | true => rfl
        | false => exact (a1 ⟨l, e, by simp [hx]⟩).elim
      have wu : ∀ u, hi = some u → C.le w u := fun u e => by
        cases hx : C.le w u with
        | true => rfl
        | false => exact (a2 ⟨u, e, by simp [hx]⟩).elim
      rw [h3 lv (fun u e => h.trans _ _ _ hvw (wu u e)), k3 (fun l e => h.trans _ _ _ (lv l e) hvw) wu]
      exact hvw

/-- the hypotheses of C08 are met: integers, with both bounds; the three cases occur -/
example : Clamp.init intCmp (loBound (some 2)) (hiBound (some 5)) = .ok ⟨.val 2, .val 5⟩ ∧
    Clamp.inner intCmp ⟨.val 2, .val 5⟩ (.val 7) = .val 5 ∧ Clamp.inner intCmp ⟨.val 2, .val 5⟩ (.val 3) = .val 3 ∧
    Clamp.inner intCmp ⟨.val 2, .val 5⟩ (.val (-1)) = .val 2 ∧
    Clamp.init intCmp (loBound (some 6)) (hiBound (some 5)) = .error .valueError := ⟨rfl, rfl, rfl, rfl, rfl⟩

/-- integers extended with a NaN that compares false with everything -/
def nanCmp : Cmp (Option Int) where
  lt a b := match a, b with | some a, some b => decide (a < b) | _, _ => false
  le a b := match a, b with | some a, some b => decide (a ≤ b) | _, _ => false
  gt a b := match a, b with | some a, some b => decide (a > b) | _, _ => false
  ge a b := match a, b with | some a, some b => decide (a ≥ b) | _, _ => false
  eq a b := match a, b with | some a, some b => decide (a = b) | _, _ => false

/-- **C08**, the total order is needed: NaN passes Clamp unchanged although it is within no bounds. -/
theorem C08_nan_passes_clamp (lo hi : Int) (h : lo ≤ hi) :
    ∃ c, Clamp.init nanCmp (.val (some lo)) (.val (some hi)) = .ok c ∧ c.inner nanCmp (.val none) = .val none ∧
      nanCmp.le (some lo) none = false := by
  refine ⟨⟨.val (some lo), .val (some hi)⟩, ?_, ?_, rfl⟩
  · have : ¬ hi < lo := by omega
    simp [Clamp.init, Bound.gt, nanCmp, this]
  · simp [Clamp.inner, Bound.max, Bound.min, Bound.gt, Bound.lt, nanCmp]

/-! ## C09 -/

/-- **C09.** For `minimum < maximum` every integer is mapped into `[minimum, maximum)`, changed by a multiple of the
period, to the only such number, and stays if it was inside. -/
theorem C09_cyclic (minimum maximum v : Int) (h : minimum < maximum) :
    ∃ r, cyclicInner minimum maximum v = .ok r ∧ minimum ≤ r ∧ r < maximum ∧
      (∃ k, v - r = k * (maximum - minimum)) ∧ (minimum ≤ v → v < maximum → r = v) ∧
      (∀ r', minimum ≤ r' → r' < maximum → (∃ k, v - r' = k * (maximum - minimum)) → r' = r) := by
  have hp : 0 < maximum - minimum := by omega
  generalize hP : maximum - minimum = p at hp
  have uniq : ∀ r r' : Int, minimum ≤ r → r < maximum → minimum ≤ r' → r' < maximum →
      (∃ k, v - r = k * p) → (∃ k, v - r' = k * p) → r' = r := by
    intro r r' h1 h2 h3 h4 ⟨k, hk⟩ ⟨k', hk'⟩
    have hd : r' - r = (k - k') * p := by rw [Int.sub_mul]; omega
    have h5 : r' - r < p := by omega
    have h6 : -p < r' - r := by omega
    have : k - k' = 0 := by
      rcases Int.lt_trichotomy (k - k') 0 with hh | hh | hh
      · have : (k - k') * p ≤ (-1) * p := Int.mul_le_mul_of_nonneg_right (by omega) (by omega)
        omega
      · exact hh
      · have : 1 * p ≤ (k - k') * p := Int.mul_le_mul_of_nonneg_right (by omega) (by omega)
        omega
    rw [this] at hd; omega
  by_cases hv : minimum ≤ v ∧ v < maximum
  · refine ⟨v, by simp [cyclicInner, hv], hv.1, hv.2, ⟨0, by simp⟩, fun _ _ => rfl, ?_⟩
    intro r' h1 h2 h3
    exact uniq v r' hv.1 hv.2 h1 h2 ⟨0, by simp⟩ h3
  · have hne : p ≠ 0 := by omega
    have b1 : 0 ≤ (v - minimum).fmod p := Int.fmod_nonneg_of_pos _ hp
    have b2 : (v - minimum).fmod p < p := Int.fmod_lt_of_pos _ hp
    have hk : ∃ k, v - (minimum + (v - minimum).fmod p) = k * p := by
      refine ⟨(v - minimum).fdiv p, ?_⟩
      have := Int.mul_fdiv_add_fmod (v - minimum) p
      rw [Int.mul_comm] at this
      omega
    refine ⟨minimum + (v - minimum).fmod p, ?_, by omega, by omega, hk, ?_, ?_⟩
    · unfold cyclicInner
      rw [if_neg hv, hP, if_neg hne]
    · intro h1 h2; exact (hv ⟨h1, h2⟩).elim
    · intro r' h1 h2 h3
      exact uniq _ r' (by omega) (by omega) h1 h2 hk h3

/-- **C09**, degenerate bounds: equal bounds raise ZeroDivisionError on every input; reversed bounds are accepted and
give a value in `(maximum, minimum]`. -/
theorem C09_cyclic_degenerate (minimum maximum v : Int) :
    (minimum = maximum → cyclicInner minimum maximum v = .error .zeroDivision) ∧
    (maximum < minimum → ∃ r, cyclicInner minimum maximum v = .ok r ∧ maximum < r ∧ r ≤ minimum ∧
      ∃ k, v - r = k * (maximum - minimum)) := by
  constructor
  · rintro rfl
    have : ¬ (minimum ≤ v ∧ v < minimum) := by omega
    simp [cyclicInner, this]
  · intro h
    have hv : ¬ (minimum ≤ v ∧ v < maximum) := by omega
    have hne : maximum - minimum ≠ 0 := by omega
    have e := Int.fmod_eq_emod (a := v - minimum) (b := maximum - minimum)
    have m1 := Int.emod_nonneg (v - minimum) hne
    have m2 := Int.emod_lt_of_neg (v - minimum) (show maximum - minimum < 0 by omega)
    have hz : maximum - minimum ∣ v - minimum → (v - minimum) % (maximum - minimum) = 0 :=
      fun hd => Int.emod_eq_zero_of_dvd hd
    have hz' : (v - minimum) % (maximum - minimum) = 0 → maximum - minimum ∣ v - minimum :=
      fun hd => Int.dvd_of_emod_eq_zero hd
    have n0 : ¬ (0 ≤ maximum - minimum) := by omega
    refine ⟨minimum + (v - minimum).fmod (maximum - minimum), by simp [cyclicInner, hv, hne], ?_, ?_, ?_⟩
    · split at e
      · rename_i hh; have := hz (hh.resolve_left n0); omega
      · rename_i hh
        have : (v - minimum) % (maximum - minimum) ≠ 0 := fun h0 => hh (.inr (hz' h0))
        omega
    · split at e
      · rename_i hh; have := hz (hh.resolve_left n0); omega
      · omega
    · refine ⟨(v - minimum).fdiv (maximum - minimum), ?_⟩
      have := Int.mul_fdiv_add_fmod (v - minimum) (maximum - minimum)
      rw [Int.mul_comm] at this
      omega

example : cyclicInner 0 360 (-30) = .ok 330 ∧ cyclicInner 0 360 725 = .ok 5 ∧ cyclicInner 7 7 3 = .error .zeroDivision ∧
    cyclicInner 10 0 13 = .ok 3 := ⟨rfl, rfl, rfl, rfl⟩

/-! ## C10 -/

/-- the interval described by the arguments of `Within`: lower bound strict iff `gEq` is false, upper bound inclusive
iff `lEq` -/
def InInterval (C : Cmp α) (lo hi : Option α) (gEq lEq : Bool) (v : α) : Prop :=
  (∀ l, lo = some l → if gEq then C.le l v else ¬ C.le v l) ∧
  (∀ u, hi = some u → if lEq then C.le v u else ¬ C.le u v)

/-- **C10**, constructor: ValueError iff lower > upper, or they are equal and not both inclusive. -/
theorem C10_within_init (C : Cmp α) (h : C.Total) (lo hi : Option α) (gEq lEq : Bool) :
    (Within.init C (loBound lo) (hiBound hi) gEq lEq = .error .valueError ↔
      ∃ l u, lo = some l ∧ hi = some u ∧ (¬ C.le l u ∨ (¬ (gEq ∧ lEq) ∧ C.le l u ∧ C.le u l))) ∧
    (Within.init C (loBound lo) (hiBound hi) gEq lEq ≠ .error .valueError →
      Within.init C (loBound lo) (hiBound hi) gEq lEq = .ok ⟨loBound lo, hiBound hi, gEq, lEq⟩) := by
  cases lo <;> cases hi <;> simp [Within.init, loBound, hiBound, Bound.gt, Bound.eq, h.gt_iff, h.eq_iff]
  rename_i l u
  cases C.le l u <;> cases C.le u l <;> cases gEq <;> cases lEq <;> simp

/-- **C10.** An accepted `Within` passes a value iff it lies in the described interval. -/
theorem C10_within_iff (C : Cmp α) (h : C.Total) (lo hi : Option α) (gEq lEq : Bool) (w : Within α)
    (hw : Within.init C (loBound lo) (hiBound hi) gEq lEq = .ok w) (v : α) :
    w.assert C (.val v) = true ↔ InInterval C lo hi gEq lEq v := by
  have : w = ⟨loBound lo, hiBound hi, gEq, lEq⟩ := by
    unfold Within.init at hw; split at hw <;> cases hw; rfl
  subst this
  cases lo <;> cases hi <;> cases gEq <;> cases lEq <;>
    simp [Within.assert, InInterval, loBound, hiBound, Bound.gt, Bound.lt, Bound.le, Bound.ge, h.gt_iff, h.lt_iff,
      h.ge_iff]

/-- **C10**, default flags: `Within(ge, lt)` with both bounds is refused iff not `ge < lt`; otherwise it passes exactly the values
with `ge <= v < lt`. -/
theorem C10_default (C : Cmp α) (h : C.Total) (l u : α) :
    (¬ C.lt l u → Within.init C (loBound (some l)) (hiBound (some u)) = .error .valueError) ∧
    (C.lt l u → ∃ w, Within.init C (loBound (some l)) (hiBound (some u)) = .ok w ∧
      ∀ v, w.assert C (.val v) = true ↔ (C.le l v = true ∧ C.lt v u = true)) := by
  have hi := C10_within_init C h (some l) (some u) true false
  constructor
  · intro hn
    refine hi.1.2 ⟨l, u, rfl, rfl, ?_⟩
    cases h1 : C.le l u <;> cases h2 : C.le u l <;> simp_all [h.lt_iff]
  · intro hl
    have hw := hi.2 (fun he => by
      obtain ⟨l', u', h1, h2, h3⟩ := hi.1.1 he
      cases h1; cases h2
      have ht := h.total l u
      have := (h.lt_iff l u)
      rcases h3 with h3 | ⟨-, -, h3⟩ <;> simp_all)
    refine ⟨_, hw, fun v => ?_⟩
    rw [C10_within_iff C h (some l) (some u) true false _ hw v]
    simp [InInterval, h.lt_iff]

/-- hypotheses met: a half-open interval of integers -/
example : Within.init intCmp (loBound (some 2)) (hiBound (some 5)) = .ok ⟨.val 2, .val 5, true, false⟩ ∧
    Within.assert intCmp ⟨.val 2, .val 5, true, false⟩ (.val 2) = true ∧
    Within.assert intCmp ⟨.val 2, .val 5, true, false⟩ (.val 5) = false := ⟨rfl, rfl, rfl⟩

/-! ## C11 -/

variable {W : World}

/-- **C11.** An assertion validator whose condition evaluates (with whatever side effects) to `b`:
returns its argument unchanged if `b`; otherwise raises the configured exception instance, or ValueError if none was
given, when `warn` is off; and with `warn` on (or a logger) emits exactly once through that channel and returns the
argument unchanged (if emitting raises, that is raised). -/
theorem C11_assert (c : AssertCfg) (emit : Bool → M W Unit) (cond : W.Obj → M W Bool) (v : W.Obj) (s s' : LState W)
    (b : Bool) (hb : cond v s = (.ok b, s')) :
    (b = true → c.inner emit cond v s = (.ok v, s')) ∧
    (b = false → c.warn = .off → c.inner emit cond v s = (.error (c.err.getD .valueError), s')) ∧
    (b = false → c.warn ≠ .off → c.inner emit cond v s = ((emit (c.warn = .logger) s').1.map (fun _ => v),
      (emit (c.warn = .logger) s').2)) := by
  unfold AssertCfg.inner M.bind
  simp only [hb]
  refine ⟨?_, ?_, ?_⟩
  · rintro rfl; rfl
  · rintro rfl hw
    simp only [AssertCfg.raise, hw]
    cases c.err <;> rfl
  · rintro rfl hw
    simp only [AssertCfg.raise]
    cases hc : c.warn with
    | off => exact (hw hc).elim
    | on => simp; rcases emit false s' with ⟨_ | _, _⟩ <;> rfl
    | logger => simp; rcases emit true s' with ⟨_ | _, _⟩ <;> rfl

/-- hypotheses met, in all three modes: a `Truth` validator on `0`; the warning is recorded once -/
example : (AssertCfg.inner ⟨none, .off⟩ (fun _ => Toy.log 1) truthAssert (.int 0) Toy.s0).1 = .error .valueError ∧
    AssertCfg.inner ⟨none, .on⟩ (fun _ => Toy.log 1) truthAssert (.int 0) Toy.s0 =
      (.ok (.int 0), { Toy.s0 with user := [1] }) ∧
    AssertCfg.inner ⟨none, .on⟩ (fun _ => Toy.log 1) truthAssert (.int 4) Toy.s0 = (.ok (.int 4), Toy.s0) :=
  ⟨rfl, rfl, rfl⟩

/-- **C11**, the condition itself raising: that exception is raised, nothing is emitted. -/
theorem C11_condition_raises (c : AssertCfg) (emit : Bool → M W Unit) (cond : W.Obj → M W Bool) (v : W.Obj)
    (s s' : LState W) (e : Exc) (hb : cond v s = (.error e, s')) : c.inner emit cond v s = (.error e, s') := by
  unfold AssertCfg.inner M.bind
  simp only [hb]

/-- **C11** for `AssertCallValidation` and `Truth`: the condition is the truth value of the user function's result,
resp. of the value itself. -/
theorem C11_conditions (func : W.Obj → M W W.Obj) (v r : W.Obj) (s s' : LState W) :
    (func v s = (.ok r, s') → assertCall func v s = (.ok (W.truthy r), s')) ∧
    truthAssert v s = (.ok (W.truthy v), s) := by
  refine ⟨?_, rfl⟩
  intro h; simp [assertCall, M.bind, h, M.pure]

end Records
