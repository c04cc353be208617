import Mathlib.Tactic.Linarith
import Mathlib.Tactic.Positivity
import Mathlib.Tactic.FieldSimp
import Mathlib.Data.Rat.Floor
import Verif.Model.Floats
import Verif.Spec.Floats
/-
Rounding to the nearest float: `f64 x` is a float, no float is nearer, floats are their own rounding, and rounding is monotone.
-/
namespace Records
open Spec

theorem ratAbs_eq (x : Rat) : ratAbs x = |x| := by
  unfold ratAbs
  split
  · rename_i h; rw [abs_of_neg h]
  · rename_i h; rw [abs_of_nonneg (not_lt.mp h)]

theorem pow2_eq (e : Int) : pow2 e = 2 ^ e := by
  unfold pow2
  split
  · rename_i h
    obtain ⟨n, rfl⟩ := Int.eq_ofNat_of_zero_le h
    simp
  · rename_i h
    obtain ⟨n, hn⟩ := Int.eq_ofNat_of_zero_le (show 0 ≤ -e by omega)
    have : e = -(n : Int) := by omega
    subst this
    simp

theorem q_pos (u : Int) : (0 : Rat) < 2 ^ u := zpow_pos (by norm_num) u

/-- the leading bit: 2^leadExp x ≤ |x| < 2^(leadExp x + 1) -/
theorem leadExp_spec {x : Rat} (h : x ≠ 0) : 2 ^ leadExp x ≤ |x| ∧ |x| < 2 ^ (leadExp x + 1) := by
  have hn0 : x.num.natAbs ≠ 0 := by simpa using h
  have hd0 : x.den ≠ 0 := x.den_nz
  have n1 := Nat.log2_self_le hn0
  have n2 := Nat.lt_log2_self (n := x.num.natAbs)
  have d1 := Nat.log2_self_le hd0
  have d2 := Nat.lt_log2_self (n := x.den)
  have hx : |x| = (x.num.natAbs : Rat) / (x.den : Rat) := by
    conv_lhs => rw [← Rat.num_div_den x]
    rw [abs_div, Nat.cast_natAbs, Int.cast_abs, Nat.abs_cast]
  have dp : (0 : Rat) < x.den := by exact_mod_cast Nat.pos_of_ne_zero hd0
  have n1' : (2 : Rat) ^ (x.num.natAbs.log2 : Int) ≤ x.num.natAbs := by rw [zpow_natCast]; exact_mod_cast n1
  have n2' : (x.num.natAbs : Rat) < 2 ^ ((x.num.natAbs.log2 : Int) + 1) := by
    have : (x.num.natAbs : Rat) < 2 ^ (x.num.natAbs.log2 + 1) := by exact_mod_cast n2
    rw [← zpow_natCast] at this; exact_mod_cast this
  have d1' : (2 : Rat) ^ (x.den.log2 : Int) ≤ x.den := by rw [zpow_natCast]; exact_mod_cast d1
  have d2' : (x.den : Rat) < 2 ^ ((x.den.log2 : Int) + 1) := by
    have : (x.den : Rat) < 2 ^ (x.den.log2 + 1) := by exact_mod_cast d2
    rw [← zpow_natCast] at this; exact_mod_cast this
  have lo : (2 : Rat) ^ ((x.num.natAbs.log2 : Int) - x.den.log2 - 1) ≤ |x| := by
    rw [hx, le_div_iff₀ dp]
    calc (2 : Rat) ^ ((x.num.natAbs.log2 : Int) - x.den.log2 - 1) * x.den
        ≤ 2 ^ ((x.num.natAbs.log2 : Int) - x.den.log2 - 1) * 2 ^ ((x.den.log2 : Int) + 1) :=
          mul_le_mul_of_nonneg_left (le_of_lt d2') (le_of_lt (q_pos _))
      _ = 2 ^ (x.num.natAbs.log2 : Int) := by rw [← zpow_add₀ (by norm_num)]; congr 1; omega
      _ ≤ _ := n1'
  have hi : |x| < 2 ^ ((x.num.natAbs.log2 : Int) - x.den.log2 + 1) := by
    rw [hx, div_lt_iff₀ dp]
    calc (x.num.natAbs : Rat) < 2 ^ ((x.num.natAbs.log2 : Int) + 1) := n2'
      _ = 2 ^ ((x.num.natAbs.log2 : Int) - x.den.log2 + 1) * 2 ^ (x.den.log2 : Int) := by
          rw [← zpow_add₀ (by norm_num)]; congr 1; omega
      _ ≤ _ := mul_le_mul_of_nonneg_left d1' (le_of_lt (q_pos _))
  unfold leadExp
  simp only [pow2_eq, ratAbs_eq]
  split
  · rename_i hc; exact ⟨hc, hi⟩
  · rename_i hc
    refine ⟨lo, ?_⟩
    rw [sub_add_cancel]; exact not_le.mp hc

theorem f64_eq (x : Rat) : f64 x = rint (x / 2 ^ ulpExp x) * 2 ^ ulpExp x := by unfold f64; rw [pow2_eq]

theorem floor_eq (x : Rat) : x.floor = ⌊x⌋ := rfl
theorem ceil_eq (x : Rat) : x.ceil = ⌈x⌉ := by
  rw [Rat.ceil_eq_neg_floor_neg, floor_eq, Int.floor_neg, neg_neg]

theorem rint_near (x : Rat) : |x - rint x| ≤ 1 / 2 := by
  have h0 := Int.floor_le x
  have h1 := Int.lt_floor_add_one x
  unfold rint
  rw [floor_eq]
  split
  · rw [abs_le]; constructor <;> linarith
  · split
    · push_cast; rw [abs_le]; constructor <;> linarith
    · split
      · rw [abs_le]; constructor <;> linarith
      · push_cast; rw [abs_le]; constructor <;> linarith

theorem rint_nearest (x : Rat) (n : Int) : |x - rint x| ≤ |x - n| := by
  by_cases h : n = rint x
  · rw [h]
  · have h1 := rint_near x
    have h2 : (1 : Rat) ≤ |(rint x : Rat) - n| := by
      have : (1 : Int) ≤ |rint x - n| := Int.one_le_abs (by omega)
      exact_mod_cast this
    have h3 : |(rint x : Rat) - n| ≤ |x - rint x| + |x - n| := by
      have := abs_sub_abs_le_abs_sub (rint x - n : Rat) (rint x - x : Rat)
      have e1 : (rint x - n : Rat) - (rint x - x) = x - n := by ring
      rw [e1, abs_sub_comm (rint x : Rat) x] at this
      linarith
    linarith

theorem rint_int (n : Int) : rint n = n := by
  have := rint_nearest n n
  simp only [sub_self, abs_zero] at this
  have h := abs_nonpos_iff.mp this
  have : (n : Rat) = rint n := by linarith
  exact_mod_cast this.symm

theorem rint_mono {x y : Rat} (h : x ≤ y) : rint x ≤ rint y := by
  by_contra hc
  have hc : rint y + 1 ≤ rint x := by omega
  have hc' : (rint y : Rat) + 1 ≤ rint x := by exact_mod_cast hc
  have h1 := abs_le.mp (rint_near x)
  have h2 := abs_le.mp (rint_near y)
  have : x = y := by linarith
  subst this
  linarith

theorem abs_le_ulp (x : Rat) : |x| < 2 ^ (ulpExp x + 53) := by
  by_cases hx : x = 0
  · rw [hx, abs_zero]; exact q_pos _
  refine lt_of_lt_of_le (leadExp_spec hx).2 ?_
  apply zpow_le_zpow_right₀ (by norm_num)
  unfold ulpExp; split <;> omega

theorem f64_isFloat (x : Rat) : IsFloat (f64 x) := by
  have hq := q_pos (ulpExp x)
  have hb : |rint (x / 2 ^ ulpExp x)| ≤ 2 ^ 53 := by
    have h := abs_le_ulp x
    rw [zpow_add₀ (by norm_num)] at h
    have h' : |x / 2 ^ ulpExp x| < 2 ^ (53 : Int) := by
      rw [abs_div, abs_of_pos hq, div_lt_iff₀ hq]; linarith
    have h'' := abs_lt.mp h'
    have e : ((2 : Rat) ^ (53 : Int)) = ((2 ^ 53 : Int) : Rat) := by norm_num
    have l1 := rint_mono (le_of_lt h''.2)
    have l2 := rint_mono (le_of_lt h''.1)
    rw [e, rint_int] at l1
    rw [e, show (-((2 ^ 53 : Int) : Rat)) = ((-(2 ^ 53) : Int) : Rat) by push_cast; rfl, rint_int] at l2
    exact abs_le.mpr ⟨l2, l1⟩
  have hu : -1074 ≤ ulpExp x := by unfold ulpExp; split <;> omega
  rcases lt_or_eq_of_le hb with hlt | heq
  · exact ⟨_, _, hlt, hu, f64_eq x⟩
  · rcases abs_eq (by norm_num : (0 : Int) ≤ 2 ^ 53) |>.mp heq with h | h
    · refine ⟨2 ^ 52, ulpExp x + 1, by norm_num, by omega, ?_⟩
      rw [f64_eq, h, zpow_add₀ (by norm_num)]; push_cast; ring
    · refine ⟨-2 ^ 52, ulpExp x + 1, by norm_num, by omega, ?_⟩
      rw [f64_eq, h, zpow_add₀ (by norm_num)]; push_cast; ring

/-- a multiple of `2 ^ u` -/
theorem zpow_mul_int {e u : Int} (h : u ≤ e) (m : Int) : ∃ n : Int, (m : Rat) * 2 ^ e = n * 2 ^ u := by
  obtain ⟨k, hk⟩ := Int.le.dest h
  refine ⟨m * 2 ^ k, ?_⟩
  rw [← hk, zpow_add₀ (by norm_num)]
  push_cast
  rw [zpow_natCast]; ring

theorem f64_nearest_mul (x : Rat) (n : Int) : |x - f64 x| ≤ |x - n * 2 ^ ulpExp x| := by
  have hq := q_pos (ulpExp x)
  have h := rint_nearest (x / 2 ^ ulpExp x) n
  have e : ∀ k : Int, |x - k * 2 ^ ulpExp x| = |x / 2 ^ ulpExp x - k| * 2 ^ ulpExp x := by
    intro k
    rw [← abs_of_pos hq, ← abs_mul, abs_of_pos hq]
    congr 1
    field_simp
  rw [f64_eq, e, e]
  exact mul_le_mul_of_nonneg_right h (le_of_lt hq)

theorem f64_nearest (x y : Rat) (hy : IsFloat y) : |x - f64 x| ≤ |x - y| := by
  obtain ⟨m, e, hm, he, rfl⟩ := hy
  by_cases hue : ulpExp x ≤ e
  · obtain ⟨n, hn⟩ := zpow_mul_int hue m
    rw [hn]; exact f64_nearest_mul x n
  · have hu : ulpExp x = leadExp x - 52 := by
      unfold ulpExp at hue ⊢; split at hue <;> split <;> omega
    by_cases hx : x = 0
    · have : f64 x = 0 := by
        subst hx; rw [f64_eq]
        have := rint_int 0
        simp only [Int.cast_zero] at this
        rw [zero_div, this]; simp
      rw [this, hx, sub_zero, abs_zero]; exact abs_nonneg _
    · have hx0 : 0 < |x| := abs_pos.mpr hx
      have hlow : (2 : Rat) ^ (ulpExp x + 52) ≤ |x| := by
        rw [hu, sub_add_cancel]; exact (leadExp_spec hx).1
      have hq := q_pos (ulpExp x)
      have hy : |(m : Rat) * 2 ^ e| ≤ 2 ^ (ulpExp x + 52) := by
        have hm' : |(m : Rat)| ≤ 2 ^ 53 := by
          have : |m| ≤ 2 ^ 53 := le_of_lt hm
          exact_mod_cast this
        rw [abs_mul, abs_of_pos (q_pos e)]
        calc |(m : Rat)| * 2 ^ e ≤ 2 ^ 53 * 2 ^ e := mul_le_mul_of_nonneg_right hm' (le_of_lt (q_pos e))
          _ = 2 ^ (53 + e) := by rw [zpow_add₀ (by norm_num)]; norm_num
          _ ≤ 2 ^ (ulpExp x + 52) := zpow_le_zpow_right₀ (by norm_num) (by omega)
      have hp : (2 : Rat) ^ (ulpExp x + 52) = 4503599627370496 * 2 ^ ulpExp x := by
        rw [add_comm, zpow_add₀ (by norm_num)]; norm_num
      have hy' := abs_le.mp hy
      rcases lt_or_gt_of_ne hx with hneg | hpos
      · have h := f64_nearest_mul x (-2 ^ 52)
        rw [abs_of_neg hneg] at hlow
        push_cast at h
        rw [neg_mul, ← hp] at h
        refine h.trans ?_
        rw [abs_of_nonpos (by linarith), abs_of_nonpos (by linarith)]; linarith
      · have h := f64_nearest_mul x (2 ^ 52)
        rw [abs_of_pos hpos] at hlow
        push_cast at h
        rw [← hp] at h
        refine h.trans ?_
        rw [abs_of_nonneg (by linarith), abs_of_nonneg (by linarith)]; linarith

theorem f64_spec (x : Rat) : Nearest x (f64 x) := ⟨f64_isFloat x, f64_nearest x⟩

theorem f64_of_isFloat {x : Rat} (h : IsFloat x) : f64 x = x := by
  have := f64_nearest x x h
  rw [sub_self, abs_zero] at this
  have := abs_nonpos_iff.mp this
  linarith

theorem f64_mono {x y : Rat} (h : x ≤ y) : f64 x ≤ f64 y := by
  by_contra hc
  have hc : f64 y < f64 x := lt_of_not_ge hc
  have h1 := f64_nearest x _ (f64_isFloat y)
  have h2 := f64_nearest y _ (f64_isFloat x)
  have a1 : f64 x + f64 y ≤ 2 * x := by
    by_contra hh
    have hh := lt_of_not_ge hh
    rcases abs_cases (x - f64 x) with ⟨e, _⟩ | ⟨e, _⟩ <;> rcases abs_cases (x - f64 y) with ⟨e', _⟩ | ⟨e', _⟩ <;>
      rw [e, e'] at h1 <;> linarith
  have a2 : 2 * y ≤ f64 x + f64 y := by
    by_contra hh
    have hh := lt_of_not_ge hh
    rcases abs_cases (y - f64 x) with ⟨e, _⟩ | ⟨e, _⟩ <;> rcases abs_cases (y - f64 y) with ⟨e', _⟩ | ⟨e', _⟩ <;>
      rw [e, e'] at h2 <;> linarith
  have : x = y := by linarith
  subst this
  exact lt_irrefl _ hc

theorem isFloat_zero : IsFloat 0 := ⟨0, 0, by norm_num, by norm_num, by norm_num⟩

theorem f64_zero : f64 0 = 0 := f64_of_isFloat isFloat_zero

theorem isFloat_int {n : Int} (h : |n| ≤ 2 ^ 53) : IsFloat n := by
  rcases lt_or_eq_of_le h with hlt | heq
  · exact ⟨n, 0, hlt, by norm_num, by simp⟩
  · rcases abs_eq (by norm_num : (0 : Int) ≤ 2 ^ 53) |>.mp heq with h | h
    · exact ⟨2 ^ 52, 1, by norm_num, by norm_num, by rw [h]; norm_num⟩
    · exact ⟨-2 ^ 52, 1, by norm_num, by norm_num, by rw [h]; norm_num⟩

theorem isFloat_neg {x : Rat} (h : IsFloat x) : IsFloat (-x) := by
  obtain ⟨m, e, hm, he, rfl⟩ := h
  exact ⟨-m, e, by rwa [abs_neg], he, by push_cast; ring⟩

/-- different floats have a difference that does not round to zero -/
theorem f64_sub_pos {x y : Rat} (hx : IsFloat x) (hy : IsFloat y) (h : x < y) : 0 < f64 (y - x) := by
  obtain ⟨m, e, hm, he, rfl⟩ := hx
  obtain ⟨m', e', hm', he', rfl⟩ := hy
  obtain ⟨n, hn⟩ := zpow_mul_int he m
  obtain ⟨n', hn'⟩ := zpow_mul_int he' m'
  rw [hn, hn'] at h ⊢
  have hq := q_pos (-1074)
  have hlt : n < n' := by
    have := lt_of_mul_lt_mul_right h (le_of_lt hq)
    exact_mod_cast this
  have h1 : (2 : Rat) ^ (-1074 : Int) ≤ n' * 2 ^ (-1074 : Int) - n * 2 ^ (-1074 : Int) := by
    have : (1 : Rat) ≤ (n' : Rat) - n := by
      have : (1 : Int) ≤ n' - n := by omega
      exact_mod_cast this
    calc (2 : Rat) ^ (-1074 : Int) = 1 * 2 ^ (-1074 : Int) := by ring
      _ ≤ ((n' : Rat) - n) * 2 ^ (-1074 : Int) := mul_le_mul_of_nonneg_right this (le_of_lt hq)
      _ = _ := by ring
  have h2 : IsFloat ((2 : Rat) ^ (-1074 : Int)) := ⟨1, -1074, by norm_num, by norm_num, by simp⟩
  have h3 := f64_mono h1
  rw [f64_of_isFloat h2] at h3
  exact lt_of_lt_of_le hq h3

/-- likewise for a negative difference -/
theorem f64_sub_neg {x y : Rat} (hx : IsFloat x) (hy : IsFloat y) (h : x < y) : f64 (x - y) < 0 := by
  have h1 : f64 (x - y) ≤ 0 := by have := f64_mono (show x - y ≤ 0 by linarith); rwa [f64_zero] at this
  refine lt_of_le_of_ne h1 fun h0 => ?_
  obtain ⟨m, e, -, he, rfl⟩ := hx
  obtain ⟨m', e', -, he', rfl⟩ := hy
  obtain ⟨n, hn⟩ := zpow_mul_int he m
  obtain ⟨n', hn'⟩ := zpow_mul_int he' m'
  rw [hn, hn'] at h h0
  have hq := q_pos (-1074)
  have hf : IsFloat (-(2 : Rat) ^ (-1074 : Int)) := isFloat_neg ⟨1, -1074, by norm_num, by norm_num, by simp⟩
  have hlt : n < n' := by
    have := lt_of_mul_lt_mul_right h (le_of_lt hq)
    exact_mod_cast this
  have h5 : (n : Rat) * 2 ^ (-1074 : Int) - n' * 2 ^ (-1074 : Int) ≤ -(2 : Rat) ^ (-1074 : Int) := by
    have : (n : Rat) - n' ≤ -1 := by
      have : n - n' ≤ (-1 : Int) := by omega
      exact_mod_cast this
    calc (n : Rat) * 2 ^ (-1074 : Int) - n' * 2 ^ (-1074 : Int) = (n - n') * 2 ^ (-1074 : Int) := by ring
      _ ≤ -1 * 2 ^ (-1074 : Int) := mul_le_mul_of_nonneg_right this (le_of_lt hq)
      _ = _ := by ring
  have h6 := f64_mono h5
  rw [f64_of_isFloat hf, h0] at h6
  exact absurd hq (not_lt.mpr (neg_nonneg.mp h6))

/-! ### `fmod` -/

theorem truncRat_of_nonneg {x : Rat} (h : 0 ≤ x) : (truncRat x : Rat) ≤ x ∧ x < truncRat x + 1 := by
  unfold truncRat; rw [if_pos h, floor_eq]; exact ⟨Int.floor_le x, Int.lt_floor_add_one x⟩

theorem truncRat_of_neg {x : Rat} (h : x < 0) : x ≤ truncRat x ∧ (truncRat x : Rat) < x + 1 := by
  unfold truncRat; rw [if_neg (not_le.mpr h), ceil_eq]; exact ⟨Int.le_ceil x, Int.ceil_lt_add_one x⟩

theorem fmod_nonneg {x y : Rat} (hx : 0 ≤ x) (hy : 0 < y) : 0 ≤ fmod x y ∧ fmod x y < y := by
  have h := truncRat_of_nonneg (div_nonneg hx (le_of_lt hy))
  rw [le_div_iff₀ hy, div_lt_iff₀ hy] at h
  unfold fmod; constructor <;> linarith

theorem fmod_neg {x y : Rat} (hx : x < 0) (hy : 0 < y) : -y < fmod x y ∧ fmod x y ≤ 0 := by
  have h := truncRat_of_neg (div_neg_of_neg_of_pos hx hy)
  rw [div_le_iff₀ hy, ← sub_lt_iff_lt_add, lt_div_iff₀ hy] at h
  unfold fmod; constructor <;> linarith

theorem fmod_cong (x y : Rat) : ∃ k : Int, x - fmod x y = k * y := ⟨truncRat (x / y), by unfold fmod; ring⟩

/-- the remainder of non-negative floats is a float -/
theorem fmod_isFloat {x y : Rat} (hx : 0 ≤ x) (hy : 0 < y) (fx : IsFloat x) (fy : IsFloat y) : IsFloat (fmod x y) := by
  have hb := fmod_nonneg hx hy
  have hle : fmod x y ≤ x := by
    have h := truncRat_of_nonneg (div_nonneg hx (le_of_lt hy))
    have h0 : (0 : Int) ≤ truncRat (x / y) := by
      have := div_nonneg hx (le_of_lt hy)
      unfold truncRat; rw [if_pos this]; exact Int.floor_nonneg.mpr this
    have h0' : (0 : Rat) ≤ truncRat (x / y) := by exact_mod_cast h0
    unfold fmod
    have := mul_nonneg h0' (le_of_lt hy)
    linarith
  obtain ⟨k, hk⟩ := fmod_cong x y
  generalize fmod x y = r at hb hle hk
  obtain ⟨m, e, hm, he, rfl⟩ := fx
  obtain ⟨m', e', hm', he', rfl⟩ := fy
  have key : ∀ (c : Int) (n : Int) (b : Int), |b| < 2 ^ 53 → -1074 ≤ c → r = n * 2 ^ c → r ≤ b * 2 ^ c → IsFloat r := by
    intro c n b hb' hc hn hbd
    have hq := q_pos c
    rw [hn] at hb hbd
    have h1 : (n : Rat) ≤ b := le_of_mul_le_mul_right hbd hq
    have h0 : (0 : Rat) ≤ n := nonneg_of_mul_nonneg_left hb.1 hq
    have h1' : n ≤ b := by exact_mod_cast h1
    have h0' : 0 ≤ n := by exact_mod_cast h0
    refine ⟨n, c, ?_, hc, hn⟩
    have := abs_lt.mp hb'
    rw [abs_of_nonneg h0']; omega
  rcases le_total e e' with h | h
  · obtain ⟨n, hn⟩ := zpow_mul_int h m'
    refine key e (m - k * n) m hm he ?_ hle
    rw [hn] at hk
    push_cast; linarith
  · obtain ⟨n, hn⟩ := zpow_mul_int h m
    refine key e' (n - k * m') m' hm' he' ?_ (le_of_lt hb.2)
    rw [hn] at hk
    push_cast; linarith

/-- what float `%` yields for a positive divisor: the exact remainder, rounded if the dividend is negative -/
theorem floatMod_pos {x y : Rat} (hy : 0 < y) :
    ∃ e : Rat, 0 ≤ e ∧ e < y ∧ (∃ k : Int, x - e = k * y) ∧
      ((0 ≤ x ∧ e = fmod x y ∧ floatMod x y = .ok e) ∨ (x < 0 ∧ e = 0 ∧ floatMod x y = .ok 0) ∨ (x < 0 ∧ floatMod x y = .ok (f64 e))) := by
  have hy0 : y ≠ 0 := ne_of_gt hy
  have hyn : ¬ y < 0 := not_lt.mpr (le_of_lt hy)
  obtain ⟨k, hk⟩ := fmod_cong x y
  by_cases hx : 0 ≤ x
  · have hb := fmod_nonneg hx hy
    refine ⟨fmod x y, hb.1, hb.2, ⟨k, hk⟩, Or.inl ⟨hx, rfl, ?_⟩⟩
    unfold floatMod
    rw [if_neg hy0]
    have : ¬ fmod x y < 0 := not_lt.mpr hb.1
    by_cases h0 : fmod x y = 0
    · simp [h0]
    · simp [h0, hyn, this]
  · have hx : x < 0 := lt_of_not_ge hx
    have hb := fmod_neg hx hy
    by_cases h0 : fmod x y = 0
    · refine ⟨0, le_refl _, hy, ⟨k, by rw [← hk, h0]⟩, Or.inr (Or.inl ⟨hx, rfl, ?_⟩)⟩
      unfold floatMod; simp [hy0, h0]
    · have hlt : fmod x y < 0 := lt_of_le_of_ne hb.2 h0
      refine ⟨fmod x y + y, by linarith, by linarith, ⟨k - 1, ?_⟩, Or.inr (Or.inr ⟨hx, ?_⟩)⟩
      · push_cast; linarith
      · unfold floatMod; simp [hy0, h0, hyn, hlt]

/-- float `%` for a negative divisor -/
theorem floatMod_neg {x y : Rat} (hy : y < 0) (fy : IsFloat y) : ∃ d, floatMod x y = .ok d ∧ y ≤ d ∧ d ≤ 0 := by
  have hy0 : y ≠ 0 := ne_of_lt hy
  have hb : y < fmod x y ∧ fmod x y < -y ∧ (0 < fmod x y ∨ fmod x y ≤ 0) := by
    by_cases hq : 0 ≤ x / y
    · have h := truncRat_of_nonneg hq
      rw [le_div_iff_of_neg hy, div_lt_iff_of_neg hy] at h
      unfold fmod
      refine ⟨by linarith, by linarith, ?_⟩
      right; linarith
    · have h := truncRat_of_neg (not_le.mp hq)
      rw [div_le_iff_of_neg hy, ← sub_lt_iff_lt_add, lt_div_iff_of_neg hy] at h
      unfold fmod
      refine ⟨by linarith, by linarith, ?_⟩
      exact lt_or_ge _ _
  unfold floatMod
  rw [if_neg hy0]
  by_cases h0 : fmod x y = 0
  · exact ⟨0, by simp [h0], le_of_lt hy, le_refl _⟩
  · by_cases hm : fmod x y < 0
    · exact ⟨_, by simp [h0, hm, hy], le_of_lt hb.1, le_of_lt hm⟩
    · have hm' : 0 < fmod x y := lt_of_le_of_ne (not_lt.mp hm) (Ne.symm h0)
      refine ⟨f64 (fmod x y + y), by simp [h0, hm, hy], ?_, ?_⟩
      · have := f64_mono (show y ≤ fmod x y + y by linarith); rwa [f64_of_isFloat fy] at this
      · have := f64_mono (show fmod x y + y ≤ 0 by linarith [hb.2.1]); rwa [f64_zero] at this

/-! ### `math.isclose` -/

/-- a float of magnitude at least 1/2 is a multiple of 2^-53 -/
theorem half_mul {x : Rat} (hx : IsFloat x) (h : 1 / 2 ≤ x) : ∃ n : Int, x = n / 2 ^ 53 := by
  obtain ⟨m, e, hm, -, rfl⟩ := hx
  have he : -53 ≤ e := by
    by_contra hc
    have hm' : (m : Rat) < 2 ^ 53 := by exact_mod_cast (abs_lt.mp hm).2
    have h1 : (2 : Rat) ^ e ≤ 2 ^ (-54 : Int) := zpow_le_zpow_right₀ (by norm_num) (by omega)
    have h2 : (m : Rat) * 2 ^ e < 2 ^ 53 * 2 ^ (-54 : Int) :=
      calc (m : Rat) * 2 ^ e < 2 ^ 53 * 2 ^ e := mul_lt_mul_of_pos_right hm' (q_pos e)
        _ ≤ _ := mul_le_mul_of_nonneg_left h1 (by norm_num)
    norm_num at h2
    linarith
  obtain ⟨n, hn⟩ := zpow_mul_int he m
  exact ⟨n, by rw [hn]; norm_num [div_eq_mul_inv]⟩

theorem isFloat_53 {n : Int} (h : |n| < 2 ^ 53) : IsFloat (n / 2 ^ 53) :=
  ⟨n, -53, h, by norm_num, by norm_num [div_eq_mul_inv]⟩

theorem relTol_bounds : (9007199 : Rat) / 2 ^ 53 ≤ f64 (1 / 1000000000) ∧ f64 (1 / 1000000000) < 9007200 / 2 ^ 53 := by
  constructor <;> decide +kernel

theorem f64_nonneg {x : Rat} (h : 0 ≤ x) : 0 ≤ f64 x := by
  have := f64_mono h; rwa [f64_zero] at this

theorem isclose_zero {m : Rat} (hf : IsFloat m) (h : 0 ≤ m) : isclose m 0 = true ↔ m = 0 := by
  have hr := relTol_bounds
  unfold isclose
  simp only [ratAbs_eq, mul_zero, f64_zero, abs_zero, zero_sub, f64_of_isFloat (isFloat_neg hf), abs_neg, abs_of_nonneg h,
    Bool.or_eq_true, decide_eq_true_eq]
  constructor
  · rintro (((h1 | h1) | h1) | h1)
    · exact h1
    · linarith
    · by_contra hne
      have hpos : 0 < m := lt_of_le_of_ne h (Ne.symm hne)
      have hx0 : 0 ≤ f64 (1 / 1000000000) * m := mul_nonneg (by linarith [hr.1]) h
      have hn := f64_nearest (f64 (1 / 1000000000) * m) 0 isFloat_zero
      rw [sub_zero, abs_of_nonneg hx0] at hn
      rw [abs_of_nonneg (f64_nonneg hx0)] at h1
      have h2 := (abs_le.mp hn).1
      have h3 : f64 (1 / 1000000000) * m < 1 / 4 * m := mul_lt_mul_of_pos_right (by linarith [hr.2]) hpos
      linarith
    · linarith
  · intro h0; exact Or.inl (Or.inl (Or.inl h0))

theorem isclose_one {m : Rat} (hf : IsFloat m) (h : 0 ≤ m) (h1 : m ≤ 1) :
    isclose m 1 = true ↔ 1 - 9007199 / 2 ^ 53 ≤ m := by
  have hr := relTol_bounds
  have hd : 0 ≤ f64 (1 - m) := f64_nonneg (by linarith)
  have hm : f64 (f64 (1 / 1000000000) * m) ≤ f64 (1 / 1000000000) := by
    have : f64 (1 / 1000000000) * m ≤ f64 (1 / 1000000000) * 1 := mul_le_mul_of_nonneg_left h1 (by linarith [hr.1])
    rw [mul_one] at this
    have := f64_mono this
    rwa [f64_of_isFloat (f64_isFloat _)] at this
  have hm0 : 0 ≤ f64 (f64 (1 / 1000000000) * m) := f64_nonneg (mul_nonneg (by linarith [hr.1]) h)
  have h0 : 0 ≤ f64 (1 / 1000000000) := by linarith [hr.1]
  have key : isclose m 1 = true ↔ f64 (1 - m) ≤ f64 (1 / 1000000000) := by
    unfold isclose
    simp only [ratAbs_eq, mul_one, f64_of_isFloat (f64_isFloat _), abs_of_nonneg hd, abs_of_nonneg h0, abs_of_nonneg hm0,
      Bool.or_eq_true, decide_eq_true_eq]
    constructor
    · rintro (((hh | hh) | hh) | hh)
      · rw [hh, sub_self, f64_zero]; exact h0
      · exact hh
      · linarith
      · linarith
    · intro hh; exact Or.inl (Or.inl (Or.inr hh))
  rw [key]
  constructor
  · intro hh
    by_contra hc
    have hc := not_le.mp hc
    have hge : (9007200 : Rat) / 2 ^ 53 ≤ 1 - m := by
      by_cases hhalf : 1 / 2 ≤ m
      · obtain ⟨n, rfl⟩ := half_mul hf hhalf
        have : (n : Rat) < 2 ^ 53 - 9007199 := by
          norm_num at hc ⊢; linarith
        have : n < 2 ^ 53 - 9007199 := by exact_mod_cast this
        have : n ≤ 2 ^ 53 - 9007200 := by omega
        have : (n : Rat) ≤ 2 ^ 53 - 9007200 := by exact_mod_cast this
        norm_num at this ⊢; linarith
      · norm_num; linarith
    have := f64_mono hge
    rw [show (9007200 : Rat) / 2 ^ 53 = ((9007200 : Int) : Rat) / 2 ^ 53 by norm_num, f64_of_isFloat (isFloat_53 (by norm_num))] at this
    have h2 := hr.2
    push_cast at this
    linarith
  · intro hh
    have : 1 - m ≤ ((9007199 : Int) : Rat) / 2 ^ 53 := by push_cast; linarith
    have := f64_mono this
    rw [f64_of_isFloat (isFloat_53 (by norm_num))] at this
    push_cast at this
    linarith [hr.1]

/-- the rounding of a fraction just below 1 -/
theorem f64_below_one (e : Rat) :
    1 - 9007199 / 2 ^ 53 ≤ f64 e ↔ 1 - e < 18014399 / 2 ^ 54 := by
  constructor
  · intro hh
    by_contra hc
    have hc := not_lt.mp hc
    have h1 : e ≤ 1 - 18014399 / 2 ^ 54 := by linarith
    have h2 := f64_mono h1
    have h3 : f64 (1 - 18014399 / 2 ^ 54) = 1 - 9007200 / 2 ^ 53 := by decide +kernel
    rw [h3] at h2
    norm_num at hh h2; linarith
  · intro hh
    have hg : IsFloat (1 - 9007199 / 2 ^ 53) := by
      have := isFloat_53 (n := 2 ^ 53 - 9007199) (by norm_num)
      norm_num at this ⊢; exact this
    by_cases hge : 1 - 9007199 / 2 ^ 53 ≤ e
    · have := f64_mono hge
      rwa [f64_of_isFloat hg] at this
    · have hge := not_le.mp hge
      have hn := f64_nearest e _ hg
      rw [abs_of_neg (show e - (1 - 9007199 / 2 ^ 53) < 0 by linarith)] at hn
      have h2 := (abs_le.mp hn).2
      have hlow : 1 - 9007200 / 2 ^ 53 < f64 e := by norm_num at hh h2 ⊢; linarith
      obtain ⟨n, hn⟩ := half_mul (f64_isFloat e) (by norm_num at hlow ⊢; linarith)
      rw [hn] at hlow ⊢
      have : (2 ^ 53 - 9007200 : Rat) < n := by norm_num at hlow ⊢; linarith
      have : (2 ^ 53 - 9007200 : Int) < n := by exact_mod_cast this
      have : (2 ^ 53 - 9007199 : Int) ≤ n := by omega
      have : (2 ^ 53 - 9007199 : Rat) ≤ n := by exact_mod_cast this
      norm_num at this ⊢; linarith

/-- a positive number that differs from a float by an integer does not round to zero -/
theorem f64_pos_of_int {r e : Rat} {k : Int} (hr : IsFloat r) (h : r - e = k) (he : 0 < e) : 0 < f64 e := by
  obtain ⟨m, c, -, hc, rfl⟩ := hr
  obtain ⟨n, hn⟩ := zpow_mul_int hc m
  obtain ⟨j, hj⟩ := zpow_mul_int (show (-1074 : Int) ≤ 0 by norm_num) k
  have hq := q_pos (-1074)
  have he' : e = ((n - j : Int) : Rat) * 2 ^ (-1074 : Int) := by
    rw [zpow_zero, mul_one] at hj
    rw [hn, hj] at h
    generalize (2 : Rat) ^ (-1074 : Int) = q at h
    push_cast; linarith
  have hpos : (0 : Rat) < ((n - j : Int) : Rat) := by
    rw [he'] at he; exact (mul_pos_iff_of_pos_right hq).mp he
  have hpos' : (0 : Int) < n - j := by exact_mod_cast hpos
  have h1 : (1 : Rat) ≤ ((n - j : Int) : Rat) := by exact_mod_cast hpos'
  have h2 : (2 : Rat) ^ (-1074 : Int) ≤ e := by
    rw [he']
    calc (2 : Rat) ^ (-1074 : Int) = 1 * 2 ^ (-1074 : Int) := by ring
      _ ≤ _ := mul_le_mul_of_nonneg_right h1 (le_of_lt hq)
  have h3 := f64_mono h2
  rw [f64_of_isFloat ⟨1, -1074, by norm_num, by norm_num, by simp⟩] at h3
  exact lt_of_lt_of_le hq h3

/-- the test of `Whole` on a float -/
theorem whole_test {r : Rat} (hr : IsFloat r) :
    ∃ mod, floatMod r 1 = .ok mod ∧
      ((isclose mod 0 || isclose mod 1) = true ↔ ∃ k : Int, r ≤ k ∧ (k : Rat) - r < 18014399 / 2 ^ 54) := by
  have one : (0 : Rat) < 1 := by norm_num
  have f1 : IsFloat 1 := by exact_mod_cast isFloat_int (n := 1) (by norm_num)
  obtain ⟨e, he0, he1, ⟨k0, hk0⟩, hc⟩ := floatMod_pos (x := r) one
  rw [mul_one] at hk0
  have claim : (∃ k : Int, r ≤ k ∧ (k : Rat) - r < 18014399 / 2 ^ 54) ↔ (e = 0 ∨ 1 - e < 18014399 / 2 ^ 54) := by
    constructor
    · rintro ⟨k, h1, h2⟩
      rcases lt_trichotomy k (k0 + 1) with hlt | heq | hgt
      · left
        have : k ≤ k0 := by omega
        have : (k : Rat) ≤ k0 := by exact_mod_cast this
        linarith
      · right
        subst heq; push_cast at h2; linarith
      · exfalso
        have : k0 + 2 ≤ k := by omega
        have : (k0 : Rat) + 2 ≤ k := by exact_mod_cast this
        norm_num at h2; linarith
    · rintro (h | h)
      · exact ⟨k0, by linarith, by norm_num; linarith⟩
      · exact ⟨k0 + 1, by push_cast; linarith, by push_cast; linarith⟩
  rw [claim]
  rcases hc with ⟨hx, rfl, hc⟩ | ⟨-, rfl, hc⟩ | ⟨-, hc⟩
  · have hf := fmod_isFloat hx one hr f1
    refine ⟨_, hc, ?_⟩
    rw [Bool.or_eq_true, isclose_zero hf he0, isclose_one hf he0 (le_of_lt he1), ← f64_below_one, f64_of_isFloat hf]
  · refine ⟨_, hc, ?_⟩
    rw [Bool.or_eq_true, isclose_zero isFloat_zero (le_refl _), isclose_one isFloat_zero (le_refl _) (by norm_num)]
    norm_num
  · have hf := f64_isFloat e
    have h1 : f64 e ≤ 1 := by have := f64_mono (le_of_lt he1); rwa [f64_of_isFloat f1] at this
    refine ⟨_, hc, ?_⟩
    rw [Bool.or_eq_true, isclose_zero hf (f64_nonneg he0), isclose_one hf (f64_nonneg he0) h1, f64_below_one]
    constructor
    · rintro (h | h)
      · left
        by_contra hne
        have := f64_pos_of_int hr hk0 (lt_of_le_of_ne he0 (Ne.symm hne))
        linarith
      · exact Or.inr h
    · rintro (h | h)
      · left; rw [h, f64_zero]
      · exact Or.inr h

end Records
