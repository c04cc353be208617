import Verif.Proofs.Floats
import Verif.Props.Validators
import Verif.Props.Tokens
/-
C85 and C103: what `Whole` and `Cyclic` do with floats.
-/
namespace Records
open Spec

/-! ## C85: Whole on floats -/

section Whole
variable {W : World}

/-- **C85.** `Whole` accepts a float iff it is whole or lies less than 18014399 / 2^54 (a little more than 10^-9) *below* a
whole number (`k` is that number); it passes the float itself on. -/
theorem C85_whole_float (r : Rat) (hr : IsFloat r) :
    (whole (.real r) = .ok (.real r) ↔ ∃ k : Int, r ≤ k ∧ (k : Rat) - r < 18014399 / 2 ^ 54) ∧
    (¬ (∃ k : Int, r ≤ k ∧ (k : Rat) - r < 18014399 / 2 ^ 54) → whole (.real r) = .error .typeError) := by
  obtain ⟨mod, hm, key⟩ := whole_test hr
  unfold whole
  simp only [hm]
  rw [← key]
  constructor
  · split
    · rename_i h; simp [h]
    · rename_i h; simp [h]
  · intro h; rw [if_neg h]

/-- **C85**, refutation: "Whole preserves the number it accepts" fails for floats: 2.9999999999 is accepted and `int`
makes it 2, neither the number itself nor the nearest whole number. -/
theorem C85_refuted_rounding : ∃ r : Rat, r = f64 (29999999999 / 10000000000) ∧ IsFloat r ∧ whole (.real r) = .ok (.real r) ∧
    (WholeArg.real r).toInt = 2 ∧ r < 3 ∧ 2 + 1 / 2 < r :=
  ⟨_, rfl, f64_isFloat _, by decide +kernel, by decide +kernel, by decide +kernel, by decide +kernel⟩

/-- **C85.** What `int` makes of an accepted float: the whole number it is or lies just below, except that a positive float
just below a whole number becomes the next smaller one. -/
theorem C85_int_result (r : Rat) (k : Int) (h1 : r ≤ k) (h2 : (k : Rat) - r < 18014399 / 2 ^ 54) :
    ((r = k ∨ r ≤ 0) → (WholeArg.real r).toInt = k) ∧ (r ≠ k → 0 < r → (WholeArg.real r).toInt = k - 1) := by
  have hlt : ∀ r : Rat, (k : Rat) - r < 18014399 / 2 ^ 54 → ((k - 1 : Int) : Rat) < r := by
    intro r h; rw [Rat.intCast_sub]; grind
  refine ⟨fun h => ?_, fun hne hr => ?_⟩
  · simp only [WholeArg.toInt]
    split
    · rename_i h0
      rcases h with h | h
      · rw [h]; simp
      · have hr0 : r = 0 := by grind
        subst hr0
        have a1 : (0 : Int) ≤ k := Rat.intCast_le_intCast.1 (by simpa using h1)
        have a2 : k - 1 < (0 : Int) := Rat.intCast_lt_intCast.1 (by simpa using hlt 0 h2)
        have : (0 : Rat).floor = 0 := rfl
        omega
    · have a1 : r.ceil ≤ k := Rat.ceil_le_iff.2 h1
      have a2 : k - 1 < r.ceil := Rat.lt_ceil_iff.2 (hlt r h2)
      omega
  · simp only [WholeArg.toInt]
    rw [if_pos (by grind)]
    have a1 : k - 1 ≤ r.floor := Rat.le_floor_iff.2 (by have := hlt r h2; grind)
    have a2 : r.floor < k := Rat.floor_lt_iff.2 (by grind)
    omega

/-- **C85.** Floats that are whole are preserved by `int`. -/
theorem C85_whole_float_exact (i : Int) (hi : IsFloat i) :
    whole (.real i) = .ok (.real i) ∧ (WholeArg.real i).toInt = i := by
  refine ⟨(C85_whole_float _ hi).1.2 ⟨i, le_refl _, by norm_num⟩, ?_⟩
  simp only [WholeArg.toInt]
  split <;> simp

/-- the float `Whole` looks at (the input or the real part of a complex number without imaginary part) and its value -/
inductive FloatPart : NumObj W → W.Obj → Rat → Prop
  | real (o r) : FloatPart (.real o r) o r
  | complex (re o r) : FloatPart re o r → FloatPart (.complex re true) o r

/-- **C85.** `Whole` on a float: if it is whole or less than 18014399 / 2^54 below a whole number, the target type is called with
the float itself and the token's own arguments; otherwise TypeError and no call. -/
theorem C85_calls (c : W.Cls) (args : List W.Obj) (kw : List (String × W.Obj)) {x : NumObj W} {o : W.Obj} {r : Rat}
    (hx : FloatPart x o r) (hr : IsFloat r) :
    ((∃ k : Int, r ≤ k ∧ (k : Rat) - r < 18014399 / 2 ^ 54) → Calls (wholeCall c args kw x) c (o :: args) kw) ∧
    (¬ (∃ k : Int, r ≤ k ∧ (k : Rat) - r < 18014399 / 2 ^ 54) → Rejects (wholeCall c args kw x)) := by
  induction hx with
  | real o r =>
    obtain ⟨mod, hm, key⟩ := whole_test hr
    rw [← key]
    refine ⟨fun hc s => ?_, fun hc s => ?_⟩
    · simp only [wholeCall, hm, hc, if_true]; rfl
    · simp only [wholeCall, hm, hc]; rfl
  | complex re o r _ ih =>
    refine ⟨fun hk s => ?_, fun hn s => ?_⟩
    · simp only [wholeCall, if_true]; exact (ih hr).1 hk s
    · simp only [wholeCall, if_true]; exact (ih hr).2 hn s

end Whole

/-- -1/10^9 rounded to a float is accepted, and so is -9007199.4 / 2^53, which lies more than 10^-9 below zero; 1/10^9 is not, nor
is 2.5 -/
example : whole (.real (f64 (-1 / 1000000000))) = .ok (.real (f64 (-1 / 1000000000))) ∧
    whole (.real (f64 (-90071994 / (10 * 2 ^ 53)))) = .ok (.real (f64 (-90071994 / (10 * 2 ^ 53)))) ∧
    f64 (-90071994 / (10 * 2 ^ 53)) < -1 / 1000000000 ∧
    whole (.real (f64 (1 / 1000000000))) = .error .typeError ∧ whole (.real (5 / 2)) = .error .typeError :=
  ⟨by decide +kernel, by decide +kernel, by decide +kernel, by decide +kernel, by decide +kernel⟩

/-- `Whole` on 3.0 and on `2.5+0j` -/
example : (Calls (wholeCall (W := Toy.W) Toy.TCls.int [] [] (.real (.str "3.0") 3)) Toy.TCls.int [.str "3.0"] []) ∧
    FloatPart (W := Toy.W) (.complex (.real (.str "2.5") (5 / 2)) true) (.str "2.5") (5 / 2) ∧
    Rejects (wholeCall (W := Toy.W) Toy.TCls.int [] [] (.complex (.real (.str "2.5") (5 / 2)) true)) := by
  have h3 : IsFloat 3 := ⟨3, 0, by norm_num, by norm_num, by norm_num⟩
  have h5 : IsFloat (5 / 2) := ⟨5, -1, by norm_num, by norm_num, by norm_num⟩
  have fp : FloatPart (W := Toy.W) (.complex (.real (.str "2.5") (5 / 2)) true) (.str "2.5") (5 / 2) := .complex _ _ _ (.real _ _)
  refine ⟨(C85_calls (W := Toy.W) Toy.TCls.int [] [] (.real (Toy.TObj.str "3.0") 3) h3).1 ⟨3, by norm_num, by norm_num⟩, fp,
    (C85_calls (W := Toy.W) Toy.TCls.int [] [] fp h5).2 ?_⟩
  rintro ⟨k, h1, h2⟩
  have h4 : (5 : Rat) ≤ 2 * k := by linarith
  have h6 : (2 * k : Rat) < 6 := by norm_num at h2; linarith
  have h4' : (5 : Int) ≤ 2 * k := by exact_mod_cast h4
  have h6' : 2 * k < (6 : Int) := by exact_mod_cast h6
  omega

/-! ## C103: Cyclic on floats -/

/-- The rounding used in the model is the one of IEEE 754: the result is a float, and no float is nearer. -/
theorem C103_rounding (x : Rat) : Nearest x (f64 x) := f64_spec x

/-- A domain of floats: the result is a float that is never below `minimum`; values inside are kept; and if the width of the
domain is a float the result is never above `maximum`. -/
theorem C103_range (minimum maximum v : Rat) (hmin : IsFloat minimum) (hmax : IsFloat maximum) (hv : IsFloat v)
    (h : minimum < maximum) :
    ∃ r, cyclicFloat minimum maximum v = .ok r ∧ IsFloat r ∧ minimum ≤ r ∧ (minimum ≤ v → v < maximum → r = v) ∧
      (IsFloat (maximum - minimum) → r ≤ maximum) := by
  by_cases hin : minimum ≤ v ∧ v < maximum
  · exact ⟨v, by unfold cyclicFloat; rw [if_pos hin], hv, hin.1, fun _ _ => rfl, fun _ => le_of_lt hin.2⟩
  · have hw := f64_sub_pos hmin hmax h
    obtain ⟨e, he0, hew, -, hc⟩ := floatMod_pos (x := f64 (v - minimum)) hw
    have hd : ∃ d, floatMod (f64 (v - minimum)) (f64 (maximum - minimum)) = .ok d ∧ 0 ≤ d ∧ d ≤ f64 (maximum - minimum) := by
      rcases hc with ⟨-, -, hc⟩ | ⟨-, -, hc⟩ | ⟨-, hc⟩
      · exact ⟨e, hc, he0, le_of_lt hew⟩
      · exact ⟨0, hc, le_refl _, le_of_lt hw⟩
      · refine ⟨_, hc, ?_, ?_⟩
        · have := f64_mono he0; rwa [f64_zero] at this
        · have := f64_mono (le_of_lt hew); rwa [f64_of_isFloat (f64_isFloat _)] at this
    obtain ⟨d, hd, hd0, hdw⟩ := hd
    refine ⟨f64 (minimum + d), by unfold cyclicFloat; rw [if_neg hin, hd], f64_isFloat _, ?_, fun a b => absurd ⟨a, b⟩ hin, ?_⟩
    · have := f64_mono (show minimum ≤ minimum + d by linarith)
      rwa [f64_of_isFloat hmin] at this
    · intro hf
      rw [f64_of_isFloat hf] at hdw
      have := f64_mono (show minimum + d ≤ maximum by linarith)
      rwa [f64_of_isFloat hmax] at this

/-- Equal bounds: every value raises ZeroDivisionError.  Bounds in the wrong order are accepted, and results are not above
`minimum` (and not below `maximum` if the width is a float). -/
theorem C103_degenerate (minimum maximum v : Rat) (hmin : IsFloat minimum) (hmax : IsFloat maximum) :
    (minimum = maximum → cyclicFloat minimum maximum v = .error .zeroDivision) ∧
    (maximum < minimum → ∃ r, cyclicFloat minimum maximum v = .ok r ∧ IsFloat r ∧ r ≤ minimum ∧
      (IsFloat (maximum - minimum) → maximum ≤ r)) := by
  constructor
  · rintro rfl
    unfold cyclicFloat
    rw [if_neg (fun h => absurd h.2 (not_lt.mpr h.1)), sub_self, f64_zero]
    unfold floatMod
    simp
  · intro h
    have hin : ¬ (minimum ≤ v ∧ v < maximum) := fun hh => by linarith [hh.1, hh.2]
    obtain ⟨d, hd, h1, h2⟩ := floatMod_neg (x := f64 (v - minimum)) (f64_sub_neg hmax hmin h) (f64_isFloat _)
    refine ⟨f64 (minimum + d), by unfold cyclicFloat; rw [if_neg hin, hd], f64_isFloat _, ?_, fun hf => ?_⟩
    · have := f64_mono (show minimum + d ≤ minimum by linarith); rwa [f64_of_isFloat hmin] at this
    · rw [f64_of_isFloat hf] at h1
      have := f64_mono (show maximum ≤ minimum + d by linarith); rwa [f64_of_isFloat hmax] at this

/-- A domain that starts at zero: the result is the float nearest to the exact representative `e` of the value in
[0, maximum), and is `e` itself unless the value is negative. -/
theorem C103_zero (maximum v : Rat) (hmax : IsFloat maximum) (hv : IsFloat v) (h : 0 < maximum) :
    ∃ r e : Rat, cyclicFloat 0 maximum v = .ok r ∧ 0 ≤ e ∧ e < maximum ∧ (∃ k : Int, v - e = k * maximum) ∧
      Nearest e r ∧ (0 ≤ v → r = e) := by
  have near : ∀ x, IsFloat x → Nearest x x := fun x hx => ⟨hx, fun y _ => by rw [sub_self, abs_zero]; exact abs_nonneg _⟩
  by_cases hin : 0 ≤ v ∧ v < maximum
  · exact ⟨v, v, by unfold cyclicFloat; rw [if_pos hin], hin.1, hin.2, ⟨0, by push_cast; ring⟩, near v hv, fun _ => rfl⟩
  · have e0 : cyclicFloat 0 maximum v = match floatMod v maximum with | .error e => .error e | .ok d => .ok (f64 d) := by
      unfold cyclicFloat
      rw [if_neg hin, sub_zero, sub_zero, f64_of_isFloat hv, f64_of_isFloat hmax]
      cases floatMod v maximum <;> simp
    rw [e0]
    by_cases hv0 : 0 ≤ v
    · obtain ⟨e, he0, hew, hk, hc⟩ := floatMod_pos (x := v) h
      rcases hc with ⟨-, rfl, hc⟩ | ⟨hneg, -⟩ | ⟨hneg, -⟩
      · have hf := fmod_isFloat hv0 h hv hmax
        refine ⟨fmod v maximum, fmod v maximum, ?_, he0, hew, hk, near _ hf, fun _ => rfl⟩
        rw [hc]; simp only [f64_of_isFloat hf]
      · exact absurd hv0 (not_le.mpr hneg)
      · exact absurd hv0 (not_le.mpr hneg)
    · obtain ⟨e, he0, hew, hk, hc⟩ := floatMod_pos (x := v) h
      rcases hc with ⟨hpos, -, -⟩ | ⟨-, rfl, hc⟩ | ⟨-, hc⟩
      · exact absurd hpos hv0
      · exact ⟨0, 0, by rw [hc]; simp only [f64_zero], le_refl _, h, hk, near 0 isFloat_zero, fun hp => absurd hp hv0⟩
      · refine ⟨f64 e, e, ?_, he0, hew, hk, f64_spec e, fun hp => absurd hp hv0⟩
        rw [hc]; simp only [f64_of_isFloat (f64_isFloat e)]

/-- Nothing is rounded: if the differences involved and the exact representative `e` are floats, the result is `e`. -/
theorem C103_exact (minimum maximum v e : Rat) (h0 : IsFloat (v - minimum)) (h1 : IsFloat (maximum - minimum))
    (he : minimum ≤ e) (he' : e < maximum) (hk : ∃ k : Int, v - e = k * (maximum - minimum))
    (h2 : IsFloat (e - minimum)) (h3 : IsFloat e) :
    cyclicFloat minimum maximum v = .ok e := by
  have hw : 0 < maximum - minimum := by linarith
  -- the representative is unique
  have uniq : ∀ a b : Rat, 0 ≤ a → a < maximum - minimum → 0 ≤ b → b < maximum - minimum →
      (∃ k : Int, a - b = k * (maximum - minimum)) → a = b := by
    rintro a b ha ha' hb hb' ⟨k, hk⟩
    have hk1 : (k : Rat) < 1 := by
      by_contra hc
      have hc := not_lt.mp hc
      have := mul_le_mul_of_nonneg_right hc (le_of_lt hw)
      linarith
    have hk2 : (-1 : Rat) < k := by
      by_contra hc
      have hc := not_lt.mp hc
      have := mul_le_mul_of_nonneg_right hc (le_of_lt hw)
      linarith
    have k1 : k < 1 := by exact_mod_cast hk1
    have k2 : -1 < k := by exact_mod_cast hk2
    have : k = 0 := by omega
    subst this
    push_cast at hk; linarith
  obtain ⟨k, hk⟩ := hk
  by_cases hin : minimum ≤ v ∧ v < maximum
  · have := uniq (v - minimum) (e - minimum) (by linarith) (by linarith) (by linarith) (by linarith) ⟨k, by linarith⟩
    have : v = e := by linarith
    subst this
    unfold cyclicFloat; rw [if_pos hin]
  · obtain ⟨d, hd0, hdw, ⟨j, hj⟩, hc⟩ := floatMod_pos (x := v - minimum) hw
    have hde : d = e - minimum :=
      uniq d (e - minimum) hd0 hdw (by linarith) (by linarith) ⟨k - j, by push_cast; linarith⟩
    have hm : floatMod (v - minimum) (maximum - minimum) = .ok (e - minimum) := by
      rcases hc with ⟨-, -, hc⟩ | ⟨-, hz, hc⟩ | ⟨-, hc⟩
      · rw [hc, hde]
      · rw [hc, ← hde, hz]
      · rw [hc, hde, f64_of_isFloat h2]
    unfold cyclicFloat
    rw [if_neg hin, f64_of_isFloat h0, f64_of_isFloat h1, hm]
    have : minimum + (e - minimum) = e := by ring
    simp only [this, f64_of_isFloat h3]

/-- Whole numbers of at most 2^52: floats give the result of the integers. -/
theorem C103_whole (minimum maximum v : Int) (h : minimum < maximum) (h0 : |minimum| ≤ 2 ^ 52) (h1 : |maximum| ≤ 2 ^ 52)
    (hv : |v| ≤ 2 ^ 52) :
    ∃ r : Int, cyclicInner minimum maximum v = .ok r ∧ cyclicFloat minimum maximum v = .ok r := by
  obtain ⟨r, hr, hlo, hhi, ⟨k, hk⟩, -⟩ := C09_cyclic minimum maximum v h
  refine ⟨r, hr, ?_⟩
  have b0 := abs_le.mp h0
  have b1 := abs_le.mp h1
  have bv := abs_le.mp hv
  have fl : ∀ n : Int, -(2 ^ 53) ≤ n → n ≤ 2 ^ 53 → IsFloat n := fun n a b => isFloat_int (abs_le.mpr ⟨a, b⟩)
  apply C103_exact
  · have := fl (v - minimum) (by omega) (by omega); push_cast at this; exact this
  · have := fl (maximum - minimum) (by omega) (by omega); push_cast at this; exact this
  · exact_mod_cast hlo
  · exact_mod_cast hhi
  · exact ⟨k, by exact_mod_cast hk⟩
  · have := fl (r - minimum) (by omega) (by omega); push_cast at this; exact this
  · exact fl r (by omega) (by omega)

/-- Refuted: that the result is below `maximum`.  `Cyclic(0., 360.)` maps -2^-60 to 360.0, and 360.0 to 0.0; if the width of the
domain is no float the result can even lie above: `Cyclic(-2.**53 + 1, 4.5)` maps -2.**53 to 5.0. -/
theorem C103_refuted :
    (IsFloat (-1 / 2 ^ 60) ∧ cyclicFloat 0 360 (-1 / 2 ^ 60) = .ok 360 ∧ cyclicFloat 0 360 360 = .ok 0) ∧
    (IsFloat (9 / 2) ∧ IsFloat (-2 ^ 53 + 1) ∧ IsFloat (-2 ^ 53) ∧ cyclicFloat (-2 ^ 53 + 1) (9 / 2) (-2 ^ 53) = .ok 5) := by
  refine ⟨⟨⟨-1, -60, by norm_num, by norm_num, by norm_num⟩, by decide +kernel, by decide +kernel⟩,
    ⟨9, -1, by norm_num, by norm_num, by norm_num⟩,
    ⟨-9007199254740991, 0, by norm_num, by norm_num, by norm_num⟩, ?_, by decide +kernel⟩
  · have := isFloat_int (n := -2 ^ 53) (by norm_num); push_cast at this; exact this

/-- `Cyclic(0., 360.)` on 725.5, on -90.0 and on -0.1 (whose exact representative is no float) -/
example : cyclicFloat 0 360 (1451 / 2) = .ok (11 / 2) ∧ cyclicFloat 0 360 (-90) = .ok 270 ∧
    (∃ r, cyclicFloat 0 360 (f64 (-1 / 10)) = .ok r ∧ r = f64 (360 + f64 (-1 / 10)) ∧ r ≠ 360 + f64 (-1 / 10)) :=
  ⟨by decide +kernel, by decide +kernel, f64 (360 + f64 (-1 / 10)), by decide +kernel, rfl, by decide +kernel⟩

/-- the hypotheses of `C103_range` and `C103_zero` hold for `Cyclic(0., 360.)` and the value -90.0 -/
example : IsFloat 0 ∧ IsFloat 360 ∧ IsFloat (-90) ∧ IsFloat (360 - 0) ∧ (0 : Rat) < 360 := by
  refine ⟨isFloat_zero, ?_, ?_, ?_, by norm_num⟩
  · exact_mod_cast isFloat_int (n := 360) (by norm_num)
  · exact_mod_cast isFloat_int (n := -90) (by norm_num)
  · rw [sub_zero]; exact_mod_cast isFloat_int (n := 360) (by norm_num)

/-- of `C103_degenerate`: `Cyclic(1., 1.)` and `Cyclic(1., -1.)` on 2.5 -/
example : cyclicFloat 1 1 (5 / 2) = .error .zeroDivision ∧ cyclicFloat 1 (-1) (5 / 2) = .ok (1 / 2) :=
  ⟨by decide +kernel, by decide +kernel⟩

/-- of `C103_exact`: `Cyclic(-0.5, 0.5)` on 2.25 -/
example : cyclicFloat (-1 / 2) (1 / 2) (9 / 4) = .ok (1 / 4) :=
  C103_exact _ _ _ _ ⟨11, -2, by norm_num, by norm_num, by norm_num⟩ ⟨1, 0, by norm_num, by norm_num, by norm_num⟩
    (by norm_num) (by norm_num) ⟨2, by norm_num⟩ ⟨3, -2, by norm_num, by norm_num, by norm_num⟩
    ⟨1, -2, by norm_num, by norm_num, by norm_num⟩

/-- of `C103_whole`: `Cyclic(0., 360.)` on -725.0 -/
example : ∃ r : Int, cyclicInner 0 360 (-725) = .ok r ∧ cyclicFloat (0 : Int) (360 : Int) (-725 : Int) = .ok r :=
  C103_whole 0 360 (-725) (by norm_num) (by norm_num) (by norm_num) (by norm_num)

end Records
