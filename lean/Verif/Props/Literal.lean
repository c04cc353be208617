import Verif.Props.Hints
import Verif.Spec.Literal
/-
C29: Literal fields with coercers, one attempt after another.
-/
set_option linter.unusedSimpArgs false
namespace Records
variable {W : World}

theorem litKeys_known {id : Nat} {vals : List W.Obj} {s : LState W} {c : W.Cls} :
    c ∈ litKeys id vals s ↔ KnownType id vals s c := by
  simp [litKeys, KnownType]

theorem literalValidator_check (id : Nat) (vals : List W.Obj) (w : W.Obj) (s : LState W) :
    LitCheck id vals w s (literalValidator id vals w s).1 (literalValidator id vals w s).2 := by
  have hrem : Remembers id vals s (if W.typeOf w ∈ litKeys id vals s then s
      else { s with lit := fun i => if i = id then s.lit id ++ [W.typeOf w] else s.lit i }) (W.typeOf w) := by
    split
    · rename_i h
      refine ⟨rfl, fun _ _ => rfl, fun c' => ⟨.inl, ?_⟩⟩
      rintro (h' | rfl)
      · exact h'
      · exact litKeys_known.1 h
    · refine ⟨rfl, fun i hi => by simp [hi], fun c' => ?_⟩
      simp [KnownType, or_assoc]
  have hlit : vals.any (fun p => decide (W.typeOf p = W.typeOf w) && (decide (p = w) || W.eq p w)) = true ↔ IsLiteral vals w := by
    simp [IsLiteral]
  unfold literalValidator
  simp only
  cases hh : W.hashable w with
  | false => exact .unhashable hh hrem
  | true =>
    simp only [Bool.not_true, Bool.false_eq_true, if_false]
    by_cases hl : IsLiteral vals w
    · rw [if_pos (hlit.2 hl)]
      have hl' := hl
      obtain ⟨p, hp, ht, -⟩ := hl'
      rw [if_pos (litKeys_known.2 (.inl ⟨p, hp, ht⟩))]
      exact .listed hh hl
    · rw [if_neg (fun h => hl (hlit.1 h))]
      exact .foreign hh hl hrem

theorem litFits_typeCheck {st : Style} {id : Nat} {vals : List W.Obj} {v : W.Obj} {s : LState W} :
    LitFits st id vals v s ↔ ((Kind.literal id vals).typeCheck v s = .exact ∨
      ((Kind.literal id vals).typeCheck v s = .inexact ∧ st = .check)) := by
  unfold LitFits Kind.typeCheck
  by_cases h1 : W.typeOf v ∈ litKeys id vals s
  · simp [h1, litKeys_known.1 h1]
  · have h1' : ¬ KnownType id vals s (W.typeOf v) := fun h => h1 (litKeys_known.2 h)
    have h2 : W.isInstanceAny v (litKeys id vals s) = true ↔ ∃ c, KnownType id vals s c ∧ W.isInstance v c = true := by
      simp [World.isInstanceAny, litKeys_known]
    simp only [h1, if_false, h1', false_or]
    rw [← h2]
    by_cases h3 : W.isInstanceAny v (litKeys id vals s) = true <;> simp [h3]

theorem litGood_good {st : Style} {id : Nat} {vals : List W.Obj} {w : W.Obj} {s : LState W} :
    LitGood st id vals w s ↔ (Kind.literal id vals).good st w s := by
  unfold LitGood Kind.good Kind.typeCheck
  by_cases h1 : W.typeOf w ∈ litKeys id vals s
  · simp [h1, litKeys_known.1 h1, TC.badAfterCoercion]
  · have h1' : ¬ KnownType id vals s (W.typeOf w) := fun h => h1 (litKeys_known.2 h)
    have h2 : W.isInstanceAny w (litKeys id vals s) = true ↔ ∃ c, KnownType id vals s c ∧ W.isInstance w c = true := by
      simp [World.isInstanceAny, litKeys_known]
    simp only [h1, if_false, h1', false_or]
    rw [← h2]
    by_cases h3 : W.isInstanceAny w (litKeys id vals s) = true <;> simp [h3, TC.badAfterCoercion]

/-- One attempt to fill a checked `Literal` field without user validators, in any state: an argument that passes the type check
is tested as it is, without asking the coercers; otherwise the result of the first coercer that returns (something good) is
tested; without coercers the attempt fails and leaves no trace.  The test remembers the type of every value it refuses. -/
theorem C29_attempt {d : Style} {id : Nat} {vals : List W.Obj} {pre args : List (Tok W)} {b : Ann W}
    (hb : Ann.make d (.literal id vals) pre args = .ok b)
    (hst : styleOf d (pre ++ args) = .check ∨ styleOf d (pre ++ args) = .checkStrict)
    (hv : (pre ++ args).all (fun t => !t.isValidation) = true) (v : W.Obj) (s : LState W) :
    (LitFits (styleOf d (pre ++ args)) id vals v s → ∃ r s', (F.ann b).call v s = (r, s') ∧ LitCheck id vals v s r s') ∧
    (¬ LitFits (styleOf d (pre ++ args)) id vals v s →
      (∀ bad c rest v1 s1 w s2, tokCoercers false none (pre ++ args) = bad ++ c :: rest →
        Attempts (LitGood (styleOf d (pre ++ args)) id vals) bad v s v1 s1 → Returns (c v1) s1 w s2 →
        LitGood (styleOf d (pre ++ args)) id vals w s2 →
        ∃ r s', (F.ann b).call v s = (r, s') ∧ LitCheck id vals w s2 r s') ∧
      (tokCoercers false none (pre ++ args) = [] → (F.ann b).call v s = (.error .typeError, s))) := by
  obtain ⟨h1, h2, h3, h4, -⟩ := Ann.make_ok hb
  have hnh : styleOf d (pre ++ args) ≠ .hollow := by rcases hst with h | h <;> rw [h] <;> simp
  have h3' : b.coercers = tokCoercers false none (pre ++ args) := h3
  have h4' : b.validators = [literalValidator id vals] := by
    have : tokValidators (Kind.literal id vals).origin (pre ++ args) = [] := by
      rw [tokValidators, List.filterMap_eq_nil_iff]
      intro t ht
      have := List.all_eq_true.1 hv t ht
      cases t <;> simp_all [Tok.validator?, Tok.isValidation]
    rw [h4, this]
    simp [Kind.structural, hnh]
  have hfill := Ann.fill_checked b (by rw [h2]; exact hst) v s
  rw [h1, h2, h3', h4'] at hfill
  have hcall : ∀ w s k s0, (F.ann b).fill v s = validate [literalValidator id vals] w k s0 →
      ∃ r s', (F.ann b).call v s = (r, s') ∧ LitCheck id vals w s0 r s' := by
    intro w s k s0 hf
    have hl := literalValidator_check id vals w s0
    cases hr : literalValidator id vals w s0 with
    | mk r s' =>
      rw [hr] at hl
      refine ⟨r, s', ?_, hl⟩
      cases r with
      | error e => rw [F.call_error, hf]; exact validate_error.2 (.here hr)
      | ok x => rw [F.call_ok, hf]; exact ⟨k, validate_ok.2 ⟨rfl, .cons hr (.nil _ _)⟩⟩
  refine ⟨fun hfit => ?_, fun hfit => ⟨fun bad c rest v1 s1 w s2 hcs hbad hret hgood => ?_, fun hc => ?_⟩⟩
  · rcases litFits_typeCheck.1 hfit with h | ⟨h, h'⟩
    · exact hcall v s .noCoerceStrict s (by simp only [F.fill]; rw [hfill]; simp [h])
    · exact hcall v s .noCoerce s (by simp only [F.fill]; rw [hfill]; simp [h, h'])
  · rw [litFits_typeCheck, not_or] at hfit
    have hloop : coerceLoop (.literal id vals) (styleOf d (pre ++ args)) (bad ++ c :: rest) v s = (.ok w, s2) := by
      have : LitGood (styleOf d (pre ++ args)) id vals = (Kind.literal id vals).good (styleOf d (pre ++ args)) := by
        funext w s; exact propext litGood_good
      rw [this] at hbad hgood
      rw [coerceLoop_attempts hbad (by simp), coerceLoop]
      have : c v1 s1 = (.ok w, s2) := hret
      simp only [this]
      rw [show ((Kind.literal id vals).typeCheck w s2).badAfterCoercion (styleOf d (pre ++ args)) = false from hgood]
      rfl
    refine hcall w s .coerce s2 ?_
    simp only [F.fill]
    rw [hfill, hcs, if_neg hfit.1, if_neg hfit.2]
    have hne : (bad ++ c :: rest).isEmpty = false := by cases bad <;> rfl
    rw [hne]
    exact M.bind_ok hloop
  · rw [litFits_typeCheck, not_or] at hfit
    rw [F.call_error]
    simp only [F.fill]
    rw [hfill]
    rw [if_neg hfit.1, if_neg hfit.2, hc]
    rfl

end Records

namespace Records.Toy.Li
open Records

-- `Annotated[Literal["a"], check, c]` where `c` returns None: the foreign type is remembered
example : ∃ b, Ann.make (W := Toy.W) .check (.literal 0 [.str "a"]) [] [Toy.ctok fun _ => M.pure .none] = .ok b ∧
    ¬ LitFits (W := Toy.W) .check 0 [.str "a"] .ellipsis Toy.s0 ∧
    ((F.ann b).call .ellipsis Toy.s0).1 = .error .valueError ∧
    LitFits (W := Toy.W) .check 0 [.str "a"] .none ((F.ann b).call .ellipsis Toy.s0).2 := by
  refine ⟨_, rfl, ?_, rfl, .inl (.inr (.head _))⟩
  intro h
  rcases litFits_typeCheck.1 h with h | ⟨h, -⟩ <;> cases h

end Records.Toy.Li
