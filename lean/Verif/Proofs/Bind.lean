import Verif.Proofs.Filler
import Verif.Spec.Hints
/-
What applying tokens and binding does to a filler.
-/
namespace Records
variable {W : World}

theorem lastStyle_append (a b : List (Tok W)) :
    lastStyle (a ++ b) = b.foldl Tok.restyle (lastStyle a) := by
  simp [lastStyle, List.foldl_append]

theorem lastStyle_concat (a : List (Tok W)) (t : Tok W) :
    lastStyle (a ++ [t]) = t.restyle (lastStyle a) := by
  rw [lastStyle_append]; rfl

/-- the state of a leaf filler after some tokens were applied -/
def Ann.Applied (a : Ann W) (k : Kind W) (args toks : List (Tok W)) : Prop :=
  a.kind = k ∧ a.args = args ∧ a.style = lastStyle toks ∧ a.coercers = tokCoercers k.isBool k.origin toks ∧
  a.validators = tokValidators k.origin toks ∧ a.bound = false

theorem Ann.Applied.apply {a a' : Ann W} {k : Kind W} {args toks : List (Tok W)} (h : a.Applied k args toks) {t : Tok W}
    (ht : a.apply t = .ok a') : a'.Applied k args (toks ++ [t]) := by
  obtain ⟨h1, h2, h3, h4, h5, h6⟩ := h
  unfold Ann.apply at ht
  simp only [h6, h1] at ht
  have key : ∀ t : Tok W, tokCoercers k.isBool k.origin (toks ++ [t]) =
      tokCoercers k.isBool k.origin toks ++ tokCoercers k.isBool k.origin [t] := by
    intro t; simp [tokCoercers, List.filterMap_append]
  have key2 : ∀ t : Tok W, tokValidators k.origin (toks ++ [t]) =
      tokValidators k.origin toks ++ tokValidators k.origin [t] := by
    intro t; simp [tokValidators, List.filterMap_append]
  unfold Ann.Applied
  rw [lastStyle_concat, key, key2]
  cases t with
  | style s => cases ht; simp [tokCoercers, tokValidators, Tok.restyle, Tok.coercer?, Tok.validator?, *]
  | coercion ct =>
    cases hc : getCoercer k.isBool k.origin ct with
    | error e => simp [hc] at ht
    | ok c => simp only [hc] at ht; cases ht; simp [tokCoercers, tokValidators, Tok.restyle, Tok.coercer?, Tok.validator?, *]
  | validation f =>
    cases hc : f k.origin with
    | error e => simp [hc] at ht
    | ok c => simp only [hc] at ht; cases ht; simp [tokCoercers, tokValidators, Tok.restyle, Tok.coercer?, Tok.validator?, *]
  | raises e => cases ht
  | tag n => cases ht; simp [tokCoercers, tokValidators, Tok.restyle, Tok.coercer?, Tok.validator?, *]
  | other => cases ht; simp [tokCoercers, tokValidators, Tok.restyle, Tok.coercer?, Tok.validator?, *]

theorem Ann.Applied.applyAll {a a' : Ann W} {k : Kind W} {args toks ts : List (Tok W)} (h : a.Applied k args toks)
    (ht : a.applyAll ts = .ok a') : a'.Applied k args (toks ++ ts) := by
  induction ts generalizing a toks with
  | nil => cases ht; simpa using h
  | cons t ts ih =>
    unfold Ann.applyAll at ht
    cases h1 : a.apply t with
    | error e => simp [h1] at ht
    | ok a1 =>
      simp only [h1] at ht
      have := ih (h.apply h1) ht
      simpa using this

theorem Ann.applied_new (k : Kind W) (args : List (Tok W)) : ({ kind := k, args := args } : Ann W).Applied k args [] := by
  refine ⟨rfl, rfl, rfl, rfl, rfl, rfl⟩

/-- the structural validators of a leaf filler: only `Literal` has one -/
def Kind.structural (k : Kind W) (st : Style) : List (Coercer W) :=
  match k with
  | .literal id vals => if st = .hollow then [] else [literalValidator id vals]
  | _ => []

theorem Ann.bind_ok {a b : Ann W} {d : Style} {k : Kind W} {args toks : List (Tok W)} (h : a.Applied k args toks)
    (hb : a.bind d = .ok b) :
    b.kind = k ∧ b.style = styleOf d (toks ++ args) ∧ b.coercers = tokCoercers k.isBool k.origin (toks ++ args) ∧
    b.validators = tokValidators k.origin (toks ++ args) ++ k.structural (styleOf d (toks ++ args)) ∧ b.bound = true ∧
    (b.style = .hollow → b.coercers = []) ∧ (b.style = .checkStrict → ∀ c, k.origin = some c → W.isAbstract c = false) := by
  unfold Ann.bind at hb
  have h2 := h.2.1
  cases h1 : a.applyAll a.args with
  | error e => simp [h1] at hb
  | ok a1 =>
    simp only [h1] at hb
    rw [h2] at h1
    obtain ⟨g1, g2, g3, g4, g5, g6⟩ := h.applyAll h1
    unfold Ann.bindBase at hb
    simp only [g6] at hb
    have hst : (if a1.style = Style.default then d else a1.style) = styleOf d (toks ++ args) := by
      rw [g3]; rfl
    rw [hst] at hb
    by_cases hh : styleOf d (toks ++ args) = Style.hollow ∧ (!a1.coercers.isEmpty) = true
    · simp [hh] at hb
    · simp only [hh] at hb
      have hcoe : styleOf d (toks ++ args) = .hollow → a1.coercers = [] := by
        intro e
        cases hc : a1.coercers with
        | nil => rfl
        | cons c cs => exact absurd ⟨e, by simp [hc]⟩ hh
      simp only [Ann.bindKind, g1] at hb
      cases hk : k with
      | simple c ib =>
        simp only [hk] at hb
        simp at hb
        split at hb
        · cases hb
        · rename_i hab; cases hb
          subst hk
          refine ⟨rfl, rfl, g4, ?_, rfl, hcoe, ?_⟩
          · simp [Kind.structural, g5]
          · rintro e c' hc'; cases hc'
            simpa [show styleOf d (toks ++ args) = _ from e] using hab
      | noneF c =>
        simp only [hk] at hb
        simp at hb
        split at hb
        · cases hb
        · rename_i hab; cases hb
          subst hk
          refine ⟨rfl, rfl, g4, ?_, rfl, hcoe, ?_⟩
          · simp [Kind.structural, g5]
          · rintro e c' hc'; cases hc'
            simpa [show styleOf d (toks ++ args) = _ from e] using hab
      | ellipsisF c =>
        simp only [hk] at hb
        simp at hb
        split at hb
        · cases hb
        · rename_i hab; cases hb
          subst hk
          refine ⟨rfl, rfl, g4, ?_, rfl, hcoe, ?_⟩
          · simp [Kind.structural, g5]
          · rintro e c' hc'; cases hc'
            simpa [show styleOf d (toks ++ args) = _ from e] using hab
      | callable =>
        simp only [hk] at hb
        simp at hb
        cases hb
        subst hk
        refine ⟨rfl, rfl, g4, ?_, rfl, hcoe, ?_⟩
        · simp [Kind.structural, g5]
        · rintro e c' hc'; cases hc'
      | literal id vals =>
        simp only [hk] at hb
        simp at hb
        split at hb
        · rename_i hs
          cases hb
          subst hk
          refine ⟨rfl, rfl, g4, ?_, rfl, hcoe, ?_⟩
          · simp [Kind.structural, g5, hs]
          · rintro e c' hc'; cases hc'
        · rename_i hs
          cases hb
          subst hk
          refine ⟨rfl, rfl, g4, ?_, rfl, hcoe, ?_⟩
          · simp [Kind.structural, g5, hs]
          · rintro e c' hc'; cases hc'

theorem Ann.make_ok {b : Ann W} {d : Style} {k : Kind W} {pre args : List (Tok W)} (h : Ann.make d k pre args = .ok b) :
    b.kind = k ∧ b.style = styleOf d (pre ++ args) ∧ b.coercers = tokCoercers k.isBool k.origin (pre ++ args) ∧
    b.validators = tokValidators k.origin (pre ++ args) ++ k.structural (styleOf d (pre ++ args)) ∧ b.bound = true ∧
    (b.style = .hollow → b.coercers = []) ∧ (b.style = .checkStrict → ∀ c, k.origin = some c → W.isAbstract c = false) := by
  unfold Ann.make at h
  cases h1 : Ann.applyAll { kind := k, args := args } pre with
  | error e => simp [h1] at h
  | ok a =>
    simp only [h1] at h
    exact Ann.bind_ok (by simpa using (Ann.applied_new k args).applyAll h1) h

/-! ### applyBind is applyAll then bind -/

theorem F.applyAll_ann (a : Ann W) (ts : List (Tok W)) : F.applyAll (.ann a) ts = (a.applyAll ts).map .ann := by
  induction ts generalizing a with
  | nil => rfl
  | cons t ts ih =>
    simp only [F.applyAll, F.apply, Ann.applyAll]
    cases a.apply t with
    | error e => rfl
    | ok a' => exact ih a'

theorem F.applyAll_wrap (b : Bool) (k : WrapKind W) (a : Ann W) (subs : List (F W)) (ts : List (Tok W)) :
    F.applyAll (.wrap b k a subs) ts = (a.applyAll ts).map fun i => .wrap b k i subs := by
  induction ts generalizing a with
  | nil => rfl
  | cons t ts ih =>
    simp only [F.applyAll, F.apply, Ann.applyAll]
    cases a.apply t with
    | error e => rfl
    | ok a' => exact ih a'

theorem F.applyAll_union (args app : List (Tok W)) (subs : List (F W)) (ts : List (Tok W)) :
    F.applyAll (.union false args app subs) ts = .ok (.union false args (app ++ ts) subs) := by
  induction ts generalizing app with
  | nil => simp [F.applyAll]
  | cons t ts ih =>
    simp only [F.applyAll, F.apply]
    have := ih (app ++ [t])
    simpa using this

theorem F.applyBind_eq (d : Style) (ts : List (Tok W)) (f : F W) :
    F.applyBind d ts f = match f.applyAll ts with | .ok f' => f'.bind d | .error e => .error e := by
  cases f with
  | dumb b =>
    cases ts with
    | nil => simp [F.applyBind, F.applyAll, F.bind]
    | cons t ts => simp [F.applyBind, F.applyAll, F.apply]
  | failing e =>
    have : F.applyAll (.failing e : F W) ts = .ok (.failing e) := by
      induction ts with
      | nil => rfl
      | cons t ts ih => simp [F.applyAll, F.apply, ih]
    simp [this, F.applyBind, F.bind]
  | ann a =>
    rw [F.applyAll_ann, F.applyBind]
    cases a.applyAll ts <;> rfl
  | union b args app subs =>
    cases b with
    | false => rw [F.applyAll_union]; simp only [F.applyBind, F.bind]
    | true =>
      cases ts with
      | nil => simp [F.applyBind, F.applyAll, F.bind]
      | cons t ts => simp [F.applyBind, F.applyAll, F.apply]
  | wrap b k a subs =>
    rw [F.applyAll_wrap, F.applyBind]
    cases a.applyAll ts with
    | error e => rfl
    | ok a' => simp only [Except.map, F.bind]

theorem F.applyBind_nil (d : Style) (f : F W) : F.applyBind d [] f = f.bind d := by rw [F.applyBind_eq]; rfl

end Records
