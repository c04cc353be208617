import Verif.Proofs.ClassMore
import Verif.Spec.Declares
set_option linter.unusedSimpArgs false
set_option linter.unusedVariables false
/-
Which exceptions the steps of class creation raise.
-/
namespace Records
variable {W : World} {Q : ExcKind → Prop}

mutual
theorem getCoercer_err (hT : Q .typeError) {b : Bool} {o : Option W.Cls} {t : CTok W} (h : t.Made Q) {e : Exc}
    (he : getCoercer b o t = .error e) : Q e.kind := by
  match t with
  | .coercer f => rw [getCoercer] at he; rw [CTok.Made] at h; exact h o e he
  | .fromInteger =>
    rw [getCoercer] at he
    split at he
    · cases he
    · cases he; exact hT
  | .notToken => rw [getCoercer] at he; cases he; exact hT
  | .compose ts =>
    rw [getCoercer] at he; rw [CTok.Made] at h
    cases h1 : getCoercers b o ts with
    | ok fs => rw [h1] at he; cases he
    | error x => rw [h1] at he; cases he; exact getCoercers_err hT h h1
theorem getCoercers_err (hT : Q .typeError) {b : Bool} {o : Option W.Cls} {ts : List (CTok W)} (h : CTok.MadeL Q ts) {e : Exc}
    (he : getCoercers b o ts = .error e) : Q e.kind := by
  match ts with
  | [] => rw [getCoercers] at he; cases he
  | t :: ts =>
    rw [getCoercers] at he; rw [CTok.MadeL] at h
    cases h1 : getCoercer b o t with
    | error x => rw [h1] at he; cases he; exact getCoercer_err hT h.1 h1
    | ok f =>
      rw [h1] at he
      simp only at he
      cases h2 : getCoercers b o ts with
      | ok fs => rw [h2] at he; cases he
      | error x => rw [h2] at he; cases he; exact getCoercers_err hT h.2 h2
end

/-- an unbound leaf filler whose tokens raise only `Q` -/
structure Ann.Newly (Q : ExcKind → Prop) (a : Ann W) : Prop where
  bound : a.bound = false
  args : ∀ t ∈ a.args, t.Made Q
  coercers : a.coercers ≠ [] → Q .valueError

mutual
/-- an unbound filler whose tokens raise only `Q` -/
def F.Newly (Q : ExcKind → Prop) : F W → Prop
  | .dumb b => b = false
  | .failing e => Q e.kind
  | .ann a => a.Newly Q
  | .union b args applied subs => b = false ∧ (∀ t ∈ args ++ applied, t.Made Q) ∧ F.NewlyL Q subs
  | .wrap b _ inner subs => b = false ∧ inner.Newly Q ∧ F.NewlyL Q subs
def F.NewlyL (Q : ExcKind → Prop) : List (F W) → Prop
  | [] => True
  | f :: fs => f.Newly Q ∧ F.NewlyL Q fs
end

theorem F.NewlyL.mem {fs : List (F W)} (h : F.NewlyL Q fs) : ∀ f ∈ fs, f.Newly Q := by
  induction fs with
  | nil => nofun
  | cons a fs ih =>
    rw [F.NewlyL] at h
    intro f hf
    rcases List.mem_cons.1 hf with rfl | hf
    · exact h.1
    · exact ih h.2 f hf

theorem F.NewlyL.of {fs : List (F W)} (h : ∀ f ∈ fs, f.Newly Q) : F.NewlyL Q fs := by
  induction fs with
  | nil => rw [F.NewlyL]; trivial
  | cons a fs ih => rw [F.NewlyL]; exact ⟨h a (.head _), ih fun f hf => h f (.tail _ hf)⟩

/-! ### applying tokens -/

theorem Ann.Newly.apply (hT : Q .typeError) {a : Ann W} (h : a.Newly Q) {t : Tok W} (ht : t.Made Q) :
    (∀ e, a.apply t = .error e → Q e.kind) ∧ (∀ a', a.apply t = .ok a' → a'.Newly Q) := by
  unfold Ann.apply
  simp only [h.bound, Bool.false_eq_true, if_false]
  cases t with
  | style s => exact ⟨nofun, fun a' e => by cases e; exact ⟨rfl, h.args, h.coercers⟩⟩
  | coercion ct =>
    rw [Tok.Made] at ht
    simp only
    cases h1 : getCoercer a.kind.isBool a.kind.origin ct with
    | error x => exact ⟨fun e he => by cases he; exact getCoercer_err hT ht.1 h1, nofun⟩
    | ok c => exact ⟨nofun, fun a' e => by cases e; exact ⟨rfl, h.args, fun _ => ht.2⟩⟩
  | validation f =>
    rw [Tok.Made] at ht
    simp only
    cases h1 : f a.kind.origin with
    | error x => exact ⟨fun e he => by cases he; exact ht _ _ h1, nofun⟩
    | ok c => exact ⟨nofun, fun a' e => by cases e; exact ⟨rfl, h.args, h.coercers⟩⟩
  | raises x => rw [Tok.Made] at ht; exact ⟨fun e he => by cases he; exact ht, nofun⟩
  | tag n => exact ⟨nofun, fun a' e => by cases e; exact h⟩
  | other => exact ⟨nofun, fun a' e => by cases e; exact h⟩

theorem Ann.Newly.applyAll (hT : Q .typeError) {ts : List (Tok W)} {a : Ann W} (h : a.Newly Q) (ht : ∀ t ∈ ts, t.Made Q) :
    (∀ e, a.applyAll ts = .error e → Q e.kind) ∧ (∀ a', a.applyAll ts = .ok a' → a'.Newly Q) := by
  induction ts generalizing a with
  | nil => rw [Ann.applyAll]; exact ⟨nofun, fun a' e => by cases e; exact h⟩
  | cons t ts ih =>
    rw [Ann.applyAll]
    have h1 := h.apply hT (ht t (.head _))
    cases h2 : a.apply t with
    | error x => exact ⟨fun e he => by cases he; exact h1.1 _ h2, nofun⟩
    | ok a1 => exact ih (h1.2 _ h2) fun t ht' => ht t (.tail _ ht')

theorem F.Newly.apply (hT : Q .typeError) {f : F W} (h : f.Newly Q) {t : Tok W} (ht : t.Made Q) :
    (∀ e, f.apply t = .error e → Q e.kind) ∧ (∀ f', f.apply t = .ok f' → f'.Newly Q) := by
  unfold F.apply
  cases f with
  | dumb b => exact ⟨fun e he => by cases he; exact hT, nofun⟩
  | failing x => exact ⟨nofun, fun f' e => by cases e; exact h⟩
  | ann a =>
    rw [F.Newly] at h
    have h1 := h.apply hT ht
    simp only
    cases h2 : a.apply t with
    | error x => exact ⟨fun e he => by cases he; exact h1.1 _ h2, nofun⟩
    | ok a1 => exact ⟨nofun, fun f' e => by cases e; rw [F.Newly]; exact h1.2 _ h2⟩
  | union b args applied subs =>
    rw [F.Newly] at h
    simp only [h.1, Bool.false_eq_true, if_false]
    refine ⟨nofun, fun f' e => ?_⟩
    cases e
    rw [F.Newly]
    refine ⟨rfl, fun u hu => ?_, h.2.2⟩
    rw [← List.append_assoc] at hu
    rcases List.mem_append.1 hu with hu | hu
    · exact h.2.1 u hu
    · simp only [List.mem_singleton] at hu; subst hu; exact ht
  | wrap b k inner subs =>
    rw [F.Newly] at h
    have h1 := h.2.1.apply hT ht
    simp only
    cases h2 : inner.apply t with
    | error x => exact ⟨fun e he => by cases he; exact h1.1 _ h2, nofun⟩
    | ok a1 => exact ⟨nofun, fun f' e => by cases e; rw [F.Newly]; exact ⟨h.1, h1.2 _ h2, h.2.2⟩⟩

/-! ### binding -/

theorem bindKind_err {a : Ann W} {e : Exc} (he : a.bindKind = .error e) : e = .typeError := by
  unfold Ann.bindKind at he
  cases hk : a.kind <;> rw [hk] at he <;> simp only at he
  case callable => cases he
  all_goals
    split at he
    · cases he <;> rfl
    · cases he

theorem Ann.Newly.bind (hT : Q .typeError) {a : Ann W} (h : a.Newly Q) (d : Style) {e : Exc} (he : a.bind d = .error e) :
    Q e.kind := by
  unfold Ann.bind at he
  have h1 := h.applyAll hT h.args
  cases h2 : a.applyAll a.args with
  | error x => rw [h2] at he; cases he; exact h1.1 _ h2
  | ok a1 =>
    rw [h2] at he
    have h3 := h1.2 _ h2
    simp only at he
    unfold Ann.bindBase at he
    simp only [h3.bound, Bool.false_eq_true, if_false] at he
    by_cases hc : (if a1.style = Style.default then d else a1.style) = Style.hollow ∧ (!a1.coercers.isEmpty) = true
    · rw [if_pos hc] at he
      cases he
      refine h3.coercers fun h0 => ?_
      rw [h0] at hc
      exact absurd hc.2 (by simp)
    · rw [if_neg hc] at he
      simp only at he
      rw [bindKind_err he]; exact hT

theorem wrapFinish_err {k : WrapKind W} {inner : Ann W} {subs : List (F W)} {e : Exc}
    (he : wrapFinish k inner subs = .error e) : e = .typeError := by
  unfold wrapFinish at he
  cases k with
  | typeF b => cases he
  | tupleFix =>
    simp only at he
    split at he
    · cases he
    · split at he
      · cases he; rfl
      · cases he
  | tupleVar | iter | deque =>
    simp only at he
    split at he
    · split at he
      · cases he
      · split at he
        · cases he; rfl
        · cases he
    · cases he
  | mapping | defaultdict =>
    simp only at he
    split at he
    · split at he
      · cases he
      · split at he
        · cases he; rfl
        · cases he
    · cases he
  | generic =>
    simp only at he
    split at he
    · cases he
    · cases he; rfl

mutual
theorem F.Newly.applyBind (hT : Q .typeError) {d : Style} {toks : List (Tok W)} {f : F W} (h : f.Newly Q)
    (ht : ∀ t ∈ toks, t.Made Q) {e : Exc} (he : F.applyBind d toks f = .error e) : Q e.kind := by
  match f with
  | .dumb b =>
    rw [F.applyBind] at he; rw [F.Newly] at h
    subst h
    simp only [Bool.false_eq_true, if_false] at he
    split at he
    · cases he; exact hT
    · split at he
      · cases he; exact hT
      · cases he
  | .failing x => rw [F.applyBind] at he; rw [F.Newly] at h; cases he; exact h
  | .ann a =>
    rw [F.applyBind] at he; rw [F.Newly] at h
    have h1 := h.applyAll hT ht
    cases h2 : a.applyAll toks with
    | error x => rw [h2] at he; cases he; exact h1.1 _ h2
    | ok a1 =>
      rw [h2] at he
      simp only at he
      cases h3 : a1.bind d with
      | error x => rw [h3] at he; cases he; exact (h1.2 _ h2).bind hT d h3
      | ok a2 => rw [h3] at he; cases he
  | .union b args applied subs =>
    rw [F.applyBind] at he; rw [F.Newly] at h
    simp only [h.1, Bool.false_eq_true, if_false] at he
    cases h1 : F.bindUnion d (args ++ (applied ++ toks)) subs with
    | ok s => rw [h1] at he; cases he
    | error x =>
      rw [h1] at he; cases he
      refine F.NewlyL.bindUnion hT h.2.2 (fun u hu => ?_) h1
      rw [← List.append_assoc] at hu
      rcases List.mem_append.1 hu with hu | hu
      · exact h.2.1 u hu
      · exact ht u hu
  | .wrap b k inner subs =>
    rw [F.applyBind] at he; rw [F.Newly] at h
    have h1 := h.2.1.applyAll hT ht
    cases h2 : inner.applyAll toks with
    | error x => rw [h2] at he; cases he; exact h1.1 _ h2
    | ok i1 =>
      rw [h2] at he
      simp only [h.1, Bool.false_eq_true, if_false] at he
      cases h3 : i1.bind d with
      | error x => rw [h3] at he; cases he; exact (h1.2 _ h2).bind hT d h3
      | ok i2 =>
        rw [h3] at he
        simp only at he
        cases h4 : F.bindAll d subs with
        | error x => rw [h4] at he; cases he; exact F.NewlyL.bindAll hT h.2.2 h4
        | ok s =>
          rw [h4] at he
          simp only at he
          cases h5 : wrapFinish k i2 s with
          | error x => rw [h5] at he; cases he; rw [wrapFinish_err h5]; exact hT
          | ok i3 => rw [h5] at he; cases he
theorem F.NewlyL.bindUnion (hT : Q .typeError) {d : Style} {toks : List (Tok W)} {fs : List (F W)} (h : F.NewlyL Q fs)
    (ht : ∀ t ∈ toks, t.Made Q) {e : Exc} (he : F.bindUnion d toks fs = .error e) : Q e.kind := by
  match fs with
  | [] => rw [F.bindUnion] at he; cases he
  | f :: fs =>
    rw [F.bindUnion] at he; rw [F.NewlyL] at h
    cases h1 : F.applyBind d toks f with
    | error x => rw [h1] at he; cases he; exact F.Newly.applyBind hT h.1 ht h1
    | ok f1 =>
      rw [h1] at he
      simp only at he
      cases h2 : F.bindUnion d toks fs with
      | ok s => rw [h2] at he; cases he
      | error x => rw [h2] at he; cases he; exact F.NewlyL.bindUnion hT h.2 ht h2
theorem F.NewlyL.bindAll (hT : Q .typeError) {d : Style} {fs : List (F W)} (h : F.NewlyL Q fs)
    {e : Exc} (he : F.bindAll d fs = .error e) : Q e.kind := by
  match fs with
  | [] => rw [F.bindAll] at he; cases he
  | f :: fs =>
    rw [F.bindAll] at he; rw [F.NewlyL] at h
    cases h1 : f.bind d with
    | error x => rw [h1] at he; cases he; exact F.Newly.applyBind (toks := []) hT h.1 (fun _ h => nomatch h) (by rw [F.applyBind_nil]; exact h1)
    | ok f1 =>
      rw [h1] at he
      simp only at he
      cases h2 : F.bindAll d fs with
      | ok s => rw [h2] at he; cases he
      | error x => rw [h2] at he; cases he; exact F.NewlyL.bindAll hT h.2 h2
end

theorem F.Newly.bind (hT : Q .typeError) {d : Style} {f : F W} (h : f.Newly Q) {e : Exc} (he : f.bind d = .error e) :
    Q e.kind :=
  F.Newly.applyBind (toks := []) hT h (fun _ h => nomatch h) (by rw [F.applyBind_nil]; exact he)

/-! ### from type hints to fillers -/

theorem Ann.Newly.fresh {k : Kind W} {args : List (Tok W)} (h : ∀ t ∈ args, t.Made Q) :
    Ann.Newly Q ({ kind := k, args := args } : Ann W) := ⟨rfl, h, fun h => absurd rfl h⟩

theorem noToksMade : ∀ t ∈ (none : Option (List (Tok W))).getD [], t.Made Q := fun _ h => nomatch h

mutual
theorem getF_err {h : Hint W} {args : Option (List (Tok W))} {e : Exc} (he : getF h args = .error e) : e = .typeError := by
  match h with
  | .cls c | .none | .any | .callable | .literal _ _ | .typeBare | .typeOf _ | .generic _ _ | .bareGeneric _ =>
    rw [getF] at he; cases he
  | .newType h => rw [getF] at he; exact getF_err he
  | .union hs =>
    rw [getF] at he
    cases h1 : getFs hs with
    | error x => rw [h1] at he; cases he; exact getFs_err h1
    | ok fs => rw [h1] at he; cases he
  | .tupleFix hs =>
    rw [getF] at he
    cases h1 : getFs hs with
    | error x => rw [h1] at he; cases he; exact getFs_err h1
    | ok fs => rw [h1] at he; cases he
  | .tupleVar h =>
    rw [getF] at he
    cases h1 : getF h none with
    | error x => rw [h1] at he; cases he; exact getF_err h1
    | ok f => rw [h1] at he; cases he
  | .iter c h =>
    rw [getF] at he
    cases h1 : getF h none with
    | error x => rw [h1] at he; cases he; exact getF_err h1
    | ok f => rw [h1] at he; cases he
  | .deque c h =>
    rw [getF] at he
    cases h1 : getF h none with
    | error x => rw [h1] at he; cases he; exact getF_err h1
    | ok f => rw [h1] at he; cases he
  | .mapping c k v =>
    rw [getF] at he
    cases h1 : getF k none with
    | error x => rw [h1] at he; cases he; exact getF_err h1
    | ok f =>
      rw [h1] at he
      simp only at he
      cases h2 : getF v none with
      | error x => rw [h2] at he; cases he; exact getF_err h2
      | ok g => rw [h2] at he; cases he
  | .defaultdict c k v =>
    rw [getF] at he
    cases h1 : getF k none with
    | error x => rw [h1] at he; cases he; exact getF_err h1
    | ok f =>
      rw [h1] at he
      simp only at he
      cases h2 : getF v none with
      | error x => rw [h2] at he; cases he; exact getF_err h2
      | ok g => rw [h2] at he; cases he
  | .annotated h toks =>
    cases args with
    | none => rw [getF] at he; exact getF_err he
    | some args =>
      rw [getF] at he
      split at he
      · cases he
      · cases he; rfl
  | .opaque =>
    rw [getF] at he
    split at he
    · cases he
    · cases he; rfl
theorem getFs_err {hs : List (Hint W)} {e : Exc} (he : getFs hs = .error e) : e = .typeError := by
  match hs with
  | [] => rw [getFs] at he; cases he
  | h :: hs =>
    rw [getFs] at he
    cases h1 : getF h none with
    | error x => rw [h1] at he; cases he; exact getF_err h1
    | ok f =>
      rw [h1] at he
      simp only at he
      cases h2 : getFs hs with
      | error x => rw [h2] at he; cases he; exact getFs_err h2
      | ok g => rw [h2] at he; cases he
end

mutual
theorem getF_newly (hT : Q .typeError) {h : Hint W} (hh : h.Made Q) {args : Option (List (Tok W))}
    (ha : ∀ t ∈ args.getD [], t.Made Q) {f : F W} (e : getF h args = .ok f) : f.Newly Q := by
  have one : ∀ {g : F W}, g.Newly Q → F.NewlyL Q [g] := fun hg => by rw [F.NewlyL, F.NewlyL]; exact ⟨hg, trivial⟩
  match h with
  | .cls c => rw [getF] at e; cases e; rw [F.Newly]; exact .fresh ha
  | .none => rw [getF] at e; cases e; rw [F.Newly]; exact .fresh ha
  | .any => rw [getF] at e; cases e; rw [F.Newly]; exact .fresh ha
  | .callable => rw [getF] at e; cases e; rw [F.Newly]; exact .fresh ha
  | .newType h => rw [getF] at e; rw [Hint.Made] at hh; exact getF_newly hT hh (by simpa using ha) e
  | .union hs =>
    rw [getF] at e; rw [Hint.Made] at hh
    cases h1 : getFs hs with
    | error x => rw [h1] at e; cases e
    | ok fs => rw [h1] at e; cases e; rw [F.Newly]; exact ⟨rfl, by simpa using ha, getFs_newly hT hh h1⟩
  | .literal id vals => rw [getF] at e; cases e; rw [F.Newly]; exact .fresh ha
  | .typeBare => rw [getF] at e; cases e; rw [F.Newly]; exact .fresh ha
  | .typeOf base => rw [getF] at e; cases e; rw [F.Newly, F.NewlyL]; exact ⟨rfl, .fresh ha, trivial⟩
  | .tupleFix hs =>
    rw [getF] at e; rw [Hint.Made] at hh
    cases h1 : getFs hs with
    | error x => rw [h1] at e; cases e
    | ok fs => rw [h1] at e; cases e; rw [F.Newly]; exact ⟨rfl, .fresh ha, getFs_newly hT hh h1⟩
  | .tupleVar h =>
    rw [getF] at e; rw [Hint.Made] at hh
    cases h1 : getF h none with
    | error x => rw [h1] at e; cases e
    | ok f => rw [h1] at e; cases e; rw [F.Newly]; exact ⟨rfl, .fresh ha, one (getF_newly hT hh noToksMade h1)⟩
  | .iter c h =>
    rw [getF] at e; rw [Hint.Made] at hh
    cases h1 : getF h none with
    | error x => rw [h1] at e; cases e
    | ok f => rw [h1] at e; cases e; rw [F.Newly]; exact ⟨rfl, .fresh ha, one (getF_newly hT hh noToksMade h1)⟩
  | .deque c h =>
    rw [getF] at e; rw [Hint.Made] at hh
    cases h1 : getF h none with
    | error x => rw [h1] at e; cases e
    | ok f => rw [h1] at e; cases e; rw [F.Newly]; exact ⟨rfl, .fresh ha, one (getF_newly hT hh noToksMade h1)⟩
  | .mapping c k v =>
    rw [getF] at e; rw [Hint.Made] at hh
    cases h1 : getF k none with
    | error x => rw [h1] at e; cases e
    | ok fk =>
      rw [h1] at e
      simp only at e
      cases h2 : getF v none with
      | error x => rw [h2] at e; cases e
      | ok fv =>
        rw [h2] at e; cases e; rw [F.Newly]
        refine ⟨rfl, .fresh ha, ?_⟩
        rw [F.NewlyL]; exact ⟨getF_newly hT hh.1 noToksMade h1, one (getF_newly hT hh.2 noToksMade h2)⟩
  | .defaultdict c k v =>
    rw [getF] at e; rw [Hint.Made] at hh
    cases h1 : getF k none with
    | error x => rw [h1] at e; cases e
    | ok fk =>
      rw [h1] at e
      simp only at e
      cases h2 : getF v none with
      | error x => rw [h2] at e; cases e
      | ok fv =>
        rw [h2] at e; cases e; rw [F.Newly]
        refine ⟨rfl, .fresh ha, ?_⟩
        rw [F.NewlyL]; exact ⟨getF_newly hT hh.1 noToksMade h1, one (getF_newly hT hh.2 noToksMade h2)⟩
  | .generic c hs =>
    rw [getF] at e; rw [Hint.Made] at hh
    cases e; rw [F.Newly]; exact ⟨rfl, .fresh ha, getFsLate_newly hT hh⟩
  | .bareGeneric c => rw [getF] at e; cases e; rw [F.Newly]; exact .fresh ha
  | .annotated h toks =>
    rw [Hint.Made] at hh
    cases args with
    | none => rw [getF] at e; exact getF_newly hT hh.1 (by simpa using hh.2) e
    | some args =>
      rw [getF] at e
      split at e
      · cases e; rw [F.Newly]
      · cases e
  | .opaque =>
    rw [getF] at e
    split at e
    · cases e; rw [F.Newly]
    · cases e
theorem getFs_newly (hT : Q .typeError) {hs : List (Hint W)} (hh : Hint.MadeL Q hs) {fs : List (F W)} (e : getFs hs = .ok fs) :
    F.NewlyL Q fs := by
  match hs with
  | [] => rw [getFs] at e; cases e; rw [F.NewlyL]; trivial
  | h :: hs =>
    rw [getFs] at e; rw [Hint.MadeL] at hh
    cases h1 : getF h none with
    | error x => rw [h1] at e; cases e
    | ok f =>
      rw [h1] at e
      simp only at e
      cases h2 : getFs hs with
      | error x => rw [h2] at e; cases e
      | ok fs' =>
        rw [h2] at e; cases e; rw [F.NewlyL]; exact ⟨getF_newly hT hh.1 noToksMade h1, getFs_newly hT hh.2 h2⟩
theorem getFsLate_newly (hT : Q .typeError) {hs : List (Hint W)} (hh : Hint.MadeL Q hs) : F.NewlyL Q (getFsLate hs) := by
  match hs with
  | [] => rw [getFsLate, F.NewlyL]; trivial
  | h :: hs =>
    rw [getFsLate, F.NewlyL]; rw [Hint.MadeL] at hh
    refine ⟨?_, getFsLate_newly hT hh.2⟩
    cases h1 : getF h none with
    | error x => simp only; rw [F.Newly, getF_err h1]; exact hT
    | ok f => simp only; exact getF_newly hT hh.1 noToksMade h1
end

/-! ### sub-keys -/

/-- the two ways a sub-key is refused -/
def KeyError (key : Option Int) (e : Exc) : Prop := (∃ i, key = some i) ∧ (e = .lookupError ∨ e = .indexError)

/-- a token is applied to the filler or to one of its sub-fillers; only the latter can fail otherwise -/
theorem withSub_cases {f : F W} {key : Option Int} {g : F W → Except Exc (F W)} {P : F W → Prop}
    (hself : key = none → P f) (hsub : ∀ b args app subs, f = .union b args app subs → ∀ s ∈ subs, P s)
    (hsub' : ∀ b k i subs, f = .wrap b k i subs → ∀ s ∈ subs, P s) {e : Exc} (he : f.withSub key g = .error e) :
    KeyError key e ∨ ∃ s, P s ∧ g s = .error e := by
  have at_ : ∀ (i : Int) (subs : List (F W)) (j : Option Nat) (re : List (F W) → F W), key = some i → (∀ s ∈ subs, P s) →
      F.withSub.at_ g subs j re = .error e → KeyError key e ∨ ∃ s, P s ∧ g s = .error e := by
    intro i subs j re hk hs he
    unfold F.withSub.at_ at he
    cases j with
    | none => cases he; exact .inl ⟨⟨i, hk⟩, .inr rfl⟩
    | some j =>
      simp only at he
      cases h1 : subs[j]? with
      | none => rw [h1] at he; cases he; exact .inl ⟨⟨i, hk⟩, .inr rfl⟩
      | some s =>
        rw [h1] at he
        simp only at he
        cases h2 : g s with
        | ok s' => rw [h2] at he; cases he
        | error x => rw [h2] at he; cases he; exact .inr ⟨s, hs s (List.mem_of_getElem? h1), h2⟩
  unfold F.withSub at he
  cases key with
  | none => exact .inr ⟨f, hself rfl, he⟩
  | some i =>
    simp only at he
    cases f with
    | dumb b => cases he; exact .inl ⟨⟨i, rfl⟩, .inl rfl⟩
    | failing x => cases he; exact .inl ⟨⟨i, rfl⟩, .inl rfl⟩
    | ann a => cases he; exact .inl ⟨⟨i, rfl⟩, .inl rfl⟩
    | union b args app subs => exact at_ i _ _ _ rfl (hsub _ _ _ _ rfl) he
    | wrap b k inner subs =>
      have hs := hsub' _ _ _ _ rfl
      cases k with
      | typeF _ => cases he; exact .inl ⟨⟨i, rfl⟩, .inl rfl⟩
      | generic => cases he; exact .inl ⟨⟨i, rfl⟩, .inl rfl⟩
      | tupleFix | tupleVar => exact at_ i _ _ _ rfl hs he
      | iter | deque =>
        simp only at he
        split at he
        · exact at_ i _ _ _ rfl hs he
        · cases he; exact .inl ⟨⟨i, rfl⟩, .inl rfl⟩
      | mapping | defaultdict =>
        simp only at he
        split at he
        · exact at_ i _ _ _ rfl hs he
        · split at he
          · exact at_ i _ _ _ rfl hs he
          · cases he; exact .inl ⟨⟨i, rfl⟩, .inl rfl⟩

theorem F.Newly.applySub_err (hT : Q .typeError) {f : F W} (h : f.Newly Q) {key : Option Int} {t : Tok W} (ht : t.Made Q)
    {e : Exc} (he : f.applySub key t = .error e) : KeyError key e ∨ Q e.kind := by
  rcases withSub_cases (P := fun s => s.Newly Q) (fun _ => h)
    (fun b args app subs hf => by subst hf; rw [F.Newly] at h; exact h.2.2.mem)
    (fun b k i subs hf => by subst hf; rw [F.Newly] at h; exact h.2.2.mem) he with h1 | ⟨s, hs, h1⟩
  · exact .inl h1
  · exact .inr ((hs.apply hT ht).1 e h1)

theorem F.Bound.applySub_err {f : F W} (h : f.Bound) {key : Option Int} {t : Tok W}
    {e : Exc} (he : f.applySub key t = .error e) : KeyError key e ∨ e = .typeError ∨ e = .runtimeError := by
  have mem : ∀ {fs : List (F W)}, F.AllBound fs → ∀ s ∈ fs, s.Bound := by
    intro fs hb s hs
    obtain ⟨i, hi⟩ := List.mem_iff_getElem?.1 hs
    exact hb.get hi
  rcases withSub_cases (P := fun s => s.Bound) (fun _ => h)
    (fun b args app subs hf => by subst hf; rw [F.Bound] at h; exact mem h.2)
    (fun b k i subs hf => by subst hf; rw [F.Bound] at h; exact mem h.2.2) he with h1 | ⟨s, hs, h1⟩
  · exact .inl h1
  · rw [hs.apply t] at h1
    cases s <;> cases h1 <;> first | exact .inr (.inl rfl) | exact .inr (.inr rfl)

theorem F.Newly.applySub (hT : Q .typeError) {f f' : F W} (h : f.Newly Q) {key : Option Int} {t : Tok W} (ht : t.Made Q)
    (e : f.applySub key t = .ok f') : f'.Newly Q := by
  have at_ : ∀ (subs : List (F W)) (j : Option Nat) (re : List (F W) → F W), F.NewlyL Q subs →
      (∀ l, F.NewlyL Q l → (re l).Newly Q) → F.withSub.at_ (fun g => g.apply t) subs j re = .ok f' → f'.Newly Q := by
    intro subs j re hs hre e
    unfold F.withSub.at_ at e
    cases j with
    | none => cases e
    | some j =>
      simp only at e
      cases h1 : subs[j]? with
      | none => rw [h1] at e; cases e
      | some g =>
        rw [h1] at e
        simp only at e
        cases h2 : g.apply t with
        | error x => rw [h2] at e; cases e
        | ok g' =>
          rw [h2] at e; cases e
          refine hre _ (F.NewlyL.of fun k hk => ?_)
          rcases List.mem_or_eq_of_mem_set hk with hk | rfl
          · exact hs.mem k hk
          · exact ((hs.mem g (List.mem_of_getElem? h1)).apply hT ht).2 _ h2
  unfold F.applySub F.withSub at e
  cases key with
  | none => exact (h.apply hT ht).2 _ e
  | some i =>
    simp only at e
    cases f with
    | dumb b => cases e
    | failing x => cases e
    | ann a => cases e
    | union b args app subs =>
      rw [F.Newly] at h
      exact at_ _ _ _ h.2.2 (fun l hl => by rw [F.Newly]; exact ⟨h.1, h.2.1, hl⟩) e
    | wrap b k inner subs =>
      rw [F.Newly] at h
      have hre : ∀ l, F.NewlyL Q l → (F.wrap b k inner l).Newly Q := fun l hl => by rw [F.Newly]; exact ⟨h.1, h.2.1, hl⟩
      cases k with
      | typeF _ => cases e
      | generic => cases e
      | tupleFix | tupleVar => exact at_ _ _ _ h.2.2 hre e
      | iter | deque =>
        simp only at e
        split at e
        · exact at_ _ _ _ h.2.2 hre e
        · cases e
      | mapping | defaultdict =>
        simp only at e
        split at e
        · exact at_ _ _ _ h.2.2 hre e
        · split at e
          · exact at_ _ _ _ h.2.2 hre e
          · cases e

/-! ### class creation -/

theorem fieldFromHint_err {o : W.Cls} {fr : Bool} {n : String} {d : Option (Deflt W)} {h : FHint W} {e : Exc}
    (he : fieldFromHint o fr n d h = .error e) : e = .typeError := by
  unfold fieldFromHint at he
  cases h with
  | rawFinal => cases he; rfl
  | classVar => cases he
  | plain h =>
    simp only at he
    cases h1 : getFiller h with
    | error x => rw [h1] at he; cases he; exact getF_err h1
    | ok f => rw [h1] at he; cases he
  | final h toks =>
    simp only at he
    split at he
    · cases he; rfl
    · cases h1 : getFiller h with
      | error x => rw [h1] at he; cases he; exact getF_err h1
      | ok f => rw [h1] at he; cases he

theorem ownFields_err {sp : ClassSpec W} {l : List (String × FHint W)} {e : Exc} (he : ownFields sp l = .error e) :
    e = .typeError := by
  induction l with
  | nil => rw [ownFields] at he; cases he
  | cons a l ih =>
    obtain ⟨n, h⟩ := a
    rw [ownFields] at he
    cases h1 : fieldFromHint sp.cid sp.frozen n (sp.defaultOf n) h with
    | error x => rw [h1] at he; cases he; exact fieldFromHint_err h1
    | ok f =>
      rw [h1] at he
      simp only at he
      cases h2 : ownFields sp l with
      | error x => rw [h2] at he; cases he; exact ih h2
      | ok fs => rw [h2] at he; cases he

/-- the fields during `pre_bind`: own ones are new, the others bound -/
def MidFields (Q : ExcKind → Prop) (cid : W.Cls) (fs : Dict (Field W)) : Prop :=
  ∀ kf ∈ fs, (kf.2.owner = cid → kf.2.filler.Newly Q) ∧ (kf.2.owner ≠ cid → kf.2.filler.Bound)

theorem bindFields_err (hT : Q .typeError) {cid : W.Cls} {d : Style} {fs : Dict (Field W)} (hm : MidFields Q cid fs) {e : Exc}
    (he : bindFields cid d fs = .error e) : Q e.kind := by
  induction fs with
  | nil => rw [bindFields] at he; cases he
  | cons a fs ih =>
    obtain ⟨n, f⟩ := a
    rw [bindFields] at he
    have ih := fun h => ih (fun kf hkf => hm kf (.tail _ hkf)) h
    split at he
    · rename_i ho
      cases h1 : f.filler.bind d with
      | error x => rw [h1] at he; cases he; exact ((hm _ (.head _)).1 ho).bind hT h1
      | ok g =>
        rw [h1] at he
        simp only at he
        cases h2 : bindFields cid d fs with
        | error x => rw [h2] at he; cases he; exact ih h2
        | ok l => rw [h2] at he; cases he
    · cases h2 : bindFields cid d fs with
      | error x => rw [h2] at he; cases he; exact ih h2
      | ok l => rw [h2] at he; cases he

end Records
