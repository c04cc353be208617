import Verif.Proofs.Bind
import Verif.Spec.ToyTok
/-
Leaf fields: C20-C25, C27, C29 and the last clause of C18.

`Ann.make d k pre args` is the filler of a field of kind `k` (class, None, Callable, Literal, ...) declared as
`Annotated[T, *args]` in a class with default style `d`, whose `pre_bind` applied the tokens `pre`.
-/
set_option linter.unusedSimpArgs false
namespace Records
variable {W : World}

/-- a field whose hint is a class and its `Annotated` tokens: link between `makeFiller` and `Ann.make` -/
theorem makeFiller_cls (d : Style) (pre args : List (Tok W)) (c : W.Cls) :
    makeFiller d (pre.map fun t => (none, t)) (.annotated (.cls c) args) = (Ann.make d (classKind c) pre args).map .ann := by
  have key : ∀ (a : Ann W), F.applyPre (.ann a) (pre.map fun t => ((none : Option Int), t)) = (a.applyAll pre).map .ann := by
    induction pre with
    | nil => intro a; rfl
    | cons t ts ih =>
      intro a
      simp only [List.map_cons, F.applyPre, F.applySub, F.withSub, F.apply, Ann.applyAll]
      cases a.apply t with
      | error e => rfl
      | ok a' => exact ih a'
  simp only [makeFiller, getFiller, getF, Option.getD_some, key, Ann.make, classAnn]
  cases Ann.applyAll { kind := classKind c, args := args } pre with
  | error e => rfl
  | ok a => rfl

/-! ### C20 -/

theorem fits_typeCheck {st : Style} {c : W.Cls} {ib : Bool} {v : W.Obj} {s : LState W}
    (h : Fits st c v) : (Kind.simple c ib).typeCheck v s = .exact ∧ W.typeOf v = c ∨
      ((Kind.simple c ib).typeCheck v s = .inexact ∧ st = .check ∧ W.typeOf v ≠ c) := by
  by_cases h1 : W.typeOf v = c
  · left; simp [Kind.typeCheck, h1]
  · right
    rcases h with h | h
    · exact absurd h h1
    · simp [Kind.typeCheck, h1, h.2, h.1]

theorem not_fits_typeCheck {st : Style} {c : W.Cls} {ib : Bool} {v : W.Obj} {s : LState W} (h : ¬ Fits st c v) :
    (Kind.simple c ib).typeCheck v s ≠ .exact ∧ ¬ ((Kind.simple c ib).typeCheck v s = .inexact ∧ st = .check) := by
  unfold Fits at h
  have h1 : W.typeOf v ≠ c := fun e => h (.inl e)
  refine ⟨?_, ?_⟩
  · simp [Kind.typeCheck, h1]; split <;> simp
  · rintro ⟨h2, h3⟩
    simp [Kind.typeCheck, h1] at h2
    exact h (.inr ⟨h3, h2⟩)

theorem simple_structural {c : W.Cls} {ib : Bool} {st : Style} : (Kind.simple c ib : Kind W).structural st = [] := rfl

/-- A matching argument goes to the validators as it is; the coercers `tokCoercers ..` do not occur in the outcome. -/
theorem C20_match {d : Style} {c : W.Cls} {ib : Bool} {pre args : List (Tok W)} {b : Ann W}
    (hb : Ann.make d (.simple c ib) pre args = .ok b)
    (hst : styleOf d (pre ++ args) = .check ∨ styleOf d (pre ++ args) = .checkStrict)
    {v : W.Obj} (hv : Fits (styleOf d (pre ++ args)) c v) (s : LState W) :
    (∀ w s', (F.ann b).call v s = (.ok w, s') ↔ Pipeline (tokValidators (some c) (pre ++ args)) v s w s') ∧
    (∀ e s', (F.ann b).call v s = (.error e, s') ↔ PipelineFails (tokValidators (some c) (pre ++ args)) v s e s') := by
  obtain ⟨h1, h2, h3, h4, -⟩ := Ann.make_ok hb
  rw [simple_structural, List.append_nil] at h4
  have hfill : ∃ k, (F.ann b).fill v s = validate (tokValidators (some c) (pre ++ args)) v k s := by
    simp only [F.fill]
    rw [Ann.fill_checked b (by rw [h2]; exact hst) v s, h1, h4, h2]
    rcases fits_typeCheck (ib := ib) (s := s) hv with ⟨h, -⟩ | ⟨h, hs, -⟩
    · exact ⟨.noCoerceStrict, by simp [h, Kind.origin]⟩
    · exact ⟨.noCoerce, by simp [h, hs, Kind.origin]⟩
  obtain ⟨k, hf⟩ := hfill
  constructor
  · intro w s'
    rw [F.call_ok, hf]
    constructor
    · rintro ⟨k', h⟩; exact (validate_ok.1 h).2
    · intro h; exact ⟨k, validate_ok.2 ⟨rfl, h⟩⟩
  · intro e s'
    rw [F.call_error, hf, validate_error]

/-- No match and no coercion token: TypeError, and no callback runs (the state is unchanged). -/
theorem C20_no_coercers {d : Style} {c : W.Cls} {ib : Bool} {pre args : List (Tok W)} {b : Ann W}
    (hb : Ann.make d (.simple c ib) pre args = .ok b)
    (hst : styleOf d (pre ++ args) = .check ∨ styleOf d (pre ++ args) = .checkStrict)
    {v : W.Obj} (hv : ¬ Fits (styleOf d (pre ++ args)) c v) (hc : (pre ++ args).all (fun t => !t.isCoercion) = true)
    (s : LState W) : (F.ann b).call v s = (.error .typeError, s) := by
  obtain ⟨h1, h2, h3, h4, -⟩ := Ann.make_ok hb
  have h0 : tokCoercers ib (some c) (pre ++ args) = [] := by
    rw [tokCoercers, List.filterMap_eq_nil_iff]
    intro t ht
    have := List.all_eq_true.1 hc t ht
    cases t <;> simp_all [Tok.coercer?, Tok.isCoercion]
  rw [F.call_error]
  simp only [F.fill]
  rw [Ann.fill_checked b (by rw [h2]; exact hst) v s, h1, h2]
  obtain ⟨g1, g2⟩ := not_fits_typeCheck (ib := ib) (s := s) hv
  have h3' : b.coercers = [] := by rw [h3]; exact h0
  simp [g1, g2, h3']

/-- `Annotated[int, check, coercer]`: True is an int by subclass, the coercer does not run (nothing is logged) -/
example : ∃ b, Ann.make (W := Toy.W) .hollow (.simple .int false) [] [.style .check, Toy.ctok (Toy.ret 1 (.int 5))] = .ok b ∧
    Fits (W := Toy.W) .check .int (.bool true) ∧
    (F.ann b).call (.bool true) Toy.s0 = (.ok (.bool true), Toy.s0) ∧
    ((F.ann b).call (.str "x") Toy.s0).1 = .ok (.int 5) :=
  ⟨_, rfl, .inr ⟨rfl, rfl⟩, rfl, rfl⟩

/-! ### C21 -/

/-- a callback keeps a property of values -/
def Keeps (P : W.Obj → Prop) (f : W.Obj → M W W.Obj) : Prop := ∀ v s w s', P v → Returns (f v) s w s' → P w

theorem Pipeline.keeps {P : W.Obj → Prop} {fs : List (W.Obj → M W W.Obj)} {v w : W.Obj} {s s' : LState W}
    (h : Pipeline fs v s w s') (hk : ∀ f ∈ fs, Keeps P f) (hv : P v) : P w := by
  induction h with
  | nil => exact hv
  | cons h1 _ ih => exact ih (fun f hf => hk f (List.mem_cons_of_mem _ hf)) (hk _ List.mem_cons_self _ _ _ _ hv h1)

theorem good_fits {st : Style} {c : W.Cls} {ib : Bool} {w : W.Obj} {s : LState W}
    (hst : st = .check ∨ st = .checkStrict) : (Kind.simple c ib).good st w s ↔ Fits st c w := by
  unfold Kind.good Fits Kind.typeCheck
  by_cases h1 : W.typeOf w = c
  · simp [h1, TC.badAfterCoercion]
  · cases h2 : W.isInstance w c
    · simp [h1, h2, TC.badAfterCoercion]
    · rcases hst with rfl | rfl <;> simp [h1, h2, TC.badAfterCoercion]

/-- every fill of a checked class filler starts validation from a value that fits -/
theorem fill_simple_ok {b : Ann W} {c : W.Cls} {ib : Bool} (hk : b.kind = .simple c ib)
    (hst : b.style = .check ∨ b.style = .checkStrict) {v w : W.Obj} {k : TPK} {s s' : LState W}
    (h : b.fill v s = (.ok (w, k), s')) : ∃ x s1, Fits b.style c x ∧ Pipeline b.validators x s1 w s' := by
  rw [Ann.fill_checked b hst v s, hk] at h
  by_cases hv : Fits b.style c v
  · refine ⟨v, s, hv, ?_⟩
    rcases fits_typeCheck (ib := ib) (s := s) hv with ⟨h1, -⟩ | ⟨h1, h2, -⟩
    · simp only [h1, if_true] at h
      exact (validate_ok.1 h).2
    · simp only [h1, h2] at h
      simp at h
      exact (validate_ok.1 h).2
  · obtain ⟨g1, g2⟩ := not_fits_typeCheck (ib := ib) (s := s) hv
    simp only [g1, g2, if_false] at h
    cases hc : b.coercers.isEmpty with
    | true => simp [hc] at h
    | false =>
      simp only [hc] at h
      simp at h
      obtain ⟨x, s1, h1, h2⟩ := M.bind_eq_ok h
      obtain ⟨_, _, _, _, _, _, _, _, hg⟩ := coerceLoop_ok h1 (by rintro e; simp [e] at hc)
      exact ⟨x, s1, (good_fits hst).1 hg, (validate_ok.1 h2).2⟩

/-- Whatever the coercers return, a successful fill of a checked class field with type-preserving validators is an
instance of the class, and of exactly the class under `check_strict`. -/
theorem C21_type_sound {d : Style} {c : W.Cls} {ib : Bool} {pre args : List (Tok W)} {b : Ann W}
    (hb : Ann.make d (.simple c ib) pre args = .ok b)
    (hst : styleOf d (pre ++ args) = .check ∨ styleOf d (pre ++ args) = .checkStrict)
    (hrefl : W.isSub c c = true)
    {v w : W.Obj} {s s' : LState W} (h : (F.ann b).call v s = (.ok w, s')) :
    (styleOf d (pre ++ args) = .check →
      (∀ f ∈ tokValidators (some c) (pre ++ args), Keeps (fun x => W.isInstance x c = true) f) → W.isInstance w c = true) ∧
    (styleOf d (pre ++ args) = .checkStrict →
      (∀ f ∈ tokValidators (some c) (pre ++ args), Keeps (fun x => W.typeOf x = c) f) → W.typeOf w = c) := by
  obtain ⟨h1, h2, h3, h4, -⟩ := Ann.make_ok hb
  rw [simple_structural, List.append_nil] at h4
  obtain ⟨k, hf⟩ := F.call_ok.1 h
  obtain ⟨x, s1, hx, hp⟩ := fill_simple_ok h1 (by rw [h2]; exact hst) hf
  rw [h4] at hp
  rw [h2] at hx
  constructor
  · intro hs hkeep
    refine hp.keeps (P := fun x => W.isInstance x c = true) hkeep ?_
    rcases hx with hx | hx
    · simp [World.isInstance, hx, hrefl]
    · exact hx.2
  · intro hs hkeep
    refine hp.keeps (P := fun x => W.typeOf x = c) hkeep ?_
    rcases hx with hx | hx
    · exact hx
    · rw [hs] at hx; cases hx.1

/-- hypotheses met: strict int, a wrong coercer and a right one, a type-preserving validator -/
example : ∃ b, Ann.make (W := Toy.W) .checkStrict (.simple .int false) []
      [Toy.ctok (Toy.ret 1 (.str "no")), Toy.ctok (Toy.ret 2 (.int 7)), Toy.vtok (Toy.pass 3)] = .ok b ∧
    (F.ann b).call (.bool true) Toy.s0 = (.ok (.int 7), ⟨[1, 2, 3], fun _ => []⟩) ∧
    Toy.W.isSub .int .int = true ∧ Keeps (W := Toy.W) (fun x => Toy.W.typeOf x = .int) (Toy.pass 3) := by
  refine ⟨_, rfl, rfl, rfl, ?_⟩
  intro v s w s' hv hr
  cases hr
  exact hv

/-! ### C22 -/

/-- the value passes the type check of a None / Ellipsis / callable field -/
def Kind.singletonOk (k : Kind W) (v : W.Obj) : Prop :=
  match k with
  | .noneF _ => W.isNone v = true
  | .ellipsisF _ => W.isEllipsis v = true
  | .callable => W.isCallable v = true
  | _ => False

/-- one of the three kinds -/
def Kind.isSingleton : Kind W → Bool
  | .noneF _ | .ellipsisF _ | .callable => true
  | _ => false

theorem singleton_typeCheck {k : Kind W} (hk : k.isSingleton = true) (v : W.Obj) (s : LState W) :
    (k.singletonOk v → k.typeCheck v s = .exact) ∧ (¬ k.singletonOk v → k.typeCheck v s = .false) := by
  cases k <;> simp_all [Kind.isSingleton, Kind.singletonOk, Kind.typeCheck]

/-- Exact behaviour of a checked None / Ellipsis / callable field: a matching value is validated; any other value is
handed to the coercers, and the value of the first coercer that returns is stored without a further check. -/
theorem C22_exact {d : Style} {k : Kind W} (hk : k.isSingleton = true) {pre args : List (Tok W)} {b : Ann W}
    (hb : Ann.make d k pre args = .ok b)
    (hst : styleOf d (pre ++ args) = .check ∨ styleOf d (pre ++ args) = .checkStrict) (v : W.Obj) (s : LState W)
    (w : W.Obj) (s' : LState W) :
    (F.ann b).call v s = (.ok w, s') ↔
      (k.singletonOk v ∧ Pipeline (tokValidators k.origin (pre ++ args)) v s w s') ∨
      (¬ k.singletonOk v ∧ ∃ l c r x s1 s2, tokCoercers k.isBool k.origin (pre ++ args) = l ++ c :: r ∧
        Attempts (fun _ _ => True) l v s v s1 ∧ Returns (c v) s1 x s2 ∧
        Pipeline (tokValidators k.origin (pre ++ args)) x s2 w s') := by
  obtain ⟨h1, h2, h3, h4, -⟩ := Ann.make_ok hb
  have h4' : b.validators = tokValidators k.origin (pre ++ args) := by
    rw [h4]; cases k <;> simp_all [Kind.isSingleton, Kind.structural]
  have hgood : ∀ x t, k.good (styleOf d (pre ++ args)) x t := by
    intro x t
    unfold Kind.good
    by_cases hx : k.singletonOk x
    · rw [(singleton_typeCheck hk x t).1 hx]; rfl
    · rw [(singleton_typeCheck hk x t).2 hx]; rfl
  -- attempts that only fail by raising keep the argument
  have hsame : ∀ {l v s v' s'}, Attempts (fun (_ : W.Obj) _ => True) l v s v' s' → v' = v := by
    intro l v s v' s' h
    induction h with
    | nil => rfl
    | raised _ _ _ ih => exact ih
    | wrong _ h _ => exact absurd trivial h
  have hconv : ∀ {l v s v' s'}, Attempts (k.good (styleOf d (pre ++ args))) l v s v' s' ↔
      Attempts (fun _ _ => True) l v s v' s' := by
    intro l v s v' s'
    constructor
    · intro h
      induction h with
      | nil => exact .nil _ _
      | raised a b _ ih => exact .raised a b ih
      | wrong _ h _ => exact absurd (hgood _ _) h
    · intro h
      induction h with
      | nil => exact .nil _ _
      | raised a b _ ih => exact .raised a b ih
      | wrong _ h _ => exact absurd trivial h
  rw [F.call_ok]
  simp only [F.fill]
  rw [Ann.fill_checked b (by rw [h2]; exact hst) v s, h1, h2, h3, h4']
  by_cases hv : k.singletonOk v
  · simp only [(singleton_typeCheck hk v s).1 hv, if_true, hv, true_and, not_true, false_and, or_false]
    constructor
    · rintro ⟨_, h⟩; exact (validate_ok.1 h).2
    · intro h; exact ⟨_, validate_ok.2 ⟨rfl, h⟩⟩
  · simp only [(singleton_typeCheck hk v s).2 hv, hv, false_and, not_false_eq_true, true_and, false_or,
      show (TC.false = TC.exact) = False by simp, show (TC.false = TC.inexact) = False by simp, if_false]
    constructor
    · rintro ⟨tk, h⟩
      cases hc : (tokCoercers k.isBool k.origin (pre ++ args)).isEmpty with
      | true => simp [hc] at h
      | false =>
        simp only [hc] at h
        simp at h
        obtain ⟨x, s1, g1, g2⟩ := M.bind_eq_ok h
        obtain ⟨l, c, r, v1, s2, e, ha, hr, -⟩ := coerceLoop_ok g1 (by rintro e; simp [e] at hc)
        have ha' := hconv.1 ha
        have hv1 := hsame ha'
        subst hv1
        exact ⟨l, c, r, x, s2, s1, e, ha', hr, (validate_ok.1 g2).2⟩
    · rintro ⟨l, c, r, x, s1, s2, e, ha, hr, hp⟩
      refine ⟨.coerce, ?_⟩
      rw [e]
      have hr' : c v s1 = _ := hr
      have : coerceLoop k (styleOf d (pre ++ args)) (l ++ c :: r) v s = (.ok x, s2) := by
        rw [coerceLoop_attempts (hconv.2 ha) (by simp), coerceLoop]
        have hg : (k.typeCheck x s2).badAfterCoercion (styleOf d (pre ++ args)) = false := hgood x s2
        simp [hr', hg]
      have hne : (l ++ c :: r).isEmpty = false := by simp
      simp only [hne]
      simp
      rw [M.bind_ok this]
      exact validate_ok.2 ⟨rfl, hp⟩

/-- Without coercion tokens the expected property holds. -/
theorem C22_no_coercers {d : Style} {k : Kind W} (hk : k.isSingleton = true) {pre args : List (Tok W)} {b : Ann W}
    (hb : Ann.make d k pre args = .ok b)
    (hst : styleOf d (pre ++ args) = .check ∨ styleOf d (pre ++ args) = .checkStrict)
    (hc : (pre ++ args).all (fun t => !t.isCoercion) = true)
    (hkeep : ∀ f ∈ tokValidators k.origin (pre ++ args), Keeps k.singletonOk f)
    {v w : W.Obj} {s s' : LState W} (h : (F.ann b).call v s = (.ok w, s')) : k.singletonOk w := by
  rcases (C22_exact hk hb hst v s w s').1 h with ⟨h1, h2⟩ | ⟨-, l, c, r, -, -, -, e, -⟩
  · exact h2.keeps hkeep h1
  · have h0 : tokCoercers k.isBool k.origin (pre ++ args) = [] := by
      rw [tokCoercers, List.filterMap_eq_nil_iff]
      intro t ht
      have := List.all_eq_true.1 hc t ht
      cases t <;> simp_all [Tok.coercer?, Tok.isCoercion]
    rw [h0] at e
    simp at e

/-- The expected property fails: `Annotated[None, check, coercer]` stores the int the coercer returns. -/
theorem C22_refuted : ∃ b, Ann.make (W := Toy.W) .hollow (.noneF .none) [] [.style .check, Toy.ctok (Toy.ret 1 (.int 5))] = .ok b ∧
    ((F.ann b).call (.str "x") Toy.s0).1 = .ok (.int 5) ∧ Toy.W.isNone (.int 5) = false :=
  ⟨_, rfl, rfl, rfl⟩

/-- hypotheses of `C22_no_coercers` met -/
example : ∃ b, Ann.make (W := Toy.W) .check .callable [] [Toy.vtok (Toy.pass 3)] = .ok b ∧
    ((F.ann b).call (.fn 4) Toy.s0).1 = .ok (.fn 4) ∧ ((F.ann b).call (.int 4) Toy.s0).1 = .error .typeError :=
  ⟨_, rfl, rfl, rfl⟩

/-! ### C23 -/

/-- Coercers are tried in order; the first one that returns a fitting value decides (the rest `r` never runs). -/
theorem C23_first_success {d : Style} {c : W.Cls} {ib : Bool} {pre args : List (Tok W)} {b : Ann W}
    (hb : Ann.make d (.simple c ib) pre args = .ok b)
    (hst : styleOf d (pre ++ args) = .check ∨ styleOf d (pre ++ args) = .checkStrict)
    {v : W.Obj} (hv : ¬ Fits (styleOf d (pre ++ args)) c v) (s s' : LState W) (w : W.Obj) :
    (F.ann b).call v s = (.ok w, s') ↔
      ∃ l f r v1 s1 x s2, tokCoercers ib (some c) (pre ++ args) = l ++ f :: r ∧
        Attempts (fun y _ => Fits (styleOf d (pre ++ args)) c y) l v s v1 s1 ∧ Returns (f v1) s1 x s2 ∧
        Fits (styleOf d (pre ++ args)) c x ∧ Pipeline (tokValidators (some c) (pre ++ args)) x s2 w s' := by
  obtain ⟨h1, h2, h3, h4, -⟩ := Ann.make_ok hb
  rw [simple_structural, List.append_nil] at h4
  have hg : (Kind.simple c ib : Kind W).good (styleOf d (pre ++ args)) = fun y _ => Fits (styleOf d (pre ++ args)) c y := by
    funext y t; exact propext (good_fits hst)
  rw [F.call_ok]
  simp only [F.fill]
  rw [Ann.fill_checked b (by rw [h2]; exact hst) v s, h1, h2, h3, h4]
  obtain ⟨g1, g2⟩ := not_fits_typeCheck (ib := ib) (s := s) hv
  simp only [g1, g2, if_false, Kind.isBool, Kind.origin]
  constructor
  · rintro ⟨tk, h⟩
    cases hc : (tokCoercers ib (some c) (pre ++ args)).isEmpty with
    | true => simp [hc] at h
    | false =>
      simp only [hc] at h
      simp at h
      obtain ⟨x, s1, k1, k2⟩ := M.bind_eq_ok h
      obtain ⟨l, f, r, v1, s2, e, ha, hr, hx⟩ := coerceLoop_ok k1 (by rintro e; simp [e] at hc)
      rw [hg] at ha hx
      exact ⟨l, f, r, v1, s2, x, s1, e, ha, hr, hx, (validate_ok.1 k2).2⟩
  · rintro ⟨l, f, r, v1, s1, x, s2, e, ha, hr, hx, hp⟩
    simp only [e]
    refine ⟨.coerce, ?_⟩
    have hr' : f v1 s1 = _ := hr
    have : coerceLoop (.simple c ib) (styleOf d (pre ++ args)) (l ++ f :: r) v s = (.ok x, s2) := by
      rw [← hg] at ha
      rw [coerceLoop_attempts ha (by simp), coerceLoop]
      have : ((Kind.simple c ib).typeCheck x s2).badAfterCoercion (styleOf d (pre ++ args)) = false := (good_fits hst).2 hx
      simp [hr', this]
    have hne : (l ++ f :: r).isEmpty = false := by simp
    simp only [hne]
    simp
    rw [M.bind_ok this]
    exact validate_ok.2 ⟨rfl, hp⟩

/-- If all coercers fail, the exception of the last one is raised: its own, or TypeError if it returned a wrong value. -/
theorem C23_last_failure {d : Style} {c : W.Cls} {ib : Bool} {pre args : List (Tok W)} {b : Ann W}
    (hb : Ann.make d (.simple c ib) pre args = .ok b)
    (hst : styleOf d (pre ++ args) = .check ∨ styleOf d (pre ++ args) = .checkStrict)
    {v : W.Obj} (hv : ¬ Fits (styleOf d (pre ++ args)) c v) {s s1 s2 : LState W} {v1 : W.Obj}
    {l : List (W.Obj → M W W.Obj)} {f : W.Obj → M W W.Obj}
    (hl : tokCoercers ib (some c) (pre ++ args) = l ++ [f])
    (ha : Attempts (fun y _ => Fits (styleOf d (pre ++ args)) c y) l v s v1 s1) :
    (∀ e, Raises (f v1) s1 e s2 → (F.ann b).call v s = (.error e, s2)) ∧
    (∀ x, Returns (f v1) s1 x s2 → ¬ Fits (styleOf d (pre ++ args)) c x → (F.ann b).call v s = (.error .typeError, s2)) := by
  obtain ⟨h1, h2, h3, h4, -⟩ := Ann.make_ok hb
  have hg : (Kind.simple c ib : Kind W).good (styleOf d (pre ++ args)) = fun y _ => Fits (styleOf d (pre ++ args)) c y := by
    funext y t; exact propext (good_fits hst)
  obtain ⟨g1, g2⟩ := not_fits_typeCheck (ib := ib) (s := s) hv
  have hne : (l ++ [f]).isEmpty = false := by simp
  rw [← hg] at ha
  have hf : ∀ e, coerceLoop (.simple c ib) (styleOf d (pre ++ args)) [f] v1 s1 = (.error e, s2) →
      (F.ann b).call v s = (.error e, s2) := by
    intro e he
    rw [F.call_error]
    simp only [F.fill]
    rw [Ann.fill_checked b (by rw [h2]; exact hst) v s, h1, h2, h3]
    simp only [g1, g2, if_false, Kind.isBool, Kind.origin, hl, hne]
    simp
    exact M.bind_error (by rw [coerceLoop_attempts ha (by simp), he])
  constructor
  · intro e he
    refine hf e ?_
    have he : f v1 s1 = _ := he
    simp [coerceLoop, he]
  · intro x hx hnf
    refine hf _ ?_
    have hx : f v1 s1 = _ := hx
    have : ((Kind.simple c ib).typeCheck x s2).badAfterCoercion (styleOf d (pre ++ args)) = true := by
      have := mt (good_fits (ib := ib) (s := s2) hst).1 hnf
      simpa [Kind.good] using this
    simp [coerceLoop, hx, this]

/-- three coercers: the first raises, the second returns a wrong type, the third succeeds, the fourth never runs -/
example : ∃ b, Ann.make (W := Toy.W) .check (.simple .int false) []
      [Toy.ctok (Toy.err 1 .keyError), Toy.ctok (Toy.ret 2 (.str "no")), Toy.ctok (Toy.ret 3 (.int 7)),
       Toy.ctok (Toy.ret 4 (.int 8))] = .ok b ∧
    (F.ann b).call (.str "x") Toy.s0 = (.ok (.int 7), ⟨[1, 2, 3], fun _ => []⟩) := ⟨_, rfl, rfl⟩

/-- all fail -/
example : ∃ b, Ann.make (W := Toy.W) .check (.simple .int false) []
      [Toy.ctok (Toy.ret 2 (.str "no")), Toy.ctok (Toy.err 1 .keyError)] = .ok b ∧
    (F.ann b).call (.str "x") Toy.s0 = (.error .keyError, ⟨[2, 1], fun _ => []⟩) := ⟨_, rfl, rfl⟩

/-! ### C24 -/

/-- What the next coercer receives after the attempts `l`: the value returned last by one of them, else the argument. -/
def lastReturned (v : W.Obj) : List (Option W.Obj) → W.Obj := fun l => l.foldl (fun acc o => o.getD acc) v

/-- the outcomes of attempts: `some w` returned a wrong `w`, `none` raised -/
inductive Outcomes (good : W.Obj → LState W → Prop) :
    List (W.Obj → M W W.Obj) → W.Obj → LState W → List (Option W.Obj) → LState W → Prop
  | nil (v s) : Outcomes good [] v s [] s
  | raised {c cs v s e s1 l s'} : Raises (c v) s e s1 → e.isException = true → Outcomes good cs v s1 l s' →
      Outcomes good (c :: cs) v s (none :: l) s'
  | wrong {c cs v s w s1 l s'} : Returns (c v) s w s1 → ¬ good w s1 → Outcomes good cs w s1 l s' →
      Outcomes good (c :: cs) v s (some w :: l) s'

theorem attempts_outcomes {good : W.Obj → LState W → Prop} {cs : List (W.Obj → M W W.Obj)} {v v' : W.Obj} {s s' : LState W}
    (h : Attempts good cs v s v' s') : ∃ l, Outcomes good cs v s l s' ∧ v' = lastReturned v l := by
  induction h with
  | nil => exact ⟨[], .nil _ _, rfl⟩
  | raised h1 h2 _ ih => obtain ⟨l, hl, e⟩ := ih; exact ⟨none :: l, .raised h1 h2 hl, e⟩
  | wrong h1 h2 _ ih => obtain ⟨l, hl, e⟩ := ih; exact ⟨some _ :: l, .wrong h1 h2 hl, e⟩

/-- Exact behaviour: the coercer that succeeds received the value last returned by an earlier (failed) coercer, or the
argument if all earlier ones raised. -/
theorem C24_argument {d : Style} {c : W.Cls} {ib : Bool} {pre args : List (Tok W)} {b : Ann W}
    (hb : Ann.make d (.simple c ib) pre args = .ok b)
    (hst : styleOf d (pre ++ args) = .check ∨ styleOf d (pre ++ args) = .checkStrict)
    {v : W.Obj} (hv : ¬ Fits (styleOf d (pre ++ args)) c v) {s s' : LState W} {w : W.Obj}
    (h : (F.ann b).call v s = (.ok w, s')) :
    ∃ l f r outs s1 x s2, tokCoercers ib (some c) (pre ++ args) = l ++ f :: r ∧
      Outcomes (fun y _ => Fits (styleOf d (pre ++ args)) c y) l v s outs s1 ∧
      Returns (f (lastReturned v outs)) s1 x s2 ∧ Pipeline (tokValidators (some c) (pre ++ args)) x s2 w s' ∧
      (outs.all Option.isNone = true → lastReturned v outs = v) := by
  obtain ⟨l, f, r, v1, s1, x, s2, e, ha, hr, hx, hp⟩ := (C23_first_success hb hst hv s s' w).1 h
  obtain ⟨outs, ho, rfl⟩ := attempts_outcomes ha
  refine ⟨l, f, r, outs, s1, x, s2, e, ho, hr, hp, ?_⟩
  intro hn
  clear ha ho hr hp hx e h
  induction outs with
  | nil => rfl
  | cons o outs ih =>
    cases o with
    | none => exact ih (by simpa using hn)
    | some w => simp at hn

/-- The expected property fails: the second coercer (identity on ints, otherwise raising) gets `"no"` from the first. -/
theorem C24_refuted : ∃ b, Ann.make (W := Toy.W) .check (.simple .int false) []
      [Toy.ctok (Toy.ret 1 (.str "5")), Toy.looseTok] = .ok b ∧
    ((F.ann b).call (.str "junk") Toy.s0).1 = .ok (.int 5) ∧
    ∃ b', Ann.make (W := Toy.W) .check (.simple .int false) [] [Toy.looseTok] = .ok b' ∧
      ((F.ann b').call (.str "junk") Toy.s0).1 = .error .valueError :=
  ⟨_, rfl, rfl, _, rfl, rfl⟩

/-! ### C27 -/

theorem filterMap_congr_style (d : Style) {toks : List (Tok W)} (h : toks.all (fun t => !t.isStyle) = true) :
    styleOf d toks = d := by
  have : lastStyle toks = .default := by
    unfold lastStyle
    suffices ∀ acc, toks.foldl Tok.restyle acc = acc from this _
    intro acc
    induction toks with
    | nil => rfl
    | cons t ts ih =>
      simp only [List.all_cons, Bool.and_eq_true] at h
      have : t.restyle acc = acc := by cases t <;> simp_all [Tok.restyle, Tok.isStyle]
      rw [List.foldl_cons, this]
      exact ih h.2
  simp [styleOf, this]

/-- The same class field, without coercers, in a `check_strict` class and in a `check` class. -/
theorem C27_strict_refines_check {c : W.Cls} {ib : Bool} {pre args : List (Tok W)} {bs bc : Ann W}
    (hs : Ann.make .checkStrict (.simple c ib) pre args = .ok bs)
    (hc : Ann.make .check (.simple c ib) pre args = .ok bc)
    (hst : (pre ++ args).all (fun t => !t.isStyle) = true) (hco : (pre ++ args).all (fun t => !t.isCoercion) = true)
    (v : W.Obj) (s : LState W) :
    (∀ w s', (F.ann bs).call v s = (.ok w, s') → (F.ann bc).call v s = (.ok w, s')) ∧
    (W.typeOf v = c ∨ W.isInstance v c = false → (F.ann bs).call v s = (F.ann bc).call v s) ∧
    (W.typeOf v ≠ c → W.isInstance v c = true → (F.ann bs).call v s = (.error .typeError, s) ∧
      (∀ w s', (F.ann bc).call v s = (.ok w, s') ↔ Pipeline (tokValidators (some c) (pre ++ args)) v s w s')) := by
  have e1 : styleOf .checkStrict (pre ++ args) = .checkStrict := filterMap_congr_style _ hst
  have e2 : styleOf .check (pre ++ args) = .check := filterMap_congr_style _ hst
  have key : W.typeOf v = c ∨ W.isInstance v c = false → (F.ann bs).call v s = (F.ann bc).call v s := by
    intro h
    by_cases ht : W.typeOf v = c
    · have hS := C20_match hs (.inr e1) (v := v) (.inl ht) s
      have hC := C20_match hc (.inl e2) (v := v) (.inl ht) s
      rcases hr : (F.ann bs).call v s with ⟨r, s1⟩
      cases r with
      | ok w => exact ((hC.1 w s1).2 ((hS.1 w s1).1 hr)).symm
      | error e => exact ((hC.2 e s1).2 ((hS.2 e s1).1 hr)).symm
    · have hi : W.isInstance v c = false := h.resolve_left ht
      rw [C20_no_coercers hs (.inr e1) (v := v) (by rw [e1]; simp [Fits, ht]) hco s,
        C20_no_coercers hc (.inl e2) (v := v) (by simp [Fits, ht, hi]) hco s]
  have key2 : W.typeOf v ≠ c → W.isInstance v c = true → (F.ann bs).call v s = (.error .typeError, s) ∧
      (∀ w s', (F.ann bc).call v s = (.ok w, s') ↔ Pipeline (tokValidators (some c) (pre ++ args)) v s w s') := by
    intro ht hi
    refine ⟨C20_no_coercers hs (.inr e1) (v := v) (by rw [e1]; simp [Fits, ht]) hco s, ?_⟩
    exact (C20_match hc (.inl e2) (v := v) (.inr ⟨e2, hi⟩) s).1
  refine ⟨?_, key, key2⟩
  intro w s' h
  by_cases ht : W.typeOf v = c
  · rw [← key (.inl ht)]; exact h
  · cases hi : W.isInstance v c with
    | false => rw [← key (.inr hi)]; exact h
    | true => rw [(key2 ht hi).1] at h; cases h

/-- hypotheses met; True (a bool) separates the two -/
example : ∃ bs bc, Ann.make (W := Toy.W) .checkStrict (.simple .int false) [] [Toy.vtok (Toy.pass 1)] = .ok bs ∧
    Ann.make (W := Toy.W) .check (.simple .int false) [] [Toy.vtok (Toy.pass 1)] = .ok bc ∧
    (F.ann bs).call (.bool true) Toy.s0 = (.error .typeError, Toy.s0) ∧
    ((F.ann bc).call (.bool true) Toy.s0).1 = .ok (.bool true) := ⟨_, _, rfl, rfl, rfl, rfl⟩

/-! ### C29 -/

theorem literalValidator_ok {id : Nat} {vals : List W.Obj} {v w : W.Obj} {s s' : LState W} :
    literalValidator id vals v s = (.ok w, s') → w = v ∧ W.hashable v = true ∧ IsLiteral vals v := by
  unfold literalValidator
  intro h
  cases hh : W.hashable v with
  | false => simp [hh] at h
  | true =>
    simp only [hh] at h
    simp at h
    split at h
    · rename_i hm
      cases h
      obtain ⟨p, hp, h1, h2⟩ := hm
      exact ⟨rfl, rfl, p, hp, h1, h2⟩
    · cases h

/-- Without coercers and validators: for every state (whatever was filled before), a checked `Literal` field accepts
exactly the (hashable) values with the type and value of a literal, stores the very argument, and leaves the state
unchanged on success. -/
theorem C29_literal {d : Style} {id : Nat} {vals : List W.Obj} {pre args : List (Tok W)} {b : Ann W}
    (hb : Ann.make d (.literal id vals) pre args = .ok b)
    (hst : styleOf d (pre ++ args) = .check ∨ styleOf d (pre ++ args) = .checkStrict)
    (hc : (pre ++ args).all (fun t => !t.isCoercion) = true) (hv : (pre ++ args).all (fun t => !t.isValidation) = true)
    (v : W.Obj) (s : LState W) :
    (W.hashable v = true ∧ IsLiteral vals v → (F.ann b).call v s = (.ok v, s)) ∧
    (¬ (W.hashable v = true ∧ IsLiteral vals v) →
      ∃ s', (F.ann b).call v s = (.error .typeError, s') ∨ (F.ann b).call v s = (.error .valueError, s')) := by
  obtain ⟨h1, h2, h3, h4, -⟩ := Ann.make_ok hb
  have hnh : styleOf d (pre ++ args) ≠ .hollow := by rcases hst with h | h <;> rw [h] <;> simp
  have h3' : b.coercers = [] := by
    rw [h3, tokCoercers, List.filterMap_eq_nil_iff]
    intro t ht
    have := List.all_eq_true.1 hc t ht
    cases t <;> simp_all [Tok.coercer?, Tok.isCoercion]
  have h4' : b.validators = [literalValidator id vals] := by
    have : tokValidators (Kind.literal id vals).origin (pre ++ args) = [] := by
      rw [tokValidators, List.filterMap_eq_nil_iff]
      intro t ht
      have := List.all_eq_true.1 hv t ht
      cases t <;> simp_all [Tok.validator?, Tok.isValidation]
    rw [h4, this]
    simp [Kind.structural, hnh]
  have hfill := Ann.fill_checked b (by rw [h2]; exact hst) v s
  rw [h1, h2, h3', h4'] at hfill
  have hval : ∀ k, validate [literalValidator id vals] v k s =
      M.bind (literalValidator id vals v) (fun w => M.pure (w, k)) s := by
    intro k
    simp only [validate, M.foldM, M.bind_pure]
  constructor
  · rintro ⟨hh, p, hp, ht, he⟩
    have hmem : W.typeOf v ∈ litKeys id vals s := by
      unfold litKeys
      rw [List.mem_append]
      left
      rw [← ht]
      exact List.mem_map_of_mem hp
    have htc : (Kind.literal id vals).typeCheck v s = .exact := by simp [Kind.typeCheck, hmem]
    rw [F.call_ok]
    refine ⟨.noCoerceStrict, ?_⟩
    simp only [F.fill]
    rw [hfill]
    simp only [htc, if_true]
    rw [hval]
    have hlit : literalValidator id vals v s = (.ok v, s) := by
      unfold literalValidator
      have : (vals.any fun p => decide (W.typeOf p = W.typeOf v) && (decide (p = v) || W.eq p v)) = true := by
        rw [List.any_eq_true]
        exact ⟨p, hp, by simp [ht]; exact he⟩
      simp only [hh, this, hmem, if_true]
      rfl
    rw [M.bind_ok hlit]
    rfl
  · intro hn
    rcases hr : literalValidator id vals v s with ⟨r, s1⟩
    have hlit : r = .error .typeError ∨ r = .error .valueError := by
      have h' : ∀ w, r ≠ .ok w := by
        rintro w rfl
        exact hn (literalValidator_ok hr).2
      unfold literalValidator at hr
      simp only at hr
      split at hr
      · cases hr; exact .inl rfl
      · split at hr
        · cases hr; exact absurd rfl (h' _)
        · cases hr; exact .inr rfl
    have : ∃ s', (F.ann b).fill v s = (.error .typeError, s') ∨ (F.ann b).fill v s = (.error .valueError, s') := by
      simp only [F.fill]
      rw [hfill]
      have hv : ∀ k, ∃ s', validate [literalValidator id vals] v k s = (.error .typeError, s') ∨
          validate [literalValidator id vals] v k s = (.error .valueError, s') := by
        intro k
        rw [hval]
        rcases hlit with rfl | rfl
        · exact ⟨s1, .inl (M.bind_error hr)⟩
        · exact ⟨s1, .inr (M.bind_error hr)⟩
      split
      · exact hv _
      · split
        · exact hv _
        · exact ⟨s, .inl (by simp)⟩
    obtain ⟨s', h | h⟩ := this
    · exact ⟨s', .inl (F.call_error.2 h)⟩
    · exact ⟨s', .inr (F.call_error.2 h)⟩

/-- `Literal[1, "a"]`, checked: True is not accepted although `True == 1`; the failed attempt changes nothing for 1 -/
example : ∃ b, Ann.make (W := Toy.W) .check (.literal 0 [.int 1, .str "a"]) [] [] = .ok b ∧
    IsLiteral (W := Toy.W) [.int 1, .str "a"] (.int 1) ∧
    ((F.ann b).call (.bool true) Toy.s0).1 = .error .valueError ∧
    ((F.ann b).call (.int 1) ((F.ann b).call (.bool true) Toy.s0).2).1 = .ok (.int 1) :=
  ⟨_, rfl, ⟨.int 1, .head _, rfl, .inl rfl⟩, rfl, rfl⟩

/-- With coercers the field remembers: `Annotated[Literal["a"], check, c]` where `c` returns `"a"` for None and None for
anything else. None is first coerced to `"a"`; then a failed fill of `...` makes `NoneType` (the type the coercer
returned) pass the type check, so None, which was coerced before, is rejected afterwards. -/
theorem C29_refuted_with_coercers :
    ∃ b, Ann.make (W := Toy.W) .check (.literal 0 [.str "a"]) []
      [Toy.ctok fun v => M.pure (match (v : Toy.TObj) with
        | .none => .str "a"
        | _ => .none)] = .ok b ∧
    ((F.ann b).call .none Toy.s0).1 = .ok (.str "a") ∧
    ((F.ann b).call .none ((F.ann b).call .ellipsis Toy.s0).2).1 = .error .valueError :=
  ⟨_, rfl, rfl, rfl⟩

end Records
