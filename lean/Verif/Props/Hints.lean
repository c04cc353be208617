import Verif.Proofs.Hollow
import Verif.Props.Leaf
/-
C19, C25 (leaf and union fields), C26, C42, and the last clause of C18.
-/
set_option linter.unusedSimpArgs false
namespace Records
variable {W : World}

/-! ### C19 -/

/-- A field of a class with the default (hollow) style, whose hint requests no checking, coercion or validation
anywhere: the class can be created, and every object is stored as it is, in every state, which is left unchanged. -/
theorem C19_hollow (h : Hint W) (hu : h.unchecked = true) :
    ∃ f, makeFiller .hollow [] h = .ok f ∧ ∀ v s, f.call v s = (.ok v, s) := by
  obtain ⟨⟨f, e, h1, -⟩, -⟩ := harm_getF h hu
  obtain ⟨b, eb, hi⟩ := harm_applyBind f h1 [] rfl (by simp)
  rw [F.applyBind_nil] at eb
  refine ⟨b, by simp [makeFiller, getFiller, e, F.applyPre, eb], fun v s => ?_⟩
  exact F.call_ok.2 ⟨.hollow, hi.2 v s⟩

/-- A leaf field that is made hollow by a token in any class. -/
theorem C19_hollow_leaf {d : Style} {k : Kind W} {pre args : List (Tok W)} {b : Ann W}
    (hb : Ann.make d k pre args = .ok b) (hst : styleOf d (pre ++ args) = .hollow)
    (hv : (pre ++ args).all (fun t => !t.isValidation) = true) (v : W.Obj) (s : LState W) :
    (F.ann b).call v s = (.ok v, s) := by
  obtain ⟨h1, h2, h3, h4, -⟩ := Ann.make_ok hb
  have h0 : tokValidators k.origin (pre ++ args) = [] := by
    rw [tokValidators, List.filterMap_eq_nil_iff]
    intro t ht
    have := List.all_eq_true.1 hv t ht
    cases t <;> simp_all [Tok.validator?, Tok.isValidation]
  have h4' : b.validators = [] := by
    rw [h4, h0, hst]; cases k <;> simp [Kind.structural]
  simp [F.call, Ann.call, h2, hst, h4', M.pure]

/-- `Dict[str, Annotated[List["Foo"], tag]]`; and `Annotated[int, hollow]` in a checking class -/
example : (Hint.mapping (W := Toy.W) .dict (.cls .str) (.annotated (.iter .list .opaque) [.tag 3])).unchecked = true ∧
    ∃ b, Ann.make (W := Toy.W) .check (.simple .int false) [] [.style .hollow] = .ok b := ⟨rfl, _, rfl⟩

/-! ### C25 -/

/-- the checking/coercing stage of a fill: the same filler without validators -/
def Ann.bare (a : Ann W) : Ann W := { a with validators := [] }

theorem Ann.bare_fill (a : Ann W) {v : W.Obj} {s : LState W} (hst : a.style = .check ∨ a.style = .checkStrict) :
    a.bare.fill v s =
      if a.kind.typeCheck v s = .exact then (.ok (v, .noCoerceStrict), s)
      else if a.kind.typeCheck v s = .inexact ∧ a.style = .check then (.ok (v, .noCoerce), s)
      else if a.coercers.isEmpty then (.error .typeError, s)
      else (coerceLoop a.kind a.style a.coercers v).bind (fun w => M.pure (w, .coerce)) s :=
  Ann.fill_checked a.bare hst v s

/-- The stored value is obtained from the type-checked/coerced value by the validators, left to right. -/
theorem fill_stages (a : Ann W) (v w : W.Obj) (s s' : LState W) :
    (F.ann a).call v s = (.ok w, s') ↔
      ∃ x s1, (F.ann a.bare).call v s = (.ok x, s1) ∧ Pipeline a.validators x s1 w s' := by
  have key : ∀ k, a.fill v s = (.ok (w, k), s') ↔
      ∃ x s1, a.bare.fill v s = (.ok (x, k), s1) ∧ Pipeline a.validators x s1 w s' := by
    intro k
    have e0 : ∀ (x : W.Obj) (k : TPK) (s : LState W), validate [] x k s = (.ok (x, k), s) := fun _ _ _ => rfl
    cases hst : a.style with
    | default =>
      unfold Ann.fill
      simp [hst, Ann.bare, M.throw]
    | hollow =>
      unfold Ann.fill
      simp only [hst, Ann.bare]
      simp only [e0, validate_ok]
      constructor
      · rintro ⟨rfl, h⟩; exact ⟨v, s, rfl, h⟩
      · rintro ⟨x, s1, h, hp⟩; cases h; exact ⟨rfl, hp⟩
    | check | checkStrict =>
      rw [Ann.fill_checked a (by simp [hst]), Ann.bare_fill a (by simp [hst])]
      split
      · rw [validate_ok]
        constructor
        · rintro ⟨rfl, h⟩; exact ⟨v, s, rfl, h⟩
        · rintro ⟨x, s1, h, hp⟩; cases h; exact ⟨rfl, hp⟩
      · split
        · rw [validate_ok]
          constructor
          · rintro ⟨rfl, h⟩; exact ⟨v, s, rfl, h⟩
          · rintro ⟨x, s1, h, hp⟩; cases h; exact ⟨rfl, hp⟩
        · split
          · constructor
            · intro h; cases h
            · rintro ⟨x, s1, h, hp⟩; cases h
          · constructor
            · intro h
              obtain ⟨x, s1, h1, h2⟩ := M.bind_eq_ok h
              obtain ⟨rfl, hp⟩ := validate_ok.1 h2
              exact ⟨x, s1, by rw [M.bind_ok h1]; rfl, hp⟩
            · rintro ⟨x, s1, h, hp⟩
              obtain ⟨y, s2, h1, h2⟩ := M.bind_eq_ok h
              cases h2
              rw [M.bind_ok h1]
              exact validate_ok.2 ⟨rfl, hp⟩
  rw [F.call_ok]
  constructor
  · rintro ⟨k, h⟩
    obtain ⟨x, s1, h1, hp⟩ := (key k).1 h
    exact ⟨x, s1, F.call_ok.2 ⟨k, h1⟩, hp⟩
  · rintro ⟨x, s1, h1, hp⟩
    obtain ⟨k, h⟩ := F.call_ok.1 h1
    exact ⟨k, (key k).2 ⟨x, s1, h, hp⟩⟩

/-- An exception of a validator stops the chain and is raised. -/
theorem fill_stages_error (a : Ann W) (v x : W.Obj) (s s1 s' : LState W) (e : Exc)
    (h : (F.ann a.bare).call v s = (.ok x, s1)) (hp : PipelineFails a.validators x s1 e s') :
    (F.ann a).call v s = (.error e, s') := by
  rw [F.call_error]
  obtain ⟨k, h⟩ := F.call_ok.1 h
  simp only [F.fill] at h ⊢
  have e0 : ∀ (x : W.Obj) (k : TPK) (s : LState W), validate [] x k s = (.ok (x, k), s) := fun _ _ _ => rfl
  cases hst : a.style with
  | default =>
    unfold Ann.fill at h
    simp [hst, Ann.bare, M.throw] at h
  | hollow =>
    unfold Ann.fill at h ⊢
    simp only [hst, Ann.bare, e0] at h ⊢
    cases h
    exact validate_error.2 hp
  | check | checkStrict =>
    rw [Ann.fill_checked a (by simp [hst])]
    rw [Ann.bare_fill a (by simp [hst])] at h
    split at h
    · rename_i h0; cases h; simp only [h0, if_true]; exact validate_error.2 hp
    · rename_i h0
      split at h
      · rename_i h1; cases h; rw [if_neg h0, if_pos h1]; exact validate_error.2 hp
      · rename_i h1
        split at h
        · cases h
        · rename_i h2
          rw [if_neg h0, if_neg h1, if_neg h2]
          obtain ⟨y, s2, g1, g2⟩ := M.bind_eq_ok h
          cases g2
          rw [M.bind_ok g1]
          exact validate_error.2 hp

/-- Leaf fields: validators registered in `pre_bind` run first, then those listed in `Annotated`, then (for a checked
`Literal`) the literal check; each once, left to right, on the checked/coerced value; an exception stops the chain. -/
theorem C25_leaf {d : Style} {k : Kind W} {pre args : List (Tok W)} {b : Ann W}
    (hb : Ann.make d k pre args = .ok b) (v : W.Obj) (s : LState W) :
    ∃ lit : List (W.Obj → M W W.Obj),
      ((∀ id vals, k ≠ .literal id vals) → lit = []) ∧
      (∀ id vals, k = .literal id vals → styleOf d (pre ++ args) ≠ .hollow →
        ∃ f, lit = [f] ∧ ∀ x t y t', Returns (f x) t y t' → y = x ∧ IsLiteral vals x) ∧
      (∀ w s', (F.ann b).call v s = (.ok w, s') ↔
        ∃ x s1, (F.ann b.bare).call v s = (.ok x, s1) ∧
          Pipeline (tokValidators k.origin pre ++ tokValidators k.origin args ++ lit) x s1 w s') ∧
      (∀ x s1 e s', (F.ann b.bare).call v s = (.ok x, s1) →
        PipelineFails (tokValidators k.origin pre ++ tokValidators k.origin args ++ lit) x s1 e s' →
        (F.ann b).call v s = (.error e, s')) := by
  obtain ⟨h1, h2, h3, h4, -⟩ := Ann.make_ok hb
  have hsplit : tokValidators k.origin (pre ++ args) = tokValidators k.origin pre ++ tokValidators k.origin args := by
    simp [tokValidators, List.filterMap_append]
  rw [hsplit] at h4
  refine ⟨k.structural (styleOf d (pre ++ args)), ?_, ?_, ?_, ?_⟩
  · intro hk
    cases k with
    | literal id vals => exact absurd rfl (hk id vals)
    | _ => rfl
  · rintro id vals rfl hst
    exact ⟨literalValidator id vals, by simp [Kind.structural, hst], fun x t y t' hr =>
      ⟨(literalValidator_ok hr).1, (literalValidator_ok hr).2.2⟩⟩
  · intro w s'; rw [fill_stages, h4]
  · intro x s1 e s' hx hp
    exact fill_stages_error b v x s s1 s' e hx (by rw [h4]; exact hp)

/-- Order of tokens for a Union field of leaf members: each member gets the tokens listed in `Annotated[Union..]`, then
those applied in `pre_bind`, then its own. -/
theorem C25_union {d : Style} {pre args : List (Tok W)} {ms : List (W.Cls × List (Tok W))} {f : F W}
    (hf : makeFiller d (pre.map fun t => (none, t)) (.annotated (.union (ms.map fun m => Hint.annotated (.cls m.1) m.2)) args) = .ok f) :
    ∃ bs : List (Ann W), f = .union true args pre (bs.map .ann) ∧ bs.length = ms.length ∧
      ∀ (i : Nat) (m : W.Cls × List (Tok W)) (b : Ann W), ms[i]? = some m → bs[i]? = some b → Ann.make d (classKind m.1) (args ++ pre) m.2 = .ok b := by
  have hget : getFs (ms.map fun m => Hint.annotated (.cls m.1) m.2) = .ok (ms.map fun m => F.ann (classAnn m.1 m.2)) := by
    clear hf
    induction ms with
    | nil => simp [getFs]
    | cons m ms ih => simp [getFs, getF, ih]
  have hpre : ∀ app subs, F.applyPre (.union false args app subs) (pre.map fun t => ((none : Option Int), t)) =
      .ok (.union false args (app ++ pre) subs) := by
    clear hf
    induction pre with
    | nil => intro app subs; simp [F.applyPre]
    | cons t ts ih =>
      intro app subs
      simp only [List.map_cons, F.applyPre, F.applySub, F.withSub, F.apply]
      simp [ih]
  simp only [makeFiller, getFiller, getF, hget, hpre, Option.getD_some, F.bind, List.nil_append] at hf
  simp at hf
  cases hbu : F.bindUnion d (args ++ pre) (ms.map fun m => F.ann (classAnn m.1 m.2)) with
  | error e => simp [hbu] at hf
  | ok subs =>
    simp only [hbu] at hf
    cases hf
    have key : ∀ (ms : List (W.Cls × List (Tok W))) subs, F.bindUnion d (args ++ pre) (ms.map fun m => F.ann (classAnn m.1 m.2)) = .ok subs →
        ∃ bs : List (Ann W), subs = bs.map .ann ∧ bs.length = ms.length ∧
          ∀ (i : Nat) (m : W.Cls × List (Tok W)) (b : Ann W), ms[i]? = some m → bs[i]? = some b → Ann.make d (classKind m.1) (args ++ pre) m.2 = .ok b := by
      intro ms
      induction ms with
      | nil => intro subs h; simp [F.bindUnion] at h; subst h; exact ⟨[], rfl, rfl, by simp⟩
      | cons m ms ih =>
        intro subs h
        simp only [List.map_cons, F.bindUnion, F.applyBind] at h
        cases h1 : (classAnn m.1 m.2).applyAll (args ++ pre) with
        | error e => simp [h1] at h
        | ok a =>
          simp only [h1] at h
          cases h2 : a.bind d with
          | error e => simp [h2, Except.map] at h
          | ok b =>
            simp only [h2, Except.map] at h
            cases h3 : F.bindUnion d (args ++ pre) (ms.map fun m => F.ann (classAnn m.1 m.2)) with
            | error e => simp [h3] at h
            | ok bs' =>
              simp only [h3] at h
              cases h
              obtain ⟨bs, rfl, hl, hi⟩ := ih bs' h3
              refine ⟨b :: bs, rfl, by simp [hl], ?_⟩
              intro i m' b' hm hb'
              cases i with
              | zero =>
                simp at hm hb'
                subst hm; subst hb'
                unfold classAnn at h1
                simp [Ann.make, h1, h2]
              | succ i => exact hi i m' b' (by simpa using hm) (by simpa using hb')
    obtain ⟨bs, rfl, hl, hi⟩ := key ms subs hbu
    exact ⟨bs, rfl, hl, hi⟩

/-- the order made visible by the log: pre_bind, then Annotated -/
example : ∃ f, makeFiller (W := Toy.W) .check [(none, Toy.vtok (Toy.pass 2))]
      (.annotated (.cls .int) [Toy.vtok (Toy.pass 1)]) = .ok f ∧
    (f.call (.int 5) Toy.s0).2 = ⟨[2, 1], fun _ => []⟩ := ⟨_, rfl, rfl⟩

/-- for a union: Annotated, then pre_bind, then the member's own -/
example : ∃ f, makeFiller (W := Toy.W) .check [(none, Toy.vtok (Toy.pass 2))]
      (.annotated (.union [.annotated (.cls .int) [Toy.vtok (Toy.pass 3)], .annotated (.cls .str) []]) [Toy.vtok (Toy.pass 1)]) = .ok f ∧
    (f.call (.int 5) Toy.s0).2 = ⟨[1, 2, 3], fun _ => []⟩ := ⟨_, rfl, rfl⟩

/-! ### C26 -/

theorem Ann.apply_usable {a : Ann W} (hb : a.bound = false) (t : Tok W) :
    (t.usable a.kind.isBool a.kind.origin ∧ ∃ a', a.apply t = .ok a' ∧ a'.kind = a.kind ∧ a'.bound = false) ∨
    (¬ t.usable a.kind.isBool a.kind.origin ∧ ∃ e, a.apply t = .error e) := by
  unfold Ann.apply
  simp only [hb]
  cases t with
  | style s => left; exact ⟨trivial, _, rfl, rfl, rfl⟩
  | coercion ct =>
    simp only [Tok.usable]
    cases h : getCoercer a.kind.isBool a.kind.origin ct with
    | ok c => left; exact ⟨⟨c, rfl⟩, _, rfl, rfl, rfl⟩
    | error e => right; exact ⟨by simp, e, rfl⟩
  | validation f =>
    simp only [Tok.usable]
    cases h : f a.kind.origin with
    | ok c => left; exact ⟨⟨c, rfl⟩, _, rfl, rfl, rfl⟩
    | error e => right; exact ⟨by simp, e, rfl⟩
  | raises e => right; exact ⟨fun h => h, _, rfl⟩
  | tag n => left; exact ⟨trivial, _, rfl, rfl, hb⟩
  | other => left; exact ⟨trivial, _, rfl, rfl, hb⟩

theorem Ann.applyAll_usable {a : Ann W} (hb : a.bound = false) (ts : List (Tok W)) :
    (∃ a', a.applyAll ts = .ok a') ↔ ∀ t ∈ ts, t.usable a.kind.isBool a.kind.origin := by
  induction ts generalizing a with
  | nil => simp [Ann.applyAll]
  | cons t ts ih =>
    simp only [Ann.applyAll, List.mem_cons, forall_eq_or_imp]
    rcases Ann.apply_usable hb t with ⟨hu, a1, h, hk, hb1⟩ | ⟨hu, e, h⟩
    · simp only [h, hu, true_and]
      rw [ih hb1, hk]
    · simp [h, hu]

theorem tokCoercers_eq_nil {ib : Bool} {o : Option W.Cls} {ts : List (Tok W)} (hu : ∀ t ∈ ts, t.usable ib o) :
    tokCoercers ib o ts = [] ↔ ts.all (fun t => !t.isCoercion) = true := by
  rw [tokCoercers, List.filterMap_eq_nil_iff, List.all_eq_true]
  constructor
  · intro h t ht
    have h1 := h t ht
    have h2 := hu t ht
    cases t with
    | coercion ct =>
      obtain ⟨c, hc⟩ := h2
      simp [Tok.coercer?, hc] at h1
    | _ => simp [Tok.isCoercion]
  · intro h t ht
    have h1 := h t ht
    cases t <;> simp_all [Tok.isCoercion, Tok.coercer?]

/-- Exactly when a leaf field is legal: every token applies to the type, a hollow field has no coercion token, a strict
field has no abstract class.  In the last two cases the exceptions are ValueError and TypeError. -/
theorem C26_leaf (d : Style) (k : Kind W) (pre args : List (Tok W)) :
    ((∃ b, Ann.make d k pre args = .ok b) ↔
      (∀ t ∈ pre ++ args, t.usable k.isBool k.origin) ∧
      (styleOf d (pre ++ args) = .hollow → (pre ++ args).all (fun t => !t.isCoercion) = true) ∧
      (styleOf d (pre ++ args) = .checkStrict → ∀ c, k.origin = some c → W.isAbstract c = false)) ∧
    ((∀ t ∈ pre ++ args, t.usable k.isBool k.origin) → styleOf d (pre ++ args) = .hollow →
      (pre ++ args).any Tok.isCoercion = true → Ann.make d k pre args = .error .valueError) ∧
    ((∀ t ∈ pre ++ args, t.usable k.isBool k.origin) → styleOf d (pre ++ args) = .checkStrict →
      ∀ c, k.origin = some c → W.isAbstract c = true → Ann.make d k pre args = .error .typeError) := by
  -- the filler after all tokens were applied
  have happ : (∀ t ∈ pre ++ args, t.usable k.isBool k.origin) →
      ∃ a1 a2, Ann.applyAll { kind := k, args := args } pre = .ok a1 ∧ a1.args = args ∧ a1.applyAll args = .ok a2 ∧
        a2.Applied k args (pre ++ args) := by
    intro hu
    obtain ⟨a1, e1⟩ := (Ann.applyAll_usable (a := ({ kind := k, args := args } : Ann W)) rfl pre).2
      (fun t ht => hu t (List.mem_append_left _ ht))
    have g1 := (Ann.applied_new k args).applyAll e1
    obtain ⟨a2, e2⟩ := (Ann.applyAll_usable (a := a1) g1.2.2.2.2.2 args).2
      (fun t ht => by rw [g1.1]; exact hu t (List.mem_append_right _ ht))
    have g2 := g1.applyAll e2
    exact ⟨a1, a2, e1, g1.2.1, e2, by simpa using g2⟩
  have hmake : ∀ {a1 a2 : Ann W}, Ann.applyAll { kind := k, args := args } pre = .ok a1 → a1.args = args →
      a1.applyAll args = .ok a2 → Ann.make d k pre args = match a2.bindBase d with | .error e => .error e | .ok a => a.bindKind := by
    intro a1 a2 e1 ea e2
    simp only [Ann.make, e1, Ann.bind, ea, e2]
    rfl
  have hval : (∀ t ∈ pre ++ args, t.usable k.isBool k.origin) → styleOf d (pre ++ args) = .hollow →
      (pre ++ args).any Tok.isCoercion = true → Ann.make d k pre args = .error .valueError := by
    intro hu hst hany
    obtain ⟨a1, a2, e1, ea, e2, g⟩ := happ hu
    have hne : a2.coercers.isEmpty = false := by
      rw [g.2.2.2.1]
      cases hc : tokCoercers k.isBool k.origin (pre ++ args) with
      | cons => rfl
      | nil =>
        have := (tokCoercers_eq_nil hu).1 hc
        rw [List.any_eq_true] at hany
        obtain ⟨t, ht, h1⟩ := hany
        have := List.all_eq_true.1 this t ht
        simp [h1] at this
    have hs : (if a2.style = Style.default then d else a2.style) = .hollow := by rw [g.2.2.1]; exact hst
    rw [hmake e1 ea e2]
    simp only [Ann.bindBase, g.2.2.2.2.2, hs, hne]
    simp
  have htyp : (∀ t ∈ pre ++ args, t.usable k.isBool k.origin) → styleOf d (pre ++ args) = .checkStrict →
      ∀ c, k.origin = some c → W.isAbstract c = true → Ann.make d k pre args = .error .typeError := by
    intro hu hst c hc hab
    obtain ⟨a1, a2, e1, ea, e2, g⟩ := happ hu
    have hs : (if a2.style = Style.default then d else a2.style) = .checkStrict := by rw [g.2.2.1]; exact hst
    rw [hmake e1 ea e2]
    simp only [Ann.bindBase, g.2.2.2.2.2, hs]
    simp only [Ann.bindKind, g.1]
    cases k <;> simp_all [Kind.origin]
  refine ⟨⟨?_, ?_⟩, hval, htyp⟩
  · rintro ⟨b, hb⟩
    have hb' := hb
    obtain ⟨h1, h2, h3, h4, h5, h6, h7⟩ := Ann.make_ok hb
    have hu : ∀ t ∈ pre ++ args, t.usable k.isBool k.origin := by
      unfold Ann.make at hb
      cases e1 : Ann.applyAll { kind := k, args := args } pre with
      | error e => simp [e1] at hb
      | ok a1 =>
        simp only [e1] at hb
        have g1 := (Ann.applied_new k args).applyAll e1
        unfold Ann.bind at hb
        rw [g1.2.1] at hb
        cases e2 : a1.applyAll args with
        | error e => simp [e2] at hb
        | ok a2 =>
          intro t ht
          rcases List.mem_append.1 ht with ht | ht
          · exact (Ann.applyAll_usable (a := ({ kind := k, args := args } : Ann W)) rfl pre).1 ⟨a1, e1⟩ t ht
          · have := (Ann.applyAll_usable (a := a1) g1.2.2.2.2.2 args).1 ⟨a2, e2⟩ t ht
            rwa [g1.1] at this
    refine ⟨hu, ?_, ?_⟩
    · intro hst
      rw [← tokCoercers_eq_nil hu, ← h3]
      exact h6 (by rw [h2]; exact hst)
    · intro hst; exact h7 (by rw [h2]; exact hst)
  · rintro ⟨hu, hh, hs⟩
    obtain ⟨a1, a2, e1, ea, e2, g⟩ := happ hu
    rw [hmake e1 ea e2]
    have hst : (if a2.style = Style.default then d else a2.style) = styleOf d (pre ++ args) := by rw [g.2.2.1]; rfl
    have hno : ¬ (styleOf d (pre ++ args) = .hollow ∧ (!a2.coercers.isEmpty) = true) := by
      rintro ⟨x, y⟩
      have := (tokCoercers_eq_nil hu).2 (hh x)
      rw [g.2.2.2.1, this] at y
      simp at y
    simp only [Ann.bindBase, g.2.2.2.2.2, hst, hno]
    simp only [Ann.bindKind, g.1]
    cases k with
    | simple c ib =>
      by_cases h : styleOf d (pre ++ args) = .checkStrict
      · simp [h, hs h c rfl]
      · simp [h]
    | noneF c =>
      by_cases h : styleOf d (pre ++ args) = .checkStrict
      · simp [h, hs h c rfl]
      · simp [h]
    | ellipsisF c =>
      by_cases h : styleOf d (pre ++ args) = .checkStrict
      · simp [h, hs h c rfl]
      · simp [h]
    | callable => simp
    | literal id vals => by_cases h : styleOf d (pre ++ args) = .hollow <;> simp [h]

/-- legal, hollow with coercer, strict abstract -/
example : (∃ b, Ann.make (W := Toy.W) .check (.simple .sequenceABC false) [] [Toy.ctok (Toy.ret 1 .none)] = .ok b) ∧
    Ann.make (W := Toy.W) .hollow (.simple .int false) [] [Toy.looseTok] = .error .valueError ∧
    Ann.make (W := Toy.W) .checkStrict (.simple .sequenceABC false) [] [] = .error .typeError := ⟨⟨_, rfl⟩, rfl, rfl⟩

/-- Containers: if the field is legal, all parts are, and a hollow container has only hollow parts. -/
theorem F.bind_wrap_ok {d : Style} {k : WrapKind W} {inner : Ann W} {subs : List (F W)} {f : F W}
    (h : F.bind d (.wrap false k inner subs) = .ok f) :
    ∃ i subs' i', inner.bind d = .ok i ∧ F.bindAll d subs = .ok subs' ∧ wrapFinish k i subs' = .ok i' ∧
      f = .wrap true k i' subs' := by
  simp only [F.bind] at h
  simp at h
  cases h1 : inner.bind d with
  | error e => simp [h1] at h
  | ok i =>
    simp only [h1] at h
    cases h2 : F.bindAll d subs with
    | error e => simp [h2] at h
    | ok subs' =>
      simp only [h2] at h
      cases h3 : wrapFinish k i subs' with
      | error e => simp [h3] at h
      | ok i' =>
        simp only [h3] at h
        cases h
        exact ⟨i, subs', i', rfl, rfl, h3, rfl⟩

theorem F.bindAll_get {d : Style} : ∀ {fs bs : List (F W)}, F.bindAll d fs = .ok bs →
    bs.length = fs.length ∧ ∀ (i : Nat) (f b : F W), fs[i]? = some f → bs[i]? = some b → f.bind d = .ok b
  | [], bs, h => by simp [F.bindAll] at h; subst h; simp
  | f :: fs, bs, h => by
    simp only [F.bindAll] at h
    cases h1 : f.bind d with
    | error e => simp [h1] at h
    | ok b =>
      simp only [h1] at h
      cases h2 : F.bindAll d fs with
      | error e => simp [h2] at h
      | ok bs' =>
        simp only [h2] at h
        cases h
        obtain ⟨hl, hi⟩ := F.bindAll_get h2
        refine ⟨by simp [hl], ?_⟩
        intro i g c hg hc
        cases i with
        | zero => simp at hg hc; subst hg; subst hc; exact h1
        | succ i => exact hi i g c (by simpa using hg) (by simpa using hc)

theorem F.allHollow_iff : ∀ {fs : List (F W)}, F.allHollow fs = true ↔ ∀ f ∈ fs, f.isHollow = true
  | [] => by simp [F.allHollow]
  | f :: fs => by simp [F.allHollow, F.allHollow_iff (fs := fs)]

theorem wrapFinish_style {k : WrapKind W} {i i' : Ann W} {subs : List (F W)} (h : wrapFinish k i subs = .ok i') :
    i'.style = i.style := by
  have hadd : ∀ f, (i.addValidator f).style = i.style := fun _ => rfl
  cases k with
  | typeF b => simp [wrapFinish] at h; subst h; split <;> rfl
  | tupleFix =>
    simp only [wrapFinish] at h
    split at h
    · cases h; split <;> rfl
    · split at h
      · cases h
      · cases h; rfl
  | generic =>
    simp only [wrapFinish] at h
    split at h <;> cases h
    rfl
  | tupleVar | iter | deque | mapping | defaultdict =>
    rcases subs with _ | ⟨f, _ | ⟨g, _ | ⟨h', l⟩⟩⟩ <;> simp only [wrapFinish] at h <;>
      first
      | (cases h; rfl)
      | (split at h
         · cases h; rfl
         · split at h
           · cases h
           · cases h; rfl)

/-- The sub-hints of a container hint, and whether it is a non-specialised generic. -/
def Hint.parts : Hint W → Option (List (Hint W) × Bool)
  | .tupleFix hs => some (hs, false)
  | .tupleVar h => some ([h], false)
  | .iter _ h => some ([h], false)
  | .deque _ h => some ([h], false)
  | .mapping _ k v => some ([k, v], false)
  | .defaultdict _ k v => some ([k, v], false)
  | .generic _ hs => some (hs, true)
  | _ => Option.none

theorem getFs_get : ∀ {hs : List (Hint W)} {fs : List (F W)}, getFs hs = .ok fs →
    fs.length = hs.length ∧ ∀ (i : Nat) (h : Hint W) (f : F W), hs[i]? = some h → fs[i]? = some f → getF h none = .ok f
  | [], fs, h => by simp [getFs] at h; subst h; simp
  | h :: hs, fs, e => by
    simp only [getFs] at e
    cases h1 : getF h none with
    | error e' => simp [h1] at e
    | ok f =>
      simp only [h1] at e
      cases h2 : getFs hs with
      | error e' => simp [h2] at e
      | ok fs' =>
        simp only [h2] at e
        cases e
        obtain ⟨hl, hi⟩ := getFs_get h2
        refine ⟨by simp [hl], ?_⟩
        intro i g c hg hc
        cases i with
        | zero => simp at hg hc; subst hg; subst hc; exact h1
        | succ i => exact hi i g c (by simpa using hg) (by simpa using hc)

theorem getFsLate_get : ∀ (hs : List (Hint W)),
    (getFsLate hs).length = hs.length ∧
    ∀ (i : Nat) (h : Hint W) (f : F W), hs[i]? = some h → (getFsLate hs)[i]? = some f → getF h none = .ok f ∨ ∃ e, f = .failing e
  | [] => by simp [getFsLate]
  | h :: hs => by
    obtain ⟨hl, hi⟩ := getFsLate_get hs
    refine ⟨by simp [getFsLate, hl], ?_⟩
    intro i g c hg hc
    cases i with
    | zero =>
      simp [getFsLate] at hg hc; subst hg
      cases h1 : getF h none with
      | error e => simp [h1] at hc; exact .inr ⟨e, hc.symm⟩
      | ok f => simp [h1] at hc; subst hc; exact .inl rfl
    | succ i => exact hi i g c (by simpa using hg) (by simpa [getFsLate] using hc)

/-- the filler of a container hint -/
theorem getF_parts {h : Hint W} {hs : List (Hint W)} {g : Bool} (hp : h.parts = some (hs, g)) (args : List (Tok W)) {f : F W}
    (hf : getF h (some args) = .ok f) :
    ∃ k c subs, f = F.wrap false k (classAnn c args) subs ∧ subs.length = hs.length ∧ (g = true → k = .generic) ∧
      (∀ b, k ≠ .typeF b) ∧ (k = .tupleFix ∨ k = .generic ∨ (k = .mapping ∨ k = .defaultdict) ∧ subs.length = 2 ∨
        (k = .tupleVar ∨ k = .iter ∨ k = .deque) ∧ subs.length = 1) ∧
      ∀ (i : Nat) (h : Hint W) (f : F W), hs[i]? = some h → subs[i]? = some f → getF h none = .ok f ∨ ∃ e, f = .failing e := by
  have one : ∀ {h : Hint W} {f : F W}, getF h none = .ok f →
      ∀ (i : Nat) (h' : Hint W) (f' : F W), [h][i]? = some h' → [f][i]? = some f' → getF h' none = .ok f' ∨ ∃ e, f' = .failing e := by
    intro h f e i h' f' h1 h2
    cases i with
    | zero => simp at h1 h2; subst h1; subst h2; exact .inl e
    | succ i => simp at h1
  have two : ∀ {h k : Hint W} {f g : F W}, getF h none = .ok f → getF k none = .ok g →
      ∀ (i : Nat) (h' : Hint W) (f' : F W), [h, k][i]? = some h' → [f, g][i]? = some f' → getF h' none = .ok f' ∨ ∃ e, f' = .failing e := by
    intro h k f g e e' i h' f' h1 h2
    rcases i with _ | _ | i
    · simp at h1 h2; subst h1; subst h2; exact .inl e
    · simp at h1 h2; subst h1; subst h2; exact .inl e'
    · simp at h1
  cases h <;> simp only [Hint.parts] at hp <;> try (cases hp; done)
  case tupleFix hs' =>
    cases hp
    simp only [getF] at hf
    cases e : getFs hs with
    | error e' => simp [e] at hf
    | ok fs =>
      simp only [e] at hf; cases hf
      obtain ⟨hl, hi⟩ := getFs_get e
      exact ⟨_, _, _, rfl, hl, by simp, by simp, by simp, fun i h f h1 h2 => .inl (hi i h f h1 h2)⟩
  case generic c hs' =>
    cases hp
    simp only [getF] at hf
    cases hf
    obtain ⟨hl, hi⟩ := getFsLate_get hs
    exact ⟨_, _, _, rfl, hl, by simp, by simp, by simp, hi⟩
  case tupleVar h =>
    cases hp
    simp only [getF] at hf
    cases e : getF h none with
    | error e' => simp [e] at hf
    | ok f' => simp only [e] at hf; cases hf; exact ⟨_, _, _, rfl, rfl, by simp, by simp, by simp, one e⟩
  case iter c h =>
    cases hp
    simp only [getF] at hf
    cases e : getF h none with
    | error e' => simp [e] at hf
    | ok f' => simp only [e] at hf; cases hf; exact ⟨_, _, _, rfl, rfl, by simp, by simp, by simp, one e⟩
  case deque c h =>
    cases hp
    simp only [getF] at hf
    cases e : getF h none with
    | error e' => simp [e] at hf
    | ok f' => simp only [e] at hf; cases hf; exact ⟨_, _, _, rfl, rfl, by simp, by simp, by simp, one e⟩
  case mapping c k v =>
    cases hp
    simp only [getF] at hf
    cases e : getF k none with
    | error e' => simp [e] at hf
    | ok f' =>
      cases e2 : getF v none with
      | error e' => simp [e, e2] at hf
      | ok g' => simp only [e, e2] at hf; cases hf; exact ⟨_, _, _, rfl, rfl, by simp, by simp, by simp, two e e2⟩
  case defaultdict c k v =>
    cases hp
    simp only [getF] at hf
    cases e : getF k none with
    | error e' => simp [e] at hf
    | ok f' =>
      cases e2 : getF v none with
      | error e' => simp [e, e2] at hf
      | ok g' => simp only [e, e2] at hf; cases hf; exact ⟨_, _, _, rfl, rfl, by simp, by simp, by simp, two e e2⟩

/-- A legal container field: every part is legal on its own; if the container is hollow, or is a non-specialised generic,
then every part is hollow. -/
theorem container_legal {d : Style} {h : Hint W} {hs : List (Hint W)} {g : Bool} {args : List (Tok W)} {f : F W}
    (hp : h.parts = some (hs, g)) (hf : makeFiller d [] (.annotated h args) = .ok f) :
    ∀ p ∈ hs, ∃ fp, makeFiller d [] p = .ok fp ∧ (g = true ∨ styleOf d args = .hollow → fp.isHollow = true) := by
  simp only [makeFiller, getFiller, getF] at hf
  cases e : getF h (some args) with
  | error e' => simp [e] at hf
  | ok f0 =>
    simp only [e, F.applyPre] at hf
    obtain ⟨k, c, subs, rfl, hl, hg, hty, hshape, hi⟩ := getF_parts hp args e
    obtain ⟨i, subs', i', hb, hsb, hfin, rfl⟩ := F.bind_wrap_ok hf
    obtain ⟨hl', hi'⟩ := F.bindAll_get hsb
    have hstyle : i.style = styleOf d args := by
      have := Ann.bind_ok (Ann.applied_new (classKind c) args) hb
      simpa using this.2.1
    have hall : g = true ∨ styleOf d args = .hollow → ∀ b ∈ subs', b.isHollow = true := by
      intro hgs
      rw [← F.allHollow_iff]
      rcases hshape with rfl | rfl | ⟨hk, h2⟩ | ⟨hk, h1⟩
      · rcases hgs with hgs | hgs
        · exact absurd (hg hgs) (by simp)
        · rw [← hstyle] at hgs
          simp only [wrapFinish] at hfin
          cases hh : F.allHollow subs' with
          | true => rfl
          | false => simp [hh, hgs] at hfin
      · simp only [wrapFinish] at hfin
        cases hh : F.allHollow subs' with
        | true => rfl
        | false => simp [hh] at hfin
      · rcases hgs with hgs | hgs
        · exact absurd (hg hgs) (by rcases hk with rfl | rfl <;> simp)
        · rw [← hstyle] at hgs
          rw [h2] at hl'
          obtain ⟨x, y, rfl⟩ : ∃ x y, subs' = [x, y] := by
            rcases subs' with _ | ⟨x, _ | ⟨y, _ | _⟩⟩ <;> simp at hl'
            exact ⟨x, y, rfl⟩
          cases hh : x.isHollow && y.isHollow with
          | true => simpa [F.allHollow] using hh
          | false => rcases hk with rfl | rfl <;> simp [wrapFinish, hh, hgs] at hfin <;> simp_all
      · rcases hgs with hgs | hgs
        · exact absurd (hg hgs) (by rcases hk with rfl | rfl | rfl <;> simp)
        · rw [← hstyle] at hgs
          rw [h1] at hl'
          obtain ⟨x, rfl⟩ : ∃ x, subs' = [x] := by
            rcases subs' with _ | ⟨x, _ | _⟩ <;> simp at hl'
            exact ⟨x, rfl⟩
          cases hh : x.isHollow with
          | true => simp [F.allHollow, hh]
          | false => rcases hk with rfl | rfl | rfl <;> simp [wrapFinish, hh, hgs] at hfin
    intro p hpm
    obtain ⟨j, hj⟩ := List.mem_iff_getElem?.1 hpm
    have hjl : j < hs.length := by
      rw [List.getElem?_eq_some_iff] at hj; exact hj.1
    obtain ⟨fs, hfs⟩ : ∃ fs, subs[j]? = some fs := ⟨_, List.getElem?_eq_getElem (by omega)⟩
    obtain ⟨fb, hfb⟩ : ∃ fb, subs'[j]? = some fb := ⟨_, List.getElem?_eq_getElem (by omega)⟩
    have hbind := hi' j fs fb hfs hfb
    rcases hi j p fs hj hfs with hget | ⟨e', rfl⟩
    · refine ⟨fb, by simp [makeFiller, getFiller, hget, F.applyPre, hbind], fun hgs => ?_⟩
      exact hall hgs fb (List.mem_of_getElem? hfb)
    · simp [F.bind] at hbind

/-- `List[Annotated[int, check]]` in a hollow class is rejected; in a checking class it is legal; `Iterable[int]` in a
checking class is rejected -/
example : makeFiller (W := Toy.W) .hollow [] (.iter .list (.annotated (.cls .int) [.style .check])) = .error .typeError ∧
    (∃ f, makeFiller (W := Toy.W) .check [] (.annotated (.iter .list (.cls .int)) []) = .ok f) ∧
    makeFiller (W := Toy.W) .check [] (.generic .sequenceABC [.cls .int]) = .error .typeError := ⟨rfl, ⟨_, rfl⟩, rfl⟩

/-- A union field without tokens of its own is legal only if every member is. -/
theorem C26_union_members {d : Style} {hs : List (Hint W)} {f : F W} (hf : makeFiller d [] (.union hs) = .ok f) :
    ∀ p ∈ hs, ∃ fp, makeFiller d [] p = .ok fp := by
  simp only [makeFiller, getFiller, getF] at hf
  cases e : getFs hs with
  | error e' => simp [e] at hf
  | ok fs =>
    simp only [e, F.applyPre, F.bind] at hf
    simp at hf
    cases e2 : F.bindUnion d [] fs with
    | error e' => simp [e2] at hf
    | ok bs =>
      clear hf
      induction hs generalizing fs bs with
      | nil => simp
      | cons h hs ih =>
        simp only [getFs] at e
        cases h1 : getF h none with
        | error e' => simp [h1] at e
        | ok f =>
          simp only [h1] at e
          cases h2 : getFs hs with
          | error e' => simp [h2] at e
          | ok fs' =>
            simp only [h2] at e
            cases e
            simp only [F.bindUnion, F.applyBind_nil] at e2
            cases h3 : f.bind d with
            | error e' => simp [h3] at e2
            | ok b =>
              simp only [h3] at e2
              cases h4 : F.bindUnion d [] fs' with
              | error e' => simp [h4] at e2
              | ok bs' =>
                intro p hp
                rcases List.mem_cons.1 hp with rfl | hp
                · exact ⟨b, by simp [makeFiller, getFiller, h1, F.applyPre, h3]⟩
                · exact ih fs' h2 bs' h4 p hp

/-- Tokens on, and checking of, hints that are no known kind of type are rejected with TypeError: tokens in `Annotated`
when the hint is resolved; the default style of a checking class at binding; tokens from `pre_bind` when applied. -/
theorem C26_uninterpretable (d : Style) (h : Hint W) (hu : h.uninterpretable = true) :
    (∀ toks : List (Tok W), toks ≠ [] → makeFiller d [] (.annotated h toks) = .error .typeError) ∧
    ((∀ h' ts, h ≠ .annotated h' ts) →
      (d ≠ .hollow → makeFiller d [] h = .error .typeError) ∧
      (∀ t (pre : List (Option Int × Tok W)), makeFiller d ((none, t) :: pre) h = .error .typeError) ∧
      ∃ f, makeFiller .hollow [] h = .ok f) := by
  have key : ∀ h : Hint W, h.uninterpretable = true →
      (∀ toks : List (Tok W), toks ≠ [] → getF h (some toks) = .error .typeError) ∧ getF h (some []) = .ok (.dumb false) := by
    intro h
    induction h using Hint.rec (motive_2 := fun _ => True) with
    | «opaque» => intro _; simp [getF]
    | annotated => intro _; simp [getF]
    | newType h ih => intro hu; simpa [getF] using ih (by simpa [Hint.uninterpretable] using hu)
    | nil => trivial
    | cons => trivial
    | _ => intro hu; simp [Hint.uninterpretable] at hu
  refine ⟨?_, ?_⟩
  · intro toks hne
    simp [makeFiller, getFiller, getF, (key h hu).1 toks hne]
  · intro hna
    have hget : getFiller h = .ok (.dumb false) := by
      unfold getFiller
      cases h with
      | «opaque» => simp [getF]
      | annotated h' ts => exact absurd rfl (hna h' ts)
      | newType h => simpa [getF] using (key h (by simpa [Hint.uninterpretable] using hu)).2
      | _ => simp [Hint.uninterpretable] at hu
    refine ⟨?_, ?_, ?_⟩
    · intro hd; simp [makeFiller, hget, F.applyPre, F.bind, hd]
    · intro t pre; simp [makeFiller, hget, F.applyPre, F.applySub, F.withSub, F.apply]
    · exact ⟨.dumb true, by simp [makeFiller, hget, F.applyPre, F.bind]⟩

example : (Hint.newType (W := Toy.W) .opaque).uninterpretable = true := rfl

theorem Ann.bind_bound {a b : Ann W} {d : Style} (h : a.bind d = .ok b) : b.bound = true := by
  unfold Ann.bind at h
  cases h1 : a.applyAll a.args with
  | error e => simp [h1] at h
  | ok a1 =>
    simp only [h1] at h
    cases h2 : a1.bindBase d with
    | error e => simp [h2] at h
    | ok a2 =>
      simp only [h2] at h
      have : a2.bound = true := by
        unfold Ann.bindBase at h2
        split at h2
        · cases h2
        · simp only at h2
          generalize (if a1.style = Style.default then d else a1.style) = st at h2
          split at h2
          · cases h2
          · cases h2; rfl
      unfold Ann.bindKind at h
      split at h <;> (try split at h) <;> first | (cases h; done) | (cases h; exact this)

/-- Once bound, a filler refuses further tokens (RuntimeError; the filler of an uninterpretable hint: TypeError, as
before binding) and a second binding (RuntimeError). -/
theorem C26_after_bind {d : Style} {pre : List (Option Int × Tok W)} {h : Hint W} {f : F W}
    (hf : makeFiller d pre h = .ok f) :
    (∀ t, f.apply t = .error .runtimeError ∨ (f = .dumb true ∧ f.apply t = .error .typeError)) ∧
    (∀ d', f.bind d' = .error .runtimeError) := by
  unfold makeFiller at hf
  cases e : getFiller h with
  | error e' => simp [e] at hf
  | ok f0 =>
    simp only [e] at hf
    cases e2 : f0.applyPre pre with
    | error e' => simp [e2] at hf
    | ok f1 =>
      simp only [e2] at hf
      clear e e2
      cases f1 with
      | dumb b =>
        simp only [F.bind] at hf
        split at hf
        · cases hf
        · split at hf
          · cases hf
          · cases hf; simp [F.apply, F.bind]
      | failing e => simp [F.bind] at hf
      | ann a =>
        simp only [F.bind] at hf
        cases h1 : a.bind d with
        | error e => simp [h1, Except.map] at hf
        | ok b =>
          simp only [h1, Except.map] at hf
          cases hf
          have hb := Ann.bind_bound h1
          refine ⟨fun t => .inl (by simp [F.apply, Ann.apply, hb, Except.map]), fun d' => ?_⟩
          have : b.bind d' = .error .runtimeError := by
            unfold Ann.bind
            cases hargs : b.args with
            | nil => simp [Ann.applyAll, Ann.bindBase, hb]
            | cons t ts => simp [Ann.applyAll, Ann.apply, hb]
          simp [F.bind, this, Except.map]
      | union b args app subs =>
        simp only [F.bind] at hf
        split at hf
        · cases hf
        · cases h1 : F.bindUnion d (args ++ app) subs with
          | error e => simp [h1] at hf
          | ok bs =>
            simp only [h1] at hf
            cases hf
            exact ⟨fun t => .inl (by simp [F.apply]), fun d' => by simp [F.bind]⟩
      | wrap b k inner subs =>
        cases b with
        | true => simp [F.bind] at hf
        | false =>
          obtain ⟨i, subs', i', hb, hsb, hfin, rfl⟩ := F.bind_wrap_ok hf
          have hbd : i'.bound = true := by
            have hb' := Ann.bind_bound hb
            revert hfin
            cases k with
            | typeF b => simp only [wrapFinish]; intro h; cases h; split <;> exact hb'
            | tupleFix =>
              simp only [wrapFinish]
              intro h
              split at h
              · cases h; split <;> exact hb'
              · split at h
                · cases h
                · cases h; exact hb'
            | generic => simp only [wrapFinish]; intro h; split at h <;> cases h; exact hb'
            | tupleVar | iter | deque | mapping | defaultdict =>
              intro h
              rcases subs' with _ | ⟨f, _ | ⟨g, _ | ⟨h', l⟩⟩⟩ <;> simp only [wrapFinish] at h <;>
                first
                | (cases h; exact hb')
                | (split at h
                   · cases h; exact hb'
                   · split at h
                     · cases h
                     · cases h; exact hb')
          exact ⟨fun t => .inl (by simp [F.apply, Ann.apply, hbd, Except.map]), fun d' => by simp [F.bind]⟩

example : ∃ f, makeFiller (W := Toy.W) .check [] (.iter .list (.cls .int)) = .ok f ∧
    f.apply (.tag 0) = .error .runtimeError := ⟨_, rfl, rfl⟩

/-! ### C42 -/

/-- None, Any, bare generics, bare Type and NewTypes resolve like NoneType, object, the origin class, type and the
supertype, with and without tokens (for a NewType: unless the supertype is an `Annotated`). -/
theorem C42_aliases (toks : List (Tok W)) :
    (getFiller (.none : Hint W) = getFiller (.cls W.noneCls) ∧
      getFiller (.annotated .none toks) = getFiller (.annotated (.cls W.noneCls) toks)) ∧
    (getFiller (.any : Hint W) = getFiller (.cls W.objectCls) ∧
      getFiller (.annotated .any toks) = getFiller (.annotated (.cls W.objectCls) toks)) ∧
    (∀ c : W.Cls, getFiller (.bareGeneric c) = getFiller (.cls c) ∧
      getFiller (.annotated (.bareGeneric c) toks) = getFiller (.annotated (.cls c) toks)) ∧
    (getFiller (.typeBare : Hint W) = getFiller (.cls W.typeCls) ∧
      getFiller (.annotated .typeBare toks) = getFiller (.annotated (.cls W.typeCls) toks)) ∧
    (∀ h : Hint W, (∀ h' ts, h ≠ .annotated h' ts) → getFiller (.newType h) = getFiller h ∧
      getFiller (.annotated (.newType h) toks) = getFiller (.annotated h toks)) := by
  refine ⟨⟨by simp [getFiller, getF], by simp [getFiller, getF]⟩, ⟨by simp [getFiller, getF], by simp [getFiller, getF]⟩,
    fun c => ⟨by simp [getFiller, getF], by simp [getFiller, getF]⟩, ⟨by simp [getFiller, getF], by simp [getFiller, getF]⟩, ?_⟩
  intro h hna
  refine ⟨?_, by simp [getFiller, getF]⟩
  have : ∀ h : Hint W, (∀ h' ts, h ≠ .annotated h' ts) → getF h (some []) = getF h none := by
    intro h hna
    cases h with
    | annotated h' ts => exact absurd rfl (hna h' ts)
    | _ => simp [getF]
  simp [getFiller, getF, this h hna]

/-- What the resolved class fillers accept: the documented types, under `check`, whatever the class. -/
theorem C42_accepts {b : Ann W} (v : W.Obj) (s : LState W)
    (hN : W.noneCls ≠ W.boolCls) :
    (Ann.make .check (classKind W.noneCls) [] [] = .ok b →
      (F.ann b).call v s = if W.isNone v then (.ok v, s) else (.error .typeError, s)) ∧
    (∀ (f : F W), makeFiller .check [] .callable = .ok f →
      f.call v s = if W.isCallable v then (.ok v, s) else (.error .typeError, s)) ∧
    (W.isInstance v W.objectCls = true → W.objectCls ≠ W.noneCls → W.objectCls ≠ W.ellipsisCls →
      ∀ (f : F W), makeFiller .check [] .any = .ok f → f.call v s = (.ok v, s)) := by
  refine ⟨?_, ?_, ?_⟩
  · intro hb
    obtain ⟨h1, h2, h3, h4, -⟩ := Ann.make_ok hb
    have hk : classKind W.noneCls = .noneF W.noneCls := by simp [classKind, hN]
    rw [hk] at h1 h3 h4
    have h3' : b.coercers = [] := by simpa [tokCoercers] using h3
    have h4' : b.validators = [] := by simpa [tokValidators, Kind.structural] using h4
    have h2' : b.style = .check := h2
    simp only [F.call, Ann.call_eq]
    unfold M.bind
    rw [Ann.fill_checked b (.inl h2')]
    simp only [h1, Kind.typeCheck, h3', h4', h2']
    by_cases hn : W.isNone v = true <;> simp [hn] <;> rfl
  · intro f hf
    cases hf
    simp only [F.call, Ann.call_eq]
    unfold M.bind
    rw [Ann.fill_checked _ (.inl rfl)]
    simp only [Kind.typeCheck]
    by_cases hn : W.isCallable v = true <;> simp [hn] <;> rfl
  · intro hi ho1 ho2 f hf
    have : ∃ ib, classKind W.objectCls = .simple W.objectCls ib := by
      unfold classKind
      by_cases h1 : W.objectCls = W.boolCls
      · exact ⟨true, by simp [h1]⟩
      · exact ⟨false, by simp [h1, ho1, ho2]⟩
    obtain ⟨ib, hk⟩ := this
    have hf' : makeFiller .check (([] : List (Tok W)).map fun t => (none, t)) (.annotated (.cls W.objectCls) []) = .ok f := by
      simpa [makeFiller, getFiller, getF] using hf
    rw [makeFiller_cls, hk] at hf'
    cases hb : Ann.make .check (.simple W.objectCls ib) [] [] with
    | error e => simp [hb, Except.map] at hf'
    | ok b =>
      simp only [hb, Except.map] at hf'
      cases hf'
      exact ((C20_match hb (.inl rfl) (v := v) (.inr ⟨rfl, hi⟩) s).1 v s).2 (.nil _ _)

mutual
/-- Resolution fails (with TypeError) exactly when tokens are attached to an uninterpretable hint. -/
theorem getF_misplaced : (h : Hint W) →
    ((h.misplaced false = true → getF h none = .error .typeError) ∧ (h.misplaced false = false → ∃ f, getF h none = .ok f)) ∧
    (∀ args : List (Tok W),
      ((!args.isEmpty && h.uninterpretable || h.misplaced true) = true → getF h (some args) = .error .typeError) ∧
      ((!args.isEmpty && h.uninterpretable || h.misplaced true) = false → ∃ f, getF h (some args) = .ok f))
  | .cls c => by simp [getF, Hint.misplaced, Hint.uninterpretable]
  | .none => by simp [getF, Hint.misplaced, Hint.uninterpretable]
  | .any => by simp [getF, Hint.misplaced, Hint.uninterpretable]
  | .callable => by simp [getF, Hint.misplaced, Hint.uninterpretable]
  | .literal _ _ => by simp [getF, Hint.misplaced, Hint.uninterpretable]
  | .typeBare => by simp [getF, Hint.misplaced, Hint.uninterpretable]
  | .typeOf _ => by simp [getF, Hint.misplaced, Hint.uninterpretable]
  | .bareGeneric _ => by simp [getF, Hint.misplaced, Hint.uninterpretable]
  | .generic _ _ => by simp [getF, Hint.misplaced, Hint.uninterpretable]
  | .opaque => by
    refine ⟨by simp [getF, Hint.misplaced], fun args => ?_⟩
    cases args <;> simp [getF, Hint.misplaced, Hint.uninterpretable]
  | .newType h => by
    obtain ⟨-, i2⟩ := getF_misplaced h
    refine ⟨?_, ?_⟩
    · have := i2 []
      simpa [getF, Hint.misplaced] using this
    · intro args
      simpa [getF, Hint.misplaced, Hint.uninterpretable] using i2 args
  | .annotated h ts => by
    obtain ⟨-, i2⟩ := getF_misplaced h
    refine ⟨by simpa [getF, Hint.misplaced] using i2 ts, fun args => ?_⟩
    cases args <;> simp [getF, Hint.misplaced, Hint.uninterpretable]
  | .union hs => by
    obtain ⟨i1, i2⟩ := getFs_misplaced hs
    simp only [getF, Hint.misplaced, Hint.uninterpretable]
    cases hm : Hint.misplacedL hs with
    | true => simp [i1 hm]
    | false => obtain ⟨fs, e⟩ := i2 hm; simp [e]
  | .tupleFix hs => by
    obtain ⟨i1, i2⟩ := getFs_misplaced hs
    simp only [getF, Hint.misplaced, Hint.uninterpretable]
    cases hm : Hint.misplacedL hs with
    | true => simp [i1 hm]
    | false => obtain ⟨fs, e⟩ := i2 hm; simp [e]
  | .tupleVar h => by
    obtain ⟨⟨i1, i2⟩, -⟩ := getF_misplaced h
    simp only [getF, Hint.misplaced, Hint.uninterpretable]
    cases hm : h.misplaced false with
    | true => simp [i1 hm]
    | false => obtain ⟨fs, e⟩ := i2 hm; simp [e]
  | .iter _ h => by
    obtain ⟨⟨i1, i2⟩, -⟩ := getF_misplaced h
    simp only [getF, Hint.misplaced, Hint.uninterpretable]
    cases hm : h.misplaced false with
    | true => simp [i1 hm]
    | false => obtain ⟨fs, e⟩ := i2 hm; simp [e]
  | .deque _ h => by
    obtain ⟨⟨i1, i2⟩, -⟩ := getF_misplaced h
    simp only [getF, Hint.misplaced, Hint.uninterpretable]
    cases hm : h.misplaced false with
    | true => simp [i1 hm]
    | false => obtain ⟨fs, e⟩ := i2 hm; simp [e]
  | .mapping _ k v => by
    obtain ⟨⟨i1, i2⟩, -⟩ := getF_misplaced k
    obtain ⟨⟨j1, j2⟩, -⟩ := getF_misplaced v
    simp only [getF, Hint.misplaced, Hint.uninterpretable]
    cases hm : k.misplaced false with
    | true => simp [i1 hm]
    | false =>
      obtain ⟨fs, e⟩ := i2 hm
      cases hv : v.misplaced false with
      | true => simp [e, j1 hv]
      | false => obtain ⟨gs, e'⟩ := j2 hv; simp [e, e']
  | .defaultdict _ k v => by
    obtain ⟨⟨i1, i2⟩, -⟩ := getF_misplaced k
    obtain ⟨⟨j1, j2⟩, -⟩ := getF_misplaced v
    simp only [getF, Hint.misplaced, Hint.uninterpretable]
    cases hm : k.misplaced false with
    | true => simp [i1 hm]
    | false =>
      obtain ⟨fs, e⟩ := i2 hm
      cases hv : v.misplaced false with
      | true => simp [e, j1 hv]
      | false => obtain ⟨gs, e'⟩ := j2 hv; simp [e, e']
theorem getFs_misplaced : (hs : List (Hint W)) →
    (Hint.misplacedL hs = true → getFs hs = .error .typeError) ∧ (Hint.misplacedL hs = false → ∃ fs, getFs hs = .ok fs)
  | [] => by simp [getFs, Hint.misplacedL]
  | h :: hs => by
    obtain ⟨⟨i1, i2⟩, -⟩ := getF_misplaced h
    obtain ⟨j1, j2⟩ := getFs_misplaced hs
    simp only [getFs, Hint.misplacedL]
    cases hm : h.misplaced false with
    | true => simp [i1 hm]
    | false =>
      obtain ⟨fs, e⟩ := i2 hm
      cases hv : Hint.misplacedL hs with
      | true => simp [e, j1 hv]
      | false => obtain ⟨gs, e'⟩ := j2 hv; simp [e, e']
end

/-- Resolution of a hint succeeds, or fails with TypeError; it fails exactly if tokens are attached to an uninterpretable
hint. -/
theorem C42_total (h : Hint W) :
    (h.misplaced false = true → getFiller h = .error .typeError) ∧
    (h.misplaced false = false → ∃ f, getFiller h = .ok f) := (getF_misplaced h).1

/-- both cases occur -/
example : (Hint.iter (W := Toy.W) .list (.annotated (.newType .opaque) [.tag 1])).misplaced false = true ∧
    (Hint.iter (W := Toy.W) .list (.annotated (.newType (.cls .int)) [.tag 1])).misplaced false = false := ⟨rfl, rfl⟩

/-! ### C18, last clause -/

/-- A checked `str` field whose coercers are all `LiteralEval` never accepts a value through coercion: a value that is
not already of the type is rejected. -/
theorem C18_str_field (lit : String → Except Exc W.Obj) (strCls : W.Cls)
    (hrefl : W.isSub strCls strCls = true)
    (hstr : ∀ v, W.isInstance v strCls = true ↔ (W.strOf v).isSome = true)
    {d : Style} {pre args : List (Tok W)} {b : Ann W}
    (hb : Ann.make d (.simple strCls false) pre args = .ok b)
    (hst : styleOf d (pre ++ args) = .check ∨ styleOf d (pre ++ args) = .checkStrict)
    (hc : ∀ f ∈ tokCoercers false (some strCls) (pre ++ args), ∀ v s w s', Returns (f v) s w s' → LitRun lit v (.ok w))
    {v : W.Obj} (hv : ¬ Fits (styleOf d (pre ++ args)) strCls v) (s : LState W) :
    ∃ e s', (F.ann b).call v s = (.error e, s') := by
  have hno : ∀ v w, LitRun lit v (.ok w) → W.strOf w = none := by
    intro v w h
    generalize hr : (Except.ok w : Except Exc W.Obj) = r at h
    induction h with
    | done v hs => cases hr; exact hs
    | step v t w' r hs hl _ ih => exact ih hr
    | valueError => cases hr
    | other => cases hr
  rcases hr : (F.ann b).call v s with ⟨r, s'⟩
  cases r with
  | error e => exact ⟨e, s', rfl⟩
  | ok w =>
    obtain ⟨l, f, r, v1, s1, x, s2, e, ha, hret, hx, hp⟩ := (C23_first_success hb hst hv s s' w).1 hr
    have hx0 := hno v1 x (hc f (by rw [e]; simp) v1 s1 x s2 hret)
    have : W.isInstance x strCls = true := by
      rcases hx with hx | hx
      · simp [World.isInstance, hx, hrefl]
      · exact hx.2
    rw [hstr, hx0] at this
    cases this

/-- In the concrete world with an evaluator that knows the literals `5` and `'5'`: the field is legal, and its coercer
behaves as required. -/
example :
    let lit : String → Except Exc Toy.TObj := fun t => if t = "5" then .ok (.int 5) else if t = "'5'" then .ok (.str "5")
      else .error .valueError
    let c : Coercer Toy.W := fun v => M.ofExcept (match v with
      | .str "5" => .ok (.int 5) | .str "'5'" => .ok (.int 5) | .str _ => .error .typeError | v => .ok v)
    (∀ v : Toy.TObj, Toy.W.isInstance v .str = true ↔ (Toy.W.strOf v).isSome = true) ∧
    (∃ b, Ann.make (W := Toy.W) .checkStrict (.simple .str false) [] [Toy.ctok c] = .ok b ∧
      ((F.ann b).call (.int 3) Toy.s0).1 = .error .typeError) ∧
    LitRun (W := Toy.W) lit (.str "'5'") (.ok (.int 5)) := by
  refine ⟨?_, ⟨_, rfl, rfl⟩, ?_⟩
  · intro v
    cases v with
    | seq c l => cases c <;> simp [World.isInstance, Toy.W, Toy.isSub, Toy.typeOf]
    | map c l => cases c <;> simp [World.isInstance, Toy.W, Toy.isSub, Toy.typeOf]
    | _ => simp [World.isInstance, Toy.W, Toy.isSub, Toy.typeOf]
  · exact LitRun.step (W := Toy.W) _ "'5'" (Toy.TObj.str "5") _ rfl rfl (.step _ "5" (Toy.TObj.int 5) _ rfl rfl (.done _ rfl))

/-! ### C29 -/

/-- Whatever coercers and validators are attached and whatever was filled before: what a checked `Literal` field stores has
the type and value of a listed literal (the check runs after all validators). -/
theorem C29_sound {d : Style} {id : Nat} {vals : List W.Obj} {pre args : List (Tok W)} {b : Ann W}
    (hb : Ann.make d (.literal id vals) pre args = .ok b)
    (hst : styleOf d (pre ++ args) = .check ∨ styleOf d (pre ++ args) = .checkStrict)
    {v w : W.Obj} {s s' : LState W} (h : (F.ann b).call v s = (.ok w, s')) : W.hashable w = true ∧ IsLiteral vals w := by
  obtain ⟨-, -, -, h4, -⟩ := Ann.make_ok hb
  have hnh : styleOf d (pre ++ args) ≠ .hollow := by rcases hst with h | h <;> rw [h] <;> simp
  obtain ⟨x, s1, -, hp⟩ := (fill_stages b v w s s').1 h
  rw [h4] at hp
  simp only [Kind.structural, hnh, if_false] at hp
  generalize tokValidators (Kind.literal id vals).origin (pre ++ args) = l at hp
  clear h4 h
  induction l generalizing x s1 with
  | nil =>
    cases hp with
    | cons h1 h2 =>
      cases h2
      obtain ⟨rfl, h3⟩ := literalValidator_ok h1
      exact h3
  | cons f l ih =>
    cases hp with
    | cons h1 h2 => exact ih _ _ h2

/-- a `Literal["a"]` field with a coercer that always returns `"a"` and a validator that returns 1: rejected -/
example : ∃ b, Ann.make (W := Toy.W) .check (.literal 0 [.str "a"]) []
      [Toy.ctok fun _ => M.pure (.str "a"), Toy.vtok fun _ => M.pure (.int 1)] = .ok b ∧
    ((F.ann b).call .none Toy.s0).1 = .error .valueError := ⟨_, rfl, rfl⟩

/-- ... and without that validator stored -/
example : ∃ b, Ann.make (W := Toy.W) .check (.literal 0 [.str "a"]) []
      [Toy.ctok fun _ => M.pure (.str "a"), Toy.vtok (Toy.pass 1)] = .ok b ∧
    ((F.ann b).call .none Toy.s0).1 = .ok (.str "a") := ⟨_, rfl, rfl⟩

end Records
