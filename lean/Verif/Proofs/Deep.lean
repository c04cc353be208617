import Verif.Spec.Deep
import Verif.Props.Union
import Verif.Props.Container
/-
Helper lemmas for deep conformance (C38, C39).
-/
set_option linter.unusedSimpArgs false
namespace Records
variable {W : World}

theorem noCoercers_of {ib : Bool} {o : Option W.Cls} {ts : List (Tok W)} (h : ts.all (fun t => !t.isCoercion) = true) :
    tokCoercers ib o ts = [] := by
  rw [tokCoercers, List.filterMap_eq_nil_iff]
  intro t ht
  have := List.all_eq_true.1 h t ht
  cases t <;> simp_all [Tok.coercer?, Tok.isCoercion]

theorem noValidators_of {o : Option W.Cls} {ts : List (Tok W)} (h : ts.all (fun t => !t.isValidation) = true) :
    tokValidators o ts = [] := by
  rw [tokValidators, List.filterMap_eq_nil_iff]
  intro t ht
  have := List.all_eq_true.1 h t ht
  cases t <;> simp_all [Tok.validator?, Tok.isValidation]

/-- conformance to a leaf kind -/
def KindConf (st : Style) : Kind W → W.Obj → Prop
  | .simple c _, v => Fits st c v
  | .noneF _, v => W.isNone v = true
  | .ellipsisF _, v => W.isEllipsis v = true
  | .callable, v => W.isCallable v = true
  | .literal _ vals, v => W.hashable v = true ∧ IsLiteral vals v

theorem classConf_kind (hW : Sane W) (st : Style) (c : W.Cls) (v : W.Obj) :
    (st = .hollow ∨ KindConf st (classKind c) v) ↔ ClassConf st c v := by
  unfold ClassConf classKind
  apply or_congr_right
  by_cases h1 : c = W.boolCls
  · subst h1
    simp [KindConf, hW.boolNotNone, hW.boolNotEllipsis]
  · by_cases h2 : c = W.noneCls
    · simp [h1, h2, KindConf, Ne.symm hW.boolNotNone]
    · by_cases h3 : c = W.ellipsisCls
      · simp [h1, h2, h3, KindConf, Ne.symm hW.boolNotEllipsis, Ne.symm hW.noneNotEllipsis]
      · simp only [h1, h2, h3, if_false]
        split
        · simp [KindConf]
        · split
          · simp [KindConf]
          · split
            · rename_i h; exact absurd (hW.noneFinal c h) h2
            · simp [KindConf]

/-- every result of the filler has the property -/
def Sound (P : W.Obj → Prop) (b : F W) : Prop := ∀ v s w s', b.call v s = (.ok w, s') → P w

/-- the filler accepts exactly the values with the property, unchanged; it rejects the others with an ordinary exception -/
def Decides (P : W.Obj → Prop) (b : F W) : Prop := ∀ v s,
  (P v ∧ ∃ s', b.call v s = (.ok v, s')) ∨ (¬ P v ∧ ∃ e s', e.isException = true ∧ b.call v s = (.error e, s'))

theorem Sound.congr {P Q : W.Obj → Prop} {b : F W} (h : Sound P b) (hpq : ∀ v, P v → Q v) : Sound Q b :=
  fun v s w s' hc => hpq w (h v s w s' hc)

theorem Decides.congr {P Q : W.Obj → Prop} {b : F W} (h : Decides P b) (hpq : ∀ v, P v ↔ Q v) : Decides Q b := by
  intro v s
  rcases h v s with h | h
  · exact .inl ⟨(hpq v).1 h.1, h.2⟩
  · exact .inr ⟨fun hq => h.1 ((hpq v).2 hq), h.2⟩

theorem style_cases (st : Style) : st = .default ∨ st = .hollow ∨ (st = .check ∨ st = .checkStrict) := by
  cases st <;> simp

theorem leaf_sound {d : Style} {k : Kind W} {toks args : List (Tok W)} {a : Ann W} (ha : Ann.make d k toks args = .ok a)
    (hv : (toks ++ args).all (fun t => !t.isValidation) = true)
    (hc : k.isSingleton = true → (toks ++ args).all (fun t => !t.isCoercion) = true) :
    Sound (fun w => styleOf d (toks ++ args) = .hollow ∨ KindConf (styleOf d (toks ++ args)) k w) (.ann a) := by
  intro v s w s' h
  obtain ⟨h1, h2, h3, h4, -⟩ := Ann.make_ok ha
  rw [noValidators_of hv, List.nil_append] at h4
  rcases style_cases (styleOf d (toks ++ args)) with hs | hs | hs
  · exfalso
    obtain ⟨k', hf⟩ := F.call_ok.1 h
    simp only [F.fill] at hf
    unfold Ann.fill at hf
    simp [h2, hs, M.throw] at hf
  · exact .inl hs
  · right
    obtain ⟨k', hf⟩ := F.call_ok.1 h
    simp only [F.fill] at hf
    cases hk : k with
    | simple c ib =>
      obtain ⟨x, s1, hx, hp⟩ := fill_simple_ok (by rw [h1, hk]) (by rw [h2]; exact hs) hf
      rw [h4, hk] at hp
      cases hp
      rw [h2] at hx
      exact hx
    | noneF c | ellipsisF c | callable =>
      have := C22_no_coercers (k := k) (by rw [hk]; rfl) ha hs (hc (by rw [hk]; rfl))
        (by rw [noValidators_of hv]; simp) h
      rw [hk] at this
      exact this
    | literal id vals =>
      have hnh : styleOf d (toks ++ args) ≠ .hollow := by rcases hs with h | h <;> rw [h] <;> simp
      have h4' : a.validators = [literalValidator id vals] := by rw [h4, hk]; simp [Kind.structural, hnh]
      have key : ∀ x k s1, validate a.validators x k s1 = (.ok (w, k'), s') → W.hashable w = true ∧ IsLiteral vals w := by
        intro x k s1 hval
        have hp := (validate_ok.1 hval).2
        rw [h4'] at hp
        cases hp with
        | cons hr hn =>
          cases hn
          obtain ⟨e1, e2, e3⟩ := literalValidator_ok hr
          subst e1
          exact ⟨e2, e3⟩
      rw [Ann.fill_checked a (by rw [h2]; exact hs)] at hf
      split at hf
      · exact key _ _ _ hf
      · split at hf
        · exact key _ _ _ hf
        · split at hf
          · cases hf
          · obtain ⟨x, s1, -, hx⟩ := M.bind_eq_ok hf
            exact key _ _ _ hx

theorem styleOf_ne_default {d : Style} (hd : d ≠ .default) (ts : List (Tok W)) : styleOf d ts ≠ .default := by
  unfold styleOf; split
  · exact hd
  · assumption

theorem leaf_decides {d : Style} (hd : d ≠ .default) {k : Kind W} {toks args : List (Tok W)} {a : Ann W}
    (ha : Ann.make d k toks args = .ok a)
    (hp : (toks ++ args).all (fun t => !t.isCoercion && !t.isValidation) = true) :
    Decides (fun w => styleOf d (toks ++ args) = .hollow ∨ KindConf (styleOf d (toks ++ args)) k w) (.ann a) := by
  have hc : (toks ++ args).all (fun t => !t.isCoercion) = true := by
    rw [List.all_eq_true] at hp ⊢; intro t ht; have := hp t ht; simp at this; simp [this]
  have hv : (toks ++ args).all (fun t => !t.isValidation) = true := by
    rw [List.all_eq_true] at hp ⊢; intro t ht; have := hp t ht; simp at this; simp [this]
  intro v s
  obtain ⟨h1, h2, h3, h4, -⟩ := Ann.make_ok ha
  rw [noValidators_of hv, List.nil_append] at h4
  rw [noCoercers_of hc] at h3
  rcases style_cases (styleOf d (toks ++ args)) with hs | hs | hs
  · exact absurd hs (styleOf_ne_default hd _)
  · left
    refine ⟨.inl hs, s, ?_⟩
    have h4' : a.validators = [] := by rw [h4]; cases k <;> simp [Kind.structural, hs]
    rw [F.call_ok]
    refine ⟨.hollow, ?_⟩
    simp only [F.fill]
    unfold Ann.fill
    simp only [h2, hs, h4']
    rfl
  · have hnh : styleOf d (toks ++ args) ≠ .hollow := by rcases hs with h | h <;> rw [h] <;> simp
    have hf := Ann.fill_checked a (by rw [h2]; exact hs) v s
    rw [h1, h2, h3] at hf
    have fin : ∀ {P : Prop}, (P → ∃ s', (F.ann a).call v s = (.ok v, s')) →
        (¬ P → (∃ s', (F.ann a).call v s = (.error .typeError, s') ∨ (F.ann a).call v s = (.error .valueError, s'))) →
        ((styleOf d (toks ++ args) = .hollow ∨ P) ∧ ∃ s', (F.ann a).call v s = (.ok v, s')) ∨
        (¬ (styleOf d (toks ++ args) = .hollow ∨ P) ∧ ∃ e s', e.isException = true ∧ (F.ann a).call v s = (.error e, s')) := by
      intro P p1 p2
      by_cases hP : P
      · exact .inl ⟨.inr hP, p1 hP⟩
      · refine .inr ⟨fun h => h.elim hnh hP, ?_⟩
        obtain ⟨s', h | h⟩ := p2 hP
        · exact ⟨.typeError, s', rfl, h⟩
        · exact ⟨.valueError, s', rfl, h⟩
    cases hk : k with
    | simple c ib =>
      have h4' : a.validators = [] := by rw [h4, hk]; rfl
      refine fin (fun hP => ⟨s, ?_⟩) (fun hP => ⟨s, .inl ?_⟩)
      · rw [F.call_ok]
        rw [hk, h4'] at hf
        rcases fits_typeCheck (ib := ib) (s := s) (show Fits _ c v from hP) with ⟨g, -⟩ | ⟨g, g2, -⟩
        · exact ⟨.noCoerceStrict, by simp only [F.fill]; rw [hf]; simp only [g, if_true]; rfl⟩
        · exact ⟨.noCoerce, by simp only [F.fill]; rw [hf]; simp only [g, g2]; rfl⟩
      · subst hk
        exact C20_no_coercers ha hs (fun h => hP h) hc s
    | noneF c | ellipsisF c | callable =>
      have h4' : a.validators = [] := by rw [h4, hk]; rfl
      have hsing : k.isSingleton = true := by rw [hk]; rfl
      obtain ⟨t1, t2⟩ := singleton_typeCheck hsing v s
      rw [h4'] at hf
      refine fin (fun hP => ⟨s, ?_⟩) (fun hP => ⟨s, .inl ?_⟩)
      · rw [F.call_ok]
        refine ⟨.noCoerceStrict, ?_⟩
        simp only [F.fill]
        rw [hf, t1 (by rw [hk]; exact hP)]
        rfl
      · rw [F.call_error]
        simp only [F.fill]
        rw [hf, t2 (by rw [hk]; exact hP)]
        simp
    | literal id vals =>
      subst hk
      obtain ⟨g1, g2⟩ := C29_literal ha hs hc hv v s
      exact fin (fun hP => ⟨s, g1 hP⟩) (fun hP => g2 hP)

/-! ### structure of bound fillers -/

theorem applyBind_ann {d : Style} {toks : List (Tok W)} {k : Kind W} {args : List (Tok W)} {b : F W}
    (h : F.applyBind d toks (.ann { kind := k, args := args }) = .ok b) : ∃ a, Ann.make d k toks args = .ok a ∧ b = .ann a := by
  simp only [F.applyBind] at h
  unfold Ann.make
  cases h1 : Ann.applyAll ({ kind := k, args := args } : Ann W) toks with
  | error e => simp [h1] at h
  | ok a =>
    simp only [h1] at h ⊢
    cases h2 : a.bind d with
    | error e => simp [h2, Except.map] at h
    | ok a' => simp only [h2, Except.map] at h; cases h; exact ⟨a', rfl, rfl⟩

theorem applyBind_wrap {d : Style} {toks : List (Tok W)} {k : WrapKind W} {c : W.Cls} {args : List (Tok W)}
    {subs : List (F W)} {b : F W} (h : F.applyBind d toks (.wrap false k (classAnn c args) subs) = .ok b) :
    ∃ a a' bs, Ann.make d (classKind c) toks args = .ok a ∧ F.bindAll d subs = .ok bs ∧ wrapFinish k a bs = .ok a' ∧
      b = .wrap true k a' bs := by
  rw [F.applyBind_eq, F.applyAll_wrap] at h
  unfold Ann.make
  unfold classAnn at h
  cases h1 : Ann.applyAll ({ kind := classKind c, args := args } : Ann W) toks with
  | error e => simp [h1, Except.map] at h
  | ok a =>
    simp only [h1, Except.map] at h ⊢
    obtain ⟨i, subs', i', e1, e2, e3, e4⟩ := F.bind_wrap_ok h
    exact ⟨i, i', subs', e1, e2, e3, e4⟩

theorem applyBind_union {d : Style} {toks args : List (Tok W)} {fs : List (F W)} {b : F W}
    (h : F.applyBind d toks (.union false args [] fs) = .ok b) :
    ∃ bs, F.bindUnion d (args ++ toks) fs = .ok bs ∧ b = .union true args toks bs := by
  simp only [F.applyBind, List.nil_append] at h
  simp at h
  cases h1 : F.bindUnion d (args ++ toks) fs with
  | error e => simp [h1] at h
  | ok bs => simp only [h1] at h; cases h; exact ⟨bs, rfl, rfl⟩

theorem applyBind_dumb {d : Style} {toks : List (Tok W)} {b : F W} (h : F.applyBind d toks (.dumb false) = .ok b) :
    b = .dumb true := by
  simp only [F.applyBind] at h
  split at h
  · cases h
  · simp at h
    split at h <;> cases h
    rfl

/-! ### element loops -/

theorem fillSeq_sound {P : W.Obj → Prop} {f : W.Obj → M W W.Obj} (hf : ∀ v s w s', f v s = (.ok w, s') → P w) :
    ∀ {l : List W.Obj} {s : LState W} {ws : List W.Obj} {s' : LState W}, FillSeq (l.map fun o => (o, f)) s ws s' → ∀ w ∈ ws, P w
  | [], _, _, _, h, w, hw => by cases h; simp at hw
  | o :: l, _, _, _, h, w, hw => by
    cases h with
    | cons h1 h2 =>
      rcases List.mem_cons.1 hw with rfl | hw
      · exact hf _ _ _ _ h1
      · exact fillSeq_sound hf h2 w hw

theorem elemLoop_inv {rebuild : List W.Obj → M W W.Obj} {x w : W.Obj} {es : List (W.Obj × (W.Obj → M W W.Obj))}
    {s s' : LState W} (h : elemLoop true rebuild x es [] s = (.ok w, s')) :
    ∃ ws s1, FillSeq es s ws s1 ∧ ((ws = es.map Prod.fst ∧ w = x) ∨ rebuild ws s1 = (.ok w, s')) := by
  rcases fillSeq_total es s with ⟨ws, s1, hs⟩ | ⟨ws, e, s1, hs⟩
  · refine ⟨ws, s1, hs, ?_⟩
    by_cases hw : ws = es.map Prod.fst
    · rw [elemLoop_same hs hw] at h; cases h; exact .inl ⟨hw, rfl⟩
    · rw [elemLoop_rebuild hs hw] at h; exact .inr h
  · by_cases hw : ws <+: es.map Prod.fst
    · rw [elemLoop_fails hs hw] at h; cases h
    · rw [elemLoop_failsLate hs hw] at h; cases h

theorem map_fst_pair {α β : Type} (l : List α) (f : β) : (l.map fun o => (o, f)).map Prod.fst = l := by
  rw [List.map_map]; exact (List.map_congr_left (fun _ _ => rfl)).trans (List.map_id _)

theorem lift_ok {f : W.St → Except Exc W.Obj × W.St} {s s' : LState W} {w : W.Obj} (h : M.lift f s = (.ok w, s')) :
    ∃ st, f s.user = (.ok w, st) := by
  unfold M.lift at h
  rcases hf : f s.user with ⟨r, st⟩
  rw [hf] at h
  cases h
  exact ⟨st, rfl⟩

theorem ClassConf.fits {st : Style} {c : W.Cls} {v : W.Obj} (h : ClassConf st c v) (hs : st ≠ .hollow) (h1 : c ≠ W.noneCls)
    (h2 : c ≠ W.ellipsisCls) : Fits st c v := by
  unfold ClassConf at h
  simpa [hs, h1, h2] using h

theorem Fits.conf {st : Style} {c : W.Cls} {v : W.Obj} (h : Fits st c v) (h1 : c ≠ W.noneCls)
    (h2 : c ≠ W.ellipsisCls) : ClassConf st c v := by
  unfold ClassConf
  simp [h1, h2, h]

theorem Fits.sub {st : Style} {c : W.Cls} {v : W.Obj} (h : Fits st c v) : W.typeOf v = c ∨ W.isSub (W.typeOf v) c = true :=
  h.imp_right And.right

theorem Fits.of_typeOf {st : Style} {c : W.Cls} {v w : W.Obj} (h : Fits st c v) (he : W.typeOf w = W.typeOf v) : Fits st c w := by
  unfold Fits World.isInstance at *
  rw [he]; exact h

/-- how a bound element-wise filler calls -/
theorem iter_call {k : WrapKind W} {dq : Bool} (hk : k = .iter ∧ dq = false ∨ k = .tupleVar ∧ dq = false ∨ k = .deque ∧ dq = true)
    {a a' : Ann W} {e : F W} (hfin : wrapFinish k a [e] = .ok a') :
    (e.isHollow = true → ∀ v, (F.wrap true k a' [e]).call v = (F.ann a).call v) ∧
    (e.isHollow = false → a.style ≠ .hollow ∧
      ∀ v, (F.wrap true k a' [e]).call v = M.bind ((F.ann a).call v) (iterValidator dq e.call)) := by
  constructor
  · intro hh v
    rw [call_wrap]
    rcases hk with ⟨rfl, -⟩ | ⟨rfl, -⟩ | ⟨rfl, -⟩ <;> simp [wrapFinish, hh] at hfin <;> rw [hfin]
  · intro hh
    have : a.style ≠ .hollow ∧ a' = a.addValidator (iterValidator dq e.call) := by
      rcases hk with ⟨rfl, rfl⟩ | ⟨rfl, rfl⟩ | ⟨rfl, rfl⟩ <;> simp only [wrapFinish, hh] at hfin <;>
        simp only [Bool.false_eq_true, if_false] at hfin <;> split at hfin <;>
        first | (cases hfin; done) | (cases hfin; exact ⟨by assumption, rfl⟩)
    refine ⟨this.1, fun v => ?_⟩
    rw [this.2, call_wrap_add]

theorem iter_sound {k : WrapKind W} {dq : Bool} (hk : k = .iter ∧ dq = false ∨ k = .tupleVar ∧ dq = false ∨ k = .deque ∧ dq = true)
    {a a' : Ann W} {e : F W} (hfin : wrapFinish k a [e] = .ok a') {st : Style} (hst : a.style = st) {c : W.Cls}
    (ha : Sound (ClassConf st c) (.ann a)) {ex : Bool} (hc : Container (GoodIter ex) c) {P : W.Obj → Prop} (he : Sound P e)
    (hhol : e.isHollow = true → ∀ v, P v) :
    Sound (fun w => st = .hollow ∨ (ClassConf st c w ∧ ∀ o ∈ W.elems w, P o)) (.wrap true k a' [e]) := by
  intro v s w s' h
  obtain ⟨i1, i2⟩ := iter_call hk hfin
  cases hh : e.isHollow with
  | true =>
    rw [i1 hh v] at h
    exact .inr ⟨ha _ _ _ _ h, fun o _ => hhol hh o⟩
  | false =>
    obtain ⟨hns, hcall⟩ := i2 hh
    rw [hcall v] at h
    obtain ⟨x, s1, hx, hv⟩ := M.bind_eq_ok h
    have hcx := ha _ _ _ _ hx
    rw [hst] at hns
    have hfx := hcx.fits hns hc.1 hc.2.1
    have hg := hc.2.2 _ hfx.sub
    unfold iterValidator at hv
    rw [hg.drains] at hv
    obtain ⟨ws, s2, hs, hw⟩ := elemLoop_inv hv
    have hP := fillSeq_sound he hs
    rw [map_fst_pair] at hw
    right
    rcases hw with ⟨rfl, rfl⟩ | hw
    · exact ⟨hcx, hP⟩
    · obtain ⟨st', hw⟩ := lift_ok hw
      cases dq with
      | true =>
        obtain ⟨g1, g2⟩ := hg.mkDeque _ _ _ _ _ hw
        exact ⟨(hfx.of_typeOf g1).conf hc.1 hc.2.1, fun o ho => hP o (g2 o ho)⟩
      | false =>
        obtain ⟨g1, g2, -⟩ := hg.mkIter _ _ _ _ hw
        exact ⟨(hfx.of_typeOf g1).conf hc.1 hc.2.1, fun o ho => hP o (g2 o ho)⟩

/-- a loop over elements that are accepted unchanged or rejected -/
theorem elemLoop_decides {dr : Bool} {rebuild : List W.Obj → M W W.Obj} {x : W.Obj} :
    ∀ (es : List (W.Obj × (W.Obj → M W W.Obj))) (Ps : List Prop) (_ : es.length = Ps.length)
      (_ : ∀ (i : Nat) (e : W.Obj) (f : W.Obj → M W W.Obj) (P : Prop), es[i]? = some (e, f) → Ps[i]? = some P → ∀ s,
        (P ∧ ∃ s', f e s = (.ok e, s')) ∨ (¬ P ∧ ∃ er s', er.isException = true ∧ f e s = (.error er, s'))) (pre : List W.Obj) (s : LState W),
      ((∀ P ∈ Ps, P) ∧ ∃ s', elemLoop dr rebuild x es pre s = (.ok x, s')) ∨
      (¬ (∀ P ∈ Ps, P) ∧ ∃ er s', er.isException = true ∧ elemLoop dr rebuild x es pre s = (.error er, s'))
  | [], [], _, _, pre, s => .inl ⟨by simp, s, rfl⟩
  | [], _ :: _, hl, _, _, _ => by simp at hl
  | _ :: _, [], hl, _, _, _ => by simp at hl
  | (e, f) :: es, P :: Ps, hl, hd, pre, s => by
    simp only [elemLoop]
    rcases hd 0 e f P rfl rfl s with ⟨h1, s1, h2⟩ | ⟨h1, er, s1, h2, h3⟩
    · rw [M.bind_ok h2]
      simp only [if_true]
      rcases elemLoop_decides (dr := dr) (rebuild := rebuild) (x := x) es Ps (by simpa using hl) (fun i e f P he hP => hd (i + 1) e f P he hP) (pre ++ [e]) s1 with
        ⟨g1, g2⟩ | ⟨g1, g2⟩
      · refine .inl ⟨fun Q hQ => ?_, g2⟩
        rcases List.mem_cons.1 hQ with rfl | hQ
        · exact h1
        · exact g1 Q hQ
      · exact .inr ⟨fun h => g1 (fun Q hQ => h Q (List.mem_cons_of_mem _ hQ)), g2⟩
    · rw [M.bind_error h3]
      exact .inr ⟨fun h => h1 (h P List.mem_cons_self), er, s1, h2, rfl⟩

theorem Decides.bind {P Q : W.Obj → Prop} {a : Ann W} {b : F W} (ha : Decides P (.ann a)) {g : Coercer W}
    (hb : ∀ v, b.call v = M.bind ((F.ann a).call v) g)
    (hg : ∀ v s, P v → (Q v ∧ ∃ s', g v s = (.ok v, s')) ∨ (¬ Q v ∧ ∃ e s', e.isException = true ∧ g v s = (.error e, s'))) :
    Decides (fun v => P v ∧ Q v) b := by
  intro v s
  rw [hb v]
  rcases ha v s with ⟨h1, s1, h2⟩ | ⟨h1, e, s1, h2, h3⟩
  · rw [M.bind_ok h2]
    rcases hg v s1 h1 with ⟨g1, g2⟩ | ⟨g1, g2⟩
    · exact .inl ⟨⟨h1, g1⟩, g2⟩
    · exact .inr ⟨fun h => g1 h.2, g2⟩
  · rw [M.bind_error h3]
    exact .inr ⟨fun h => h1 h.1, e, s1, h2, rfl⟩

theorem iter_decides {k : WrapKind W} {dq : Bool} (hk : k = .iter ∧ dq = false ∨ k = .tupleVar ∧ dq = false ∨ k = .deque ∧ dq = true)
    {a a' : Ann W} {e : F W} (hfin : wrapFinish k a [e] = .ok a') {st : Style} (hst : a.style = st) {c : W.Cls}
    (ha : Decides (ClassConf st c) (.ann a)) {P : W.Obj → Prop} (he : Decides P e) (hhol : e.isHollow = true → ∀ v, P v) :
    Decides (fun w => st = .hollow ∨ (ClassConf st c w ∧ ∀ o ∈ W.elems w, P o)) (.wrap true k a' [e]) := by
  obtain ⟨i1, i2⟩ := iter_call hk hfin
  cases hh : e.isHollow with
  | true =>
    have : Decides (ClassConf st c) (.wrap true k a' [e]) := by
      intro v s; rw [i1 hh v]; exact ha v s
    refine this.congr fun v => ⟨fun h => .inr ⟨h, fun o _ => hhol hh o⟩, ?_⟩
    rintro (h | h)
    · exact .inl h
    · exact h.1
  | false =>
    obtain ⟨hns, hcall⟩ := i2 hh
    rw [hst] at hns
    refine (Decides.bind (Q := fun w => ∀ o ∈ W.elems w, P o) ha hcall ?_).congr fun v => ⟨.inr, fun h => h.resolve_left hns⟩
    intro v s _
    unfold iterValidator
    have := elemLoop_decides (dr := W.drains (W.typeOf v))
      (rebuild := fun l => M.lift (if dq then W.mkDeque (W.typeOf v) l (W.maxlen v) else W.mkIter (W.typeOf v) l)) (x := v)
      ((W.elems v).map fun o => (o, e.call)) ((W.elems v).map P) (by simp) ?_ [] s
    · have hiff : (∀ Q ∈ (W.elems v).map P, Q) ↔ ∀ o ∈ W.elems v, P o :=
        ⟨fun h o ho => h _ (List.mem_map_of_mem ho), fun h Q hQ => by
          obtain ⟨o, ho, rfl⟩ := List.mem_map.1 hQ
          exact h o ho⟩
      rw [hiff] at this
      exact this
    · intro i o f Q ho hQ s
      rw [List.getElem?_map] at ho hQ
      cases hi : (W.elems v)[i]? with
      | none => simp [hi] at ho
      | some o' =>
        simp only [hi, Option.map_some, Option.some.injEq] at ho hQ
        cases ho; cases hQ
        exact he o s

/-! ### mappings -/

theorem map_call {k : WrapKind W} {dd : Bool} (hk : k = .mapping ∧ dd = false ∨ k = .defaultdict ∧ dd = true)
    {a a' : Ann W} {fk fv : F W} (hfin : wrapFinish k a [fk, fv] = .ok a') :
    ((fk.isHollow && fv.isHollow) = true → ∀ v, (F.wrap true k a' [fk, fv]).call v = (F.ann a).call v) ∧
    ((fk.isHollow && fv.isHollow) = false → a.style ≠ .hollow ∧
      ∀ v, (F.wrap true k a' [fk, fv]).call v = M.bind ((F.ann a).call v) (mapValidator dd fk.call fv.call)) := by
  constructor
  · intro hh v
    rw [call_wrap]
    rcases hk with ⟨rfl, -⟩ | ⟨rfl, -⟩ <;> simp only [wrapFinish, hh, if_true] at hfin <;> cases hfin <;> rfl
  · intro hh
    have : a.style ≠ .hollow ∧ a' = a.addValidator (mapValidator dd fk.call fv.call) := by
      rcases hk with ⟨rfl, rfl⟩ | ⟨rfl, rfl⟩ <;> simp only [wrapFinish, hh] at hfin <;>
        simp only [Bool.false_eq_true, if_false] at hfin <;> split at hfin <;>
        first | (cases hfin; done) | (cases hfin; exact ⟨by assumption, rfl⟩)
    refine ⟨this.1, fun v => ?_⟩
    rw [this.2, call_wrap_add]

theorem pairs_sound {P Q : W.Obj → Prop} {fk fv : W.Obj → M W W.Obj} (hk : ∀ v s w s', fk v s = (.ok w, s') → P w)
    (hv : ∀ v s w s', fv v s = (.ok w, s') → Q w) : ∀ {l : List (W.Obj × W.Obj)} {s : LState W} {ws s'},
    M.mapM (fun (p : W.Obj × W.Obj) => M.bind (fk p.1) fun a => M.bind (fv p.2) fun b => M.pure (a, b)) l s = (.ok ws, s') →
    ws.length = l.length ∧ ∀ q ∈ ws, P q.1 ∧ Q q.2
  | [], _, _, _, h => by cases h; simp
  | (k, v) :: l, s, ws, s', h => by
    simp only [M.mapM, M.bind_assoc, M.pure_bind] at h
    obtain ⟨a, s1, h1, h⟩ := M.bind_eq_ok h
    obtain ⟨b, s2, h2, h⟩ := M.bind_eq_ok h
    obtain ⟨ws', s3, h3, h⟩ := M.bind_eq_ok h
    cases h
    obtain ⟨i1, i2⟩ := pairs_sound hk hv h3
    refine ⟨by simp [i1], ?_⟩
    intro q hq
    rcases List.mem_cons.1 hq with rfl | hq
    · exact ⟨hk _ _ _ _ h1, hv _ _ _ _ h2⟩
    · exact i2 q hq

theorem map_sound {k : WrapKind W} {dd : Bool} (hk : k = .mapping ∧ dd = false ∨ k = .defaultdict ∧ dd = true)
    {a a' : Ann W} {fk fv : F W} (hfin : wrapFinish k a [fk, fv] = .ok a') {st : Style} (hst : a.style = st) {c : W.Cls}
    (ha : Sound (ClassConf st c) (.ann a)) (hc : Container GoodMap c) {P Q : W.Obj → Prop} (hp : Sound P fk) (hq : Sound Q fv)
    (hp' : fk.isHollow = true → ∀ v, P v) (hq' : fv.isHollow = true → ∀ v, Q v) :
    Sound (fun w => st = .hollow ∨ (ClassConf st c w ∧ ∀ p ∈ W.items w, P p.1 ∧ Q p.2)) (.wrap true k a' [fk, fv]) := by
  intro v s w s' h
  obtain ⟨i1, i2⟩ := map_call hk hfin
  cases hh : fk.isHollow && fv.isHollow with
  | true =>
    rw [i1 hh v] at h
    rw [Bool.and_eq_true] at hh
    exact .inr ⟨ha _ _ _ _ h, fun o _ => ⟨hp' hh.1 _, hq' hh.2 _⟩⟩
  | false =>
    obtain ⟨hns, hcall⟩ := i2 hh
    rw [hcall v] at h
    obtain ⟨x, s1, hx, hv⟩ := M.bind_eq_ok h
    have hcx := ha _ _ _ _ hx
    rw [hst] at hns
    have hfx := hcx.fits hns hc.1 hc.2.1
    have hg := hc.2.2 _ hfx.sub
    unfold mapValidator at hv
    obtain ⟨ws, s2, hs, hw⟩ := M.bind_eq_ok hv
    obtain ⟨hl, hP⟩ := pairs_sound hp hq hs
    right
    split at hw
    · obtain ⟨st', hw⟩ := lift_ok hw
      have hres : W.typeOf w = W.typeOf x ∧ ∀ p ∈ W.items w, (∃ q ∈ ws, q.1 = p.1) ∧ ∃ q ∈ ws, q.2 = p.2 := by
        cases dd with
        | true => exact hg.mkDefaultDict _ _ _ _ _ hw
        | false => exact hg.mkMap _ _ _ _ hw
      refine ⟨(hfx.of_typeOf hres.1).conf hc.1 hc.2.1, fun p hp => ?_⟩
      obtain ⟨⟨q1, m1, e1⟩, q2, m2, e2⟩ := hres.2 p hp
      exact ⟨e1 ▸ (hP q1 m1).1, e2 ▸ (hP q2 m2).2⟩
    · rename_i hch
      rw [pairs_changed hl] at hch
      have hch : ws = W.items x := Decidable.not_not.1 hch
      cases hw
      rw [hch] at hP
      exact ⟨hcx, hP⟩

theorem pairs_decides {P Q : W.Obj → Prop} {fk fv : F W} (hk : Decides P fk) (hv : Decides Q fv) :
    ∀ (l : List (W.Obj × W.Obj)) (s : LState W),
    ((∀ p ∈ l, P p.1 ∧ Q p.2) ∧ ∃ s', M.mapM (fun (p : W.Obj × W.Obj) => M.bind (fk.call p.1) fun a => M.bind (fv.call p.2) fun b => M.pure (a, b)) l s = (.ok l, s')) ∨
    (¬ (∀ p ∈ l, P p.1 ∧ Q p.2) ∧ ∃ e s', e.isException = true ∧
      M.mapM (fun (p : W.Obj × W.Obj) => M.bind (fk.call p.1) fun a => M.bind (fv.call p.2) fun b => M.pure (a, b)) l s = (.error e, s'))
  | [], s => .inl ⟨by simp, s, rfl⟩
  | (k, v) :: l, s => by
    simp only [M.mapM, M.bind_assoc, M.pure_bind]
    rcases hk k s with ⟨h1, s1, h2⟩ | ⟨h1, e, s1, h2, h3⟩
    · rw [M.bind_ok h2]
      rcases hv v s1 with ⟨g1, s2, g2⟩ | ⟨g1, e, s2, g2, g3⟩
      · rw [M.bind_ok g2]
        rcases pairs_decides hk hv l s2 with ⟨i1, s3, i2⟩ | ⟨i1, e, s3, i2, i3⟩
        · rw [M.bind_ok i2]
          exact .inl ⟨by simpa using ⟨⟨h1, g1⟩, fun a b hab => i1 (a, b) hab⟩, s3, rfl⟩
        · rw [M.bind_error i3]
          exact .inr ⟨fun h => i1 fun p hp => h p (List.mem_cons_of_mem _ hp), e, s3, i2, rfl⟩
      · rw [M.bind_error g3]
        exact .inr ⟨fun h => g1 (h (k, v) List.mem_cons_self).2, e, s2, g2, rfl⟩
    · rw [M.bind_error h3]
      exact .inr ⟨fun h => h1 (h (k, v) List.mem_cons_self).1, e, s1, h2, rfl⟩

theorem map_decides {k : WrapKind W} {dd : Bool} (hk : k = .mapping ∧ dd = false ∨ k = .defaultdict ∧ dd = true)
    {a a' : Ann W} {fk fv : F W} (hfin : wrapFinish k a [fk, fv] = .ok a') {st : Style} (hst : a.style = st) {c : W.Cls}
    (ha : Decides (ClassConf st c) (.ann a)) {P Q : W.Obj → Prop} (hp : Decides P fk) (hq : Decides Q fv)
    (hp' : fk.isHollow = true → ∀ v, P v) (hq' : fv.isHollow = true → ∀ v, Q v) :
    Decides (fun w => st = .hollow ∨ (ClassConf st c w ∧ ∀ p ∈ W.items w, P p.1 ∧ Q p.2)) (.wrap true k a' [fk, fv]) := by
  obtain ⟨i1, i2⟩ := map_call hk hfin
  cases hh : fk.isHollow && fv.isHollow with
  | true =>
    have : Decides (ClassConf st c) (.wrap true k a' [fk, fv]) := by
      intro v s; rw [i1 hh v]; exact ha v s
    rw [Bool.and_eq_true] at hh
    refine this.congr fun v => ⟨fun h => .inr ⟨h, fun o _ => ⟨hp' hh.1 _, hq' hh.2 _⟩⟩, ?_⟩
    rintro (h | h)
    · exact .inl h
    · exact h.1
  | false =>
    obtain ⟨hns, hcall⟩ := i2 hh
    rw [hst] at hns
    refine (Decides.bind (Q := fun w => ∀ p ∈ W.items w, P p.1 ∧ Q p.2) ha hcall ?_).congr
      fun v => ⟨.inr, fun h => h.resolve_left hns⟩
    intro v s _
    unfold mapValidator
    rcases pairs_decides hp hq (W.items v) s with ⟨h1, s1, h2⟩ | ⟨h1, e, s1, h2, h3⟩
    · refine .inl ⟨h1, s1, ?_⟩
      rw [M.bind_ok h2]
      have : ¬ (((W.items v).zip (W.items v)).any (fun q => decide (q.1.1 ≠ q.2.1) || decide (q.1.2 ≠ q.2.2)) = true) := by
        rw [pairs_changed rfl]; simp
      rw [if_neg this]
      rfl
    · exact .inr ⟨h1, e, s1, h2, by rw [M.bind_error h3]⟩

/-! ### fixed-length tuples -/

/-- sub-filler `i` has property `R` with hint `i` -/
inductive Each (R : Hint W → F W → Prop) : List (Hint W) → List (F W) → Prop
  | nil : Each R [] []
  | cons {h hs b bs} : R h b → Each R hs bs → Each R (h :: hs) (b :: bs)

theorem Each.length {R : Hint W → F W → Prop} {hs : List (Hint W)} {bs : List (F W)} (h : Each R hs bs) : bs.length = hs.length := by
  induction h with
  | nil => rfl
  | cons _ _ ih => simp [ih]

theorem tupleFix_call {a a' : Ann W} {bs : List (F W)} (hfin : wrapFinish .tupleFix a bs = .ok a') :
    (a.style = .hollow → ∀ v, (F.wrap true .tupleFix a' bs).call v = (F.ann a).call v) ∧
    (a.style ≠ .hollow → F.allHollow bs = true → ∀ v,
      (F.wrap true .tupleFix a' bs).call v = M.bind ((F.ann a).call v) (tupleLenValidator bs.length)) ∧
    (a.style ≠ .hollow → F.allHollow bs = false → ∀ v,
      (F.wrap true .tupleFix a' bs).call v = M.bind ((F.ann a).call v) fun x => M.bind (tupleLenValidator bs.length x)
        (tupleValidator (bs.map F.call))) := by
  simp only [wrapFinish] at hfin
  refine ⟨fun hh v => ?_, fun hh ha v => ?_, fun hh ha v => ?_⟩
  · simp only [hh, if_true] at hfin
    split at hfin
    · cases hfin; rw [call_wrap]
    · cases hfin
  · simp only [hh, ha, if_true, if_false] at hfin
    cases hfin
    rw [call_wrap_add]
  · simp only [hh, ha, if_false] at hfin
    simp only [Bool.false_eq_true, if_false] at hfin
    cases hfin
    rw [call_wrap_add, call_addValidator, M.bind_assoc]

theorem tupleLen_cases (n : Nat) (v : W.Obj) (s : LState W) :
    ((W.elems v).length = n ∧ tupleLenValidator n v s = (.ok v, s)) ∨
    ((W.elems v).length ≠ n ∧ tupleLenValidator n v s = (.error .valueError, s)) := by
  unfold tupleLenValidator
  by_cases h : (W.elems v).length = n
  · exact .inl ⟨h, by simp [h, M.pure]⟩
  · exact .inr ⟨h, by simp [h, M.throw]⟩

theorem confZip_hollow {d : Style} : ∀ {hs : List (Hint W)} {bs : List (F W)},
    Each (fun h b => b.isHollow = true → ∀ v, Conf d h none [] v) hs bs → F.allHollow bs = true →
    ∀ l : List W.Obj, l.length = bs.length → ConfZip d hs l
  | _, _, .nil, _, [], _ => by simp only [ConfZip]
  | _, _, .nil, _, _ :: _, hl => by simp at hl
  | _, _, .cons _ _, _, [], hl => by simp at hl
  | _, _, .cons h hs, ha, o :: l, hl => by
    simp only [F.allHollow, Bool.and_eq_true] at ha
    simp only [ConfZip]
    exact ⟨h ha.1 o, confZip_hollow hs ha.2 l (by simpa using hl)⟩

theorem confZip_fill {d : Style} : ∀ {hs : List (Hint W)} {bs : List (F W)},
    Each (fun h b => Sound (Conf d h none []) b) hs bs → ∀ {l : List W.Obj} {s : LState W} {ws s'}, l.length = bs.length →
    FillSeq (l.zip (bs.map F.call)) s ws s' → ConfZip d hs ws
  | _, _, .nil, [], _, _, _, _, hf => by cases hf; simp only [ConfZip]
  | _, _, .nil, _ :: _, _, _, _, hl, _ => by simp at hl
  | _, _, .cons _ _, [], _, _, _, hl, _ => by simp at hl
  | _, _, .cons h hs, o :: l, _, _, _, hl, hf => by
    simp only [List.map_cons, List.zip_cons_cons] at hf
    cases hf with
    | cons h1 h2 =>
      simp only [ConfZip]
      exact ⟨h _ _ _ _ h1, confZip_fill hs (by simpa using hl) h2⟩

theorem tupleFix_sound {d : Style} {a a' : Ann W} {hs : List (Hint W)} {bs : List (F W)}
    (hfin : wrapFinish .tupleFix a bs = .ok a') {st : Style} (hst : a.style = st) (ha : Sound (ClassConf st W.tupleCls) (.ann a))
    (hc : Container (GoodIter true) W.tupleCls)
    (hb : Each (fun h b => Sound (Conf d h none []) b) hs bs)
    (hh : Each (fun h b => b.isHollow = true → ∀ v, Conf d h none [] v) hs bs) :
    Sound (fun w => st = .hollow ∨ (ClassConf st W.tupleCls w ∧ ConfZip d hs (W.elems w))) (.wrap true .tupleFix a' bs) := by
  intro v s w s' h
  obtain ⟨-, c2, c3⟩ := tupleFix_call hfin
  by_cases hns : st = .hollow
  · exact .inl hns
  right
  rw [hst] at c2 c3
  cases hall : F.allHollow bs with
  | true =>
    rw [c2 hns hall v] at h
    obtain ⟨x, s1, hx, hv⟩ := M.bind_eq_ok h
    rcases tupleLen_cases bs.length x s1 with ⟨hl, e⟩ | ⟨-, e⟩
    · rw [e] at hv; cases hv
      exact ⟨ha _ _ _ _ hx, confZip_hollow hh hall _ hl⟩
    · rw [e] at hv; cases hv
  | false =>
    rw [c3 hns hall v] at h
    obtain ⟨x, s1, hx, hv⟩ := M.bind_eq_ok h
    rcases tupleLen_cases bs.length x s1 with ⟨hl, e⟩ | ⟨-, e⟩
    · rw [M.bind_ok e] at hv
      have hcx := ha _ _ _ _ hx
      have hfx := hcx.fits hns hc.1 hc.2.1
      have hg := hc.2.2 _ hfx.sub
      unfold tupleValidator at hv
      rw [hg.drains] at hv
      obtain ⟨ws, s2, hs, hw⟩ := elemLoop_inv hv
      have hz := confZip_fill hb hl hs
      rcases hw with ⟨rfl, rfl⟩ | hw
      · refine ⟨hcx, ?_⟩
        rw [List.map_fst_zip (by simp [hl])] at hz
        exact hz
      · obtain ⟨st', hw⟩ := lift_ok hw
        obtain ⟨g1, -, g3⟩ := hg.mkIter _ _ _ _ hw
        refine ⟨(hfx.of_typeOf g1).conf hc.1 hc.2.1, ?_⟩
        rw [g3 rfl]; exact hz
    · rw [M.bind_error e] at hv; cases hv

theorem confZip_length {d : Style} : ∀ {hs : List (Hint W)} {l : List W.Obj}, ConfZip d hs l → l.length = hs.length
  | [], [], _ => rfl
  | [], _ :: _, h => by simp only [ConfZip] at h
  | _ :: _, [], h => by simp only [ConfZip] at h
  | _ :: _, _ :: _, h => by simp only [ConfZip] at h; simp [confZip_length h.2]

theorem zip_decides {d : Style} {x : W.Obj} {dr : Bool} {rebuild : List W.Obj → M W W.Obj} : ∀ {hs : List (Hint W)} {bs : List (F W)},
    Each (fun h b => Decides (Conf d h none []) b) hs bs → ∀ (l : List W.Obj) (pre : List W.Obj) (s : LState W), l.length = bs.length →
    (ConfZip d hs l ∧ ∃ s', elemLoop dr rebuild x (l.zip (bs.map F.call)) pre s = (.ok x, s')) ∨
    (¬ ConfZip d hs l ∧ ∃ e s', e.isException = true ∧ elemLoop dr rebuild x (l.zip (bs.map F.call)) pre s = (.error e, s'))
  | _, _, .nil, [], pre, s, _ => .inl ⟨by simp only [ConfZip], s, rfl⟩
  | _, _, .nil, _ :: _, _, _, hl => by simp at hl
  | _, _, .cons _ _, [], _, _, hl => by simp at hl
  | _, _, .cons h hs, o :: l, pre, s, hl => by
    simp only [List.map_cons, List.zip_cons_cons, elemLoop, ConfZip]
    rcases h o s with ⟨h1, s1, h2⟩ | ⟨h1, e, s1, h2, h3⟩
    · rw [M.bind_ok h2]
      simp only [if_true]
      rcases zip_decides (x := x) (dr := dr) (rebuild := rebuild) hs l (pre ++ [o]) s1 (by simpa using hl) with ⟨g1, g2⟩ | ⟨g1, g2⟩
      · exact .inl ⟨⟨h1, g1⟩, g2⟩
      · exact .inr ⟨fun h => g1 h.2, g2⟩
    · rw [M.bind_error h3]
      exact .inr ⟨fun h => h1 h.1, e, s1, h2, rfl⟩

theorem tupleFix_decides {d : Style} {a a' : Ann W} {hs : List (Hint W)} {bs : List (F W)}
    (hfin : wrapFinish .tupleFix a bs = .ok a') {st : Style} (hst : a.style = st) (ha : Decides (ClassConf st W.tupleCls) (.ann a))
    (hb : Each (fun h b => Decides (Conf d h none []) b) hs bs)
    (hh : Each (fun h b => b.isHollow = true → ∀ v, Conf d h none [] v) hs bs) :
    Decides (fun w => st = .hollow ∨ (ClassConf st W.tupleCls w ∧ ConfZip d hs (W.elems w))) (.wrap true .tupleFix a' bs) := by
  obtain ⟨c1, c2, c3⟩ := tupleFix_call hfin
  rw [hst] at c1 c2 c3
  by_cases hns : st = .hollow
  · have : Decides (ClassConf st W.tupleCls) (.wrap true .tupleFix a' bs) := by
      intro v s; rw [c1 hns v]; exact ha v s
    exact this.congr fun v => ⟨fun _ => .inl hns, fun _ => .inl hns⟩
  cases hall : F.allHollow bs with
  | true =>
    refine (Decides.bind (Q := fun w => ConfZip d hs (W.elems w)) ha (c2 hns hall) ?_).congr fun v => ⟨.inr, fun h => h.resolve_left hns⟩
    intro v s _
    rcases tupleLen_cases bs.length v s with ⟨hl, e⟩ | ⟨hl, e⟩
    · exact .inl ⟨confZip_hollow hh hall _ hl, s, e⟩
    · exact .inr ⟨fun hz => hl (by rw [confZip_length hz, hb.length]), _, s, rfl, e⟩
  | false =>
    refine (Decides.bind (Q := fun w => ConfZip d hs (W.elems w)) ha (c3 hns hall) ?_).congr fun v => ⟨.inr, fun h => h.resolve_left hns⟩
    intro v s _
    rcases tupleLen_cases bs.length v s with ⟨hl, e⟩ | ⟨hl, e⟩
    · rw [M.bind_ok e]
      exact zip_decides hb _ _ _ hl
    · rw [M.bind_error e]
      exact .inr ⟨fun hz => hl (by rw [confZip_length hz, hb.length]), _, s, rfl, rfl⟩

/-! ### Type[...] -/

theorem typeF_call {base : Option W.Cls} {a a' : Ann W} {bs : List (F W)} (hfin : wrapFinish (.typeF base) a bs = .ok a') :
    (a.style = .hollow → ∀ v, (F.wrap true (.typeF base) a' bs).call v = (F.ann a).call v) ∧
    (a.style ≠ .hollow → ∀ v,
      (F.wrap true (.typeF base) a' bs).call v = M.bind ((F.ann a).call v) (typeValidator base)) := by
  simp only [wrapFinish] at hfin
  refine ⟨fun hh v => ?_, fun hh v => ?_⟩
  · simp only [hh, if_true] at hfin; cases hfin; rw [call_wrap]
  · simp only [hh, if_false] at hfin; cases hfin; rw [call_wrap_add]

theorem typeValidator_cases (base : Option W.Cls) (v : W.Obj) (s : LState W) :
    ((∃ c b, W.asClass v = some c ∧ base = some b ∧ W.isSub c b = true) ∧ ∃ s', typeValidator base v s = (.ok v, s')) ∨
    (¬ (∃ c b, W.asClass v = some c ∧ base = some b ∧ W.isSub c b = true) ∧
      ∃ e s', e.isException = true ∧ typeValidator base v s = (.error e, s')) := by
  unfold typeValidator
  cases h1 : W.asClass v with
  | none => exact .inr ⟨by simp, .typeError, s, rfl, rfl⟩
  | some c =>
    cases base with
    | none => exact .inr ⟨by simp, .typeError, s, rfl, rfl⟩
    | some b =>
      cases h2 : W.isSub c b with
      | true => exact .inl ⟨by simp [h2], s, by simp [h2, M.pure]⟩
      | false => exact .inr ⟨by simp [h2], .valueError, s, rfl, by simp [h2, M.throw]⟩

theorem typeF_sound {base : Option W.Cls} {a a' : Ann W} {bs : List (F W)} (hfin : wrapFinish (.typeF base) a bs = .ok a')
    {st : Style} (hst : a.style = st) (ha : Sound (ClassConf st W.typeCls) (.ann a)) :
    Sound (fun w => st = .hollow ∨ (ClassConf st W.typeCls w ∧ ∃ c b, W.asClass w = some c ∧ base = some b ∧ W.isSub c b = true))
      (.wrap true (.typeF base) a' bs) := by
  intro v s w s' h
  obtain ⟨-, c2⟩ := typeF_call hfin
  by_cases hns : st = .hollow
  · exact .inl hns
  right
  rw [hst] at c2
  rw [c2 hns v] at h
  obtain ⟨x, s1, hx, hv⟩ := M.bind_eq_ok h
  rcases typeValidator_cases base x s1 with ⟨h1, s2, e⟩ | ⟨-, er, s2, -, e⟩
  · rw [e] at hv; cases hv; exact ⟨ha _ _ _ _ hx, h1⟩
  · rw [e] at hv; cases hv

theorem typeF_decides {base : Option W.Cls} {a a' : Ann W} {bs : List (F W)} (hfin : wrapFinish (.typeF base) a bs = .ok a')
    {st : Style} (hst : a.style = st) (ha : Decides (ClassConf st W.typeCls) (.ann a)) :
    Decides (fun w => st = .hollow ∨ (ClassConf st W.typeCls w ∧ ∃ c b, W.asClass w = some c ∧ base = some b ∧ W.isSub c b = true))
      (.wrap true (.typeF base) a' bs) := by
  obtain ⟨c1, c2⟩ := typeF_call hfin
  rw [hst] at c1 c2
  by_cases hns : st = .hollow
  · have : Decides (ClassConf st W.typeCls) (.wrap true (.typeF base) a' bs) := by
      intro v s; rw [c1 hns v]; exact ha v s
    exact this.congr fun v => ⟨fun _ => .inl hns, fun _ => .inl hns⟩
  · exact (Decides.bind (Q := fun w => ∃ c b, W.asClass w = some c ∧ base = some b ∧ W.isSub c b = true) ha (c2 hns)
      fun v s _ => typeValidator_cases base v s).congr fun v => ⟨.inr, fun h => h.resolve_left hns⟩

theorem generic_call {a a' : Ann W} {bs : List (F W)} (hfin : wrapFinish .generic a bs = .ok a') (v : W.Obj) :
    (F.wrap true .generic a' bs).call v = (F.ann a).call v := by
  rw [call_wrap]
  simp only [wrapFinish] at hfin
  split at hfin <;> cases hfin
  rfl

/-! ### unions -/

theorem union_member {args toks : List (Tok W)} {bs : List (F W)} (hnh : F.allHollow bs = false) {v w : W.Obj} {s s' : LState W}
    (hc : (F.union true args toks bs).call v s = (.ok w, s')) : ∃ b ∈ bs, ∃ s1 s2, b.call v s1 = (.ok w, s2) := by
  obtain ⟨k, hk⟩ := F.call_ok.1 hc
  simp only [F.fill, hnh] at hk
  rcases tried_or_base v bs s with ⟨rs, s1, ht⟩ | ⟨e, s1, -, -, hrun⟩
  · have k1 := unionLoop_tried ht (ps := []) (best := []) (key := none) (.inl ⟨rfl, rfl, by simp⟩)
    simp only [List.nil_append] at k1
    obtain ⟨hb, -⟩ := k1.2.1 w k s' hk
    have hmem := hb.1
    clear hb k1 hk hnh hc
    induction ht with
    | nil => simp at hmem
    | @cons g gs t r t1 rs t2 hg _ _ ih =>
      rcases List.mem_cons.1 hmem with h | h
      · subst h
        exact ⟨g, by simp, t, t1, F.call_ok.2 ⟨k, hg⟩⟩
      · obtain ⟨b, hb, x⟩ := ih h
        exact ⟨b, by simp [hb], x⟩
  · simp only [if_neg Bool.false_ne_true] at hk
    rw [hrun] at hk; cases hk

theorem AllTried.exception {v : W.Obj} {bs : List (F W)} {s s' : LState W} {rs : List (Except Exc (W.Obj × TPK))}
    (h : AllTried v bs s rs s') {e : Exc} (he : .error e ∈ rs) : e.isException = true := by
  induction h with
  | nil => simp at he
  | cons _ hex _ ih =>
    rcases List.mem_cons.1 he with h | h
    · exact hex _ h.symm
    · exact ih h

theorem Each.mem {R : Hint W → F W → Prop} {hs : List (Hint W)} {bs : List (F W)} (h : Each R hs bs) {b : F W} (hb : b ∈ bs) :
    ∃ h ∈ hs, R h b := by
  induction h with
  | nil => simp at hb
  | cons h1 _ ih =>
    rcases List.mem_cons.1 hb with rfl | hb
    · exact ⟨_, List.mem_cons_self, h1⟩
    · obtain ⟨h, h2, h3⟩ := ih hb
      exact ⟨h, List.mem_cons_of_mem _ h2, h3⟩

theorem Each.mem' {R : Hint W → F W → Prop} {hs : List (Hint W)} {bs : List (F W)} (h : Each R hs bs) {x : Hint W} (hb : x ∈ hs) :
    ∃ b ∈ bs, R x b := by
  induction h with
  | nil => simp at hb
  | cons h1 _ ih =>
    rcases List.mem_cons.1 hb with rfl | hb
    · exact ⟨_, List.mem_cons_self, h1⟩
    · obtain ⟨h, h2, h3⟩ := ih hb
      exact ⟨h, List.mem_cons_of_mem _ h2, h3⟩

theorem confAny_iff {d : Style} {toks : List (Tok W)} {v : W.Obj} :
    ∀ {hs : List (Hint W)}, ConfAny d hs toks v ↔ ∃ h ∈ hs, Conf d h none toks v
  | [] => by simp [ConfAny]
  | h :: hs => by simp only [ConfAny, confAny_iff (hs := hs)]; simp

theorem union_sound {d : Style} {args toks : List (Tok W)} {ts : List (Tok W)} {hs : List (Hint W)} {bs : List (F W)}
    (hb : Each (fun h b => Sound (Conf d h none ts) b) hs bs)
    (hh : Each (fun h b => b.isHollow = true → ∀ v, Conf d h none ts v) hs bs) :
    Sound (fun w => hs = [] ∨ ConfAny d hs ts w) (.union true args toks bs) := by
  intro v s w s' h
  cases hall : F.allHollow bs with
  | true =>
    cases hh with
    | nil => exact .inl rfl
    | cons h1 _ =>
      simp only [F.allHollow, Bool.and_eq_true] at hall
      right
      simp only [ConfAny]
      exact .inl (h1 hall.1 w)
  | false =>
    obtain ⟨b, hm, s1, s2, hc⟩ := union_member hall h
    obtain ⟨x, hx, hs⟩ := hb.mem hm
    exact .inr (confAny_iff.2 ⟨x, hx, hs _ _ _ _ hc⟩)

theorem union_decides {d : Style} {args toks : List (Tok W)} {ts : List (Tok W)} {hs : List (Hint W)} {bs : List (F W)}
    (hb : Each (fun h b => Decides (Conf d h none ts) b) hs bs)
    (hh : Each (fun h b => b.isHollow = true → ∀ v, Conf d h none ts v) hs bs) :
    Decides (fun w => hs = [] ∨ ConfAny d hs ts w) (.union true args toks bs) := by
  intro v s
  cases hall : F.allHollow bs with
  | true =>
    left
    refine ⟨?_, s, by simp [F.call, F.fill, hall, M.bind, M.pure]⟩
    cases hh with
    | nil => exact .inl rfl
    | cons h1 _ =>
      simp only [F.allHollow, Bool.and_eq_true] at hall
      right
      simp only [ConfAny]
      exact .inl (h1 hall.1 v)
  | false =>
    have hne : hs ≠ [] := by rintro rfl; cases hb; simp [F.allHollow] at hall
    -- all members run, each returns the value itself or an ordinary exception
    have hall' : ∀ {hs : List (Hint W)} {bs : List (F W)}, Each (fun h b => Decides (Conf d h none ts) b) hs bs → ∀ s, ∃ rs s',
        AllTried v bs s rs s' ∧ (∀ x k, .ok (x, k) ∈ rs → x = v) ∧ ((∃ k, .ok (v, k) ∈ rs) ↔ ConfAny d hs ts v) := by
      intro hs bs hb
      induction hb with
      | nil => intro s; exact ⟨[], s, .nil s, by simp, by simp [ConfAny]⟩
      | @cons h hs b bs h1 _ ih =>
        intro s
        rcases h1 v s with ⟨g1, s1, g2⟩ | ⟨g1, e, s1, g2, g3⟩
        · obtain ⟨k, hk⟩ := F.call_ok.1 g2
          obtain ⟨rs, s2, i1, i2, i3⟩ := ih s1
          refine ⟨.ok (v, k) :: rs, s2, .cons hk (by simp) i1, ?_, ?_⟩
          · intro x j hx
            rcases List.mem_cons.1 hx with hx | hx
            · cases hx; rfl
            · exact i2 x j hx
          · simp only [ConfAny]
            exact ⟨fun _ => .inl g1, fun _ => ⟨k, List.mem_cons_self⟩⟩
        · obtain ⟨rs, s2, i1, i2, i3⟩ := ih s1
          refine ⟨.error e :: rs, s2, .cons (F.call_error.1 g3) (by rintro e' h; cases h; exact g2) i1, ?_, ?_⟩
          · intro x j hx
            rcases List.mem_cons.1 hx with hx | hx
            · cases hx
            · exact i2 x j hx
          · simp only [ConfAny]
            constructor
            · rintro ⟨k, hk⟩
              rcases List.mem_cons.1 hk with hk | hk
              · cases hk
              · exact .inr (i3.1 ⟨k, hk⟩)
            · rintro (h | h)
              · exact absurd h g1
              · obtain ⟨k, hk⟩ := i3.2 h
                exact ⟨k, List.mem_cons_of_mem _ hk⟩
    obtain ⟨rs, s1, ht, hval, hiff⟩ := hall' hb s
    have k1 := unionLoop_tried ht (ps := []) (best := []) (key := none) (.inl ⟨rfl, rfl, by simp⟩)
    simp only [List.nil_append] at k1
    by_cases hc : ConfAny d hs ts v
    · left
      refine ⟨.inr hc, s1, ?_⟩
      -- a member with the best kind
      have hbest : ∀ n, ∀ k, TPK.rank k ≤ n → .ok (v, k) ∈ rs → ∃ k', .ok (v, k') ∈ rs ∧ ∀ x j, .ok (x, j) ∈ rs → k'.rank ≤ j.rank := by
        intro n
        induction n with
        | zero => intro k hk hm; exact ⟨k, hm, fun x j _ => by omega⟩
        | succ n ih =>
          intro k hk hm
          by_cases hex : ∃ x j, Except.ok (x, j) ∈ rs ∧ TPK.rank j < k.rank
          · obtain ⟨x, j, hx, hj⟩ := hex
            have := hval x j hx
            subst this
            exact ih j (by omega) hx
          · refine ⟨k, hm, fun x j hx => ?_⟩
            exact Nat.le_of_not_lt fun hlt => hex ⟨x, j, hx, hlt⟩
      obtain ⟨k, hk⟩ := hiff.2 hc
      obtain ⟨k', hk', hmin⟩ := hbest _ k (Nat.le_refl _) hk
      rw [F.call_ok]
      refine ⟨k', ?_⟩
      simp only [F.fill, hall]
      simp only [Bool.false_eq_true, if_false]
      exact k1.1 v k' ⟨hk', fun x j hx => ⟨hmin x j hx, fun _ => hval x j hx⟩⟩
    · right
      refine ⟨fun h => h.elim hne hc, ?_⟩
      have hno : ∀ x j, Except.ok (x, j) ∉ rs := by
        intro x j hx
        have := hval x j hx
        subst this
        exact hc (hiff.1 ⟨j, hx⟩)
      have hlen : rs ≠ [] := by
        rintro rfl
        cases ht
        exact hne (by cases hb; rfl)
      have hlast := List.dropLast_concat_getLast hlen
      cases hl : rs.getLast hlen with
      | ok p => exact absurd (hl ▸ List.getLast_mem hlen) (hno p.1 p.2)
      | error e =>
        rw [hl] at hlast
        refine ⟨e, s1, ?_, ?_⟩
        · exact ht.exception (hl ▸ List.getLast_mem hlen)
        · rw [F.call_error]
          simp only [F.fill, hall]
          simp only [Bool.false_eq_true, if_false]
          exact k1.2.2.2 (by simpa using hno) rs.dropLast e hlast.symm

end Records
