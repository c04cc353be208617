import Verif.Spec.Stable
import Verif.Props.Deep
/-
Helper lemmas for idempotent filling (C90).
-/
set_option linter.unusedSimpArgs false
namespace Records
variable {W : World}

/-- values with the property are accepted unchanged -/
def Stays (P : W.Obj → Prop) (b : F W) : Prop := ∀ v s, P v → ∃ s', b.call v s = (.ok v, s')

theorem Stays.congr {P Q : W.Obj → Prop} {b : F W} (h : Stays P b) (hpq : ∀ v, Q v → P v) : Stays Q b :=
  fun v s hq => h v s (hpq v hq)

theorem Decides.stays {P : W.Obj → Prop} {b : F W} (h : Decides P b) : Stays P b := by
  intro v s hp
  rcases h v s with h | h
  · exact h.2
  · exact absurd hp h.1

/-- a conforming value passes the type check of a leaf and its structural validators -/
theorem leaf_pass {d : Style} {k : Kind W} {toks args : List (Tok W)} {a : Ann W} (ha : Ann.make d k toks args = .ok a)
    (hv : (toks ++ args).all (fun t => !t.isValidation) = true)
    (hs : styleOf d (toks ++ args) = .check ∨ styleOf d (toks ++ args) = .checkStrict) {v : W.Obj}
    (hc : KindConf (styleOf d (toks ++ args)) k v) (s : LState W) :
    ∃ kd, kd.rank ≤ 1 ∧ a.fill v s = (.ok (v, kd), s) := by
  obtain ⟨h1, h2, h3, h4, -⟩ := Ann.make_ok ha
  rw [noValidators_of hv, List.nil_append] at h4
  have hnh : styleOf d (toks ++ args) ≠ .hollow := by rcases hs with h | h <;> rw [h] <;> simp
  have hf := Ann.fill_checked a (by rw [h2]; exact hs) v s
  rw [h1, h2] at hf
  cases hk : k with
  | simple c ib =>
    have h4' : a.validators = [] := by rw [h4, hk]; rfl
    rw [hk] at hc
    rw [hk, h4'] at hf
    rcases fits_typeCheck (ib := ib) (s := s) (show Fits _ c v from hc) with ⟨g, -⟩ | ⟨g, g2, -⟩
    · exact ⟨.noCoerceStrict, by decide, by rw [hf]; simp only [g, if_true]; rfl⟩
    · exact ⟨.noCoerce, by decide, by rw [hf]; simp only [g, g2]; rfl⟩
  | noneF c | ellipsisF c | callable =>
    have h4' : a.validators = [] := by rw [h4, hk]; rfl
    obtain ⟨t1, t2⟩ := singleton_typeCheck (k := k) (by rw [hk]; rfl) v s
    refine ⟨.noCoerceStrict, by decide, ?_⟩
    rw [hf, t1 (by rw [hk] at hc ⊢; exact hc), h4']
    rfl
  | literal id vals =>
    have h4' : a.validators = [literalValidator id vals] := by rw [h4, hk]; simp [Kind.structural, hnh]
    rw [hk] at hc
    obtain ⟨hh, p, hp, ht, he⟩ := hc
    have hmem : W.typeOf v ∈ litKeys id vals s := by
      unfold litKeys
      rw [List.mem_append, ← ht]
      exact .inl (List.mem_map_of_mem hp)
    have htc : (Kind.literal id vals).typeCheck v s = .exact := by simp [Kind.typeCheck, hmem]
    have hlit : literalValidator id vals v s = (.ok v, s) := by
      unfold literalValidator
      have : vals.any (fun p => decide (W.typeOf p = W.typeOf v) && (decide (p = v) || W.eq p v)) = true := by
        rw [List.any_eq_true]
        exact ⟨p, hp, by rcases he with he | he <;> simp [ht, he]⟩
      simp [hmem, hh, this]
    refine ⟨.noCoerceStrict, by decide, ?_⟩
    rw [hf, hk, htc, h4']
    simp only [if_true, validate, M.foldM, M.bind_pure]
    rw [M.bind_ok hlit]
    rfl

theorem leaf_stays {d : Style} (hd : d ≠ .default) {k : Kind W} {toks args : List (Tok W)} {a : Ann W}
    (ha : Ann.make d k toks args = .ok a) (hv : (toks ++ args).all (fun t => !t.isValidation) = true) :
    Stays (fun w => styleOf d (toks ++ args) = .hollow ∨ KindConf (styleOf d (toks ++ args)) k w) (.ann a) := by
  intro v s hc
  rcases style_cases (styleOf d (toks ++ args)) with hs | hs | hs
  · exact absurd hs (styleOf_ne_default hd _)
  · obtain ⟨h1, h2, h3, h4, -⟩ := Ann.make_ok ha
    rw [noValidators_of hv, List.nil_append] at h4
    have h4' : a.validators = [] := by rw [h4]; cases k <;> simp [Kind.structural, hs]
    refine ⟨s, F.call_ok.2 ⟨.hollow, ?_⟩⟩
    simp only [F.fill]
    unfold Ann.fill
    simp only [h2, hs, h4']
    rfl
  · have hnh : styleOf d (toks ++ args) ≠ .hollow := by rcases hs with h | h <;> rw [h] <;> simp
    obtain ⟨kd, -, h⟩ := leaf_pass ha hv hs (hc.resolve_left hnh) s
    exact ⟨s, F.call_ok.2 ⟨kd, by simpa only [F.fill] using h⟩⟩

theorem class_stays (hW : Sane W) {d : Style} (hd : d ≠ .default) {c : W.Cls} {toks args : List (Tok W)} {a : Ann W}
    (ha : Ann.make d (classKind c) toks args = .ok a)
    (hv : (toks ++ args).all (fun t => !t.isValidation) = true) :
    Stays (ClassConf (styleOf d (toks ++ args)) c) (.ann a) :=
  (leaf_stays hd ha hv).congr fun v => (classConf_kind hW _ c v).2

/-! ### containers -/

theorem elemLoop_stays {dr : Bool} {rebuild : List W.Obj → M W W.Obj} {x : W.Obj} :
    ∀ (es : List (W.Obj × (W.Obj → M W W.Obj))) (_ : ∀ q ∈ es, ∀ s, ∃ s', q.2 q.1 s = (.ok q.1, s')) (pre : List W.Obj) (s : LState W),
      ∃ s', elemLoop dr rebuild x es pre s = (.ok x, s')
  | [], _, _, s => ⟨s, rfl⟩
  | (e, f) :: es, h, pre, s => by
    obtain ⟨s1, h1⟩ := h (e, f) List.mem_cons_self s
    simp only [elemLoop]
    rw [M.bind_ok h1]
    simp only [if_true]
    exact elemLoop_stays es (fun q hq => h q (List.mem_cons_of_mem _ hq)) _ s1

theorem iter_stays {k : WrapKind W} {dq : Bool} (hk : k = .iter ∧ dq = false ∨ k = .tupleVar ∧ dq = false ∨ k = .deque ∧ dq = true)
    {a a' : Ann W} {e : F W} (hfin : wrapFinish k a [e] = .ok a') {st : Style} (hst : a.style = st) {c : W.Cls}
    (ha : Stays (ClassConf st c) (.ann a)) {P : W.Obj → Prop} (he : Stays P e) :
    Stays (fun w => st = .hollow ∨ (ClassConf st c w ∧ ∀ o ∈ W.elems w, P o)) (.wrap true k a' [e]) := by
  intro v s hc
  obtain ⟨i1, i2⟩ := iter_call hk hfin
  cases hh : e.isHollow with
  | true =>
    rw [i1 hh v]
    exact ha v s (by rcases hc with h | h; exact .inl h; exact h.1)
  | false =>
    obtain ⟨hns, hcall⟩ := i2 hh
    rw [hst] at hns
    have hc := hc.resolve_left hns
    obtain ⟨s1, h1⟩ := ha v s hc.1
    rw [hcall v, M.bind_ok h1]
    unfold iterValidator
    refine elemLoop_stays _ ?_ _ _
    intro q hq s
    obtain ⟨o, ho, rfl⟩ := List.mem_map.1 hq
    exact he o s (hc.2 o ho)

theorem pairs_stays {P Q : W.Obj → Prop} {fk fv : F W} (hk : Stays P fk) (hv : Stays Q fv) :
    ∀ (l : List (W.Obj × W.Obj)) (s : LState W), (∀ p ∈ l, P p.1 ∧ Q p.2) →
    ∃ s', M.mapM (fun (p : W.Obj × W.Obj) => M.bind (fk.call p.1) fun a => M.bind (fv.call p.2) fun b => M.pure (a, b)) l s = (.ok l, s')
  | [], s, _ => ⟨s, rfl⟩
  | (k, v) :: l, s, h => by
    obtain ⟨g1, g2⟩ := h (k, v) List.mem_cons_self
    obtain ⟨s1, h1⟩ := hk k s g1
    obtain ⟨s2, h2⟩ := hv v s1 g2
    obtain ⟨s3, h3⟩ := pairs_stays hk hv l s2 fun p hp => h p (List.mem_cons_of_mem _ hp)
    simp only [M.mapM, M.bind_assoc, M.pure_bind]
    rw [M.bind_ok h1, M.bind_ok h2, M.bind_ok h3]
    exact ⟨s3, rfl⟩

theorem map_stays {k : WrapKind W} {dd : Bool} (hk : k = .mapping ∧ dd = false ∨ k = .defaultdict ∧ dd = true)
    {a a' : Ann W} {fk fv : F W} (hfin : wrapFinish k a [fk, fv] = .ok a') {st : Style} (hst : a.style = st) {c : W.Cls}
    (ha : Stays (ClassConf st c) (.ann a)) {P Q : W.Obj → Prop} (hp : Stays P fk) (hq : Stays Q fv) :
    Stays (fun w => st = .hollow ∨ (ClassConf st c w ∧ ∀ p ∈ W.items w, P p.1 ∧ Q p.2)) (.wrap true k a' [fk, fv]) := by
  intro v s hc
  obtain ⟨i1, i2⟩ := map_call hk hfin
  cases hh : fk.isHollow && fv.isHollow with
  | true =>
    rw [i1 hh v]
    exact ha v s (by rcases hc with h | h; exact .inl h; exact h.1)
  | false =>
    obtain ⟨hns, hcall⟩ := i2 hh
    rw [hst] at hns
    have hc := hc.resolve_left hns
    obtain ⟨s1, h1⟩ := ha v s hc.1
    rw [hcall v, M.bind_ok h1]
    unfold mapValidator
    obtain ⟨s2, h2⟩ := pairs_stays hp hq (W.items v) s1 hc.2
    rw [M.bind_ok h2]
    have : ¬ (((W.items v).zip (W.items v)).any (fun q => decide (q.1.1 ≠ q.2.1) || decide (q.1.2 ≠ q.2.2)) = true) := by
      rw [pairs_changed rfl]; simp
    rw [if_neg this]
    exact ⟨s2, rfl⟩

theorem zip_stays {d : Style} : ∀ {hs : List (Hint W)} {bs : List (F W)},
    Each (fun h b => Stays (Conf d h none []) b) hs bs → ∀ (l : List W.Obj), ConfZip d hs l →
    ∀ q ∈ l.zip (bs.map F.call), ∀ s, ∃ s', q.2 q.1 s = (.ok q.1, s')
  | _, _, .nil, _, _, q, hq => by simp at hq
  | _, _, .cons _ _, [], _, q, hq => by simp at hq
  | _, _, .cons h hs, o :: l, hc, q, hq => by
    simp only [ConfZip] at hc
    simp only [List.map_cons, List.zip_cons_cons] at hq
    rcases List.mem_cons.1 hq with rfl | hq
    · exact fun s => h o s hc.1
    · exact zip_stays hs l hc.2 q hq

theorem tupleFix_stays {d : Style} {a a' : Ann W} {hs : List (Hint W)} {bs : List (F W)}
    (hfin : wrapFinish .tupleFix a bs = .ok a') {st : Style} (hst : a.style = st) (ha : Stays (ClassConf st W.tupleCls) (.ann a))
    (hb : Each (fun h b => Stays (Conf d h none []) b) hs bs) :
    Stays (fun w => st = .hollow ∨ (ClassConf st W.tupleCls w ∧ ConfZip d hs (W.elems w))) (.wrap true .tupleFix a' bs) := by
  intro v s hc
  obtain ⟨c1, c2, c3⟩ := tupleFix_call hfin
  rw [hst] at c1 c2 c3
  by_cases hns : st = .hollow
  · rw [c1 hns v]; exact ha v s (.inl hns)
  have hc := hc.resolve_left hns
  obtain ⟨s1, h1⟩ := ha v s hc.1
  have hl : (W.elems v).length = bs.length := by rw [confZip_length hc.2, hb.length]
  have hlen : tupleLenValidator bs.length v s1 = (.ok v, s1) := by
    rcases tupleLen_cases bs.length v s1 with ⟨-, e⟩ | ⟨h, -⟩
    · exact e
    · exact absurd hl h
  cases hall : F.allHollow bs with
  | true => rw [c2 hns hall v, M.bind_ok h1]; exact ⟨s1, hlen⟩
  | false =>
    rw [c3 hns hall v, M.bind_ok h1, M.bind_ok hlen]
    unfold tupleValidator
    exact elemLoop_stays _ (zip_stays hb _ hc.2) _ _

theorem typeF_stays {base : Option W.Cls} {a a' : Ann W} {bs : List (F W)} (hfin : wrapFinish (.typeF base) a bs = .ok a')
    {st : Style} (hst : a.style = st) (ha : Stays (ClassConf st W.typeCls) (.ann a)) :
    Stays (fun w => st = .hollow ∨ (ClassConf st W.typeCls w ∧ ∃ c b, W.asClass w = some c ∧ base = some b ∧ W.isSub c b = true))
      (.wrap true (.typeF base) a' bs) := by
  intro v s hc
  obtain ⟨c1, c2⟩ := typeF_call hfin
  rw [hst] at c1 c2
  by_cases hns : st = .hollow
  · rw [c1 hns v]; exact ha v s (.inl hns)
  have hc := hc.resolve_left hns
  obtain ⟨s1, h1⟩ := ha v s hc.1
  rw [c2 hns v, M.bind_ok h1]
  rcases typeValidator_cases base v s1 with ⟨-, h⟩ | ⟨h, -⟩
  · exact h
  · exact absurd hc.2 h

/-! ### unions -/

/-- a member that returns the value itself unless it coerces, and does not coerce values with the property -/
def Fair (P : W.Obj → Prop) (b : F W) : Prop := ∀ v s,
  (∃ w k s', b.fill v s = (.ok (w, k), s') ∧ (k.rank ≤ 1 → w = v) ∧ (P v → k.rank ≤ 1)) ∨
  (¬ P v ∧ ∃ e s', e.isException = true ∧ b.fill v s = (.error e, s'))

theorem Fair.congr {P Q : W.Obj → Prop} {b : F W} (h : Fair P b) (hpq : ∀ v, Q v → P v) : Fair Q b := by
  intro v s
  rcases h v s with ⟨w, k, s', h1, h2, h3⟩ | ⟨h1, h2⟩
  · exact .inl ⟨w, k, s', h1, h2, fun hq => h3 (hpq v hq)⟩
  · exact .inr ⟨fun hq => h1 (hpq v hq), h2⟩

theorem coercers_mannered {ib : Bool} {o : Option W.Cls} {ts : List (Tok W)} (h : ∀ t ∈ ts, t.Mannered) :
    ∀ c ∈ tokCoercers ib o ts, ∀ v s e s', c v s = (.error e, s') → e.isException = true := by
  intro c hc
  obtain ⟨t, ht, hc⟩ := List.mem_filterMap.1 hc
  exact h t ht ib o c hc

theorem structural_error {k : Kind W} {st : Style} {c : Coercer W} (hc : c ∈ k.structural st) {v : W.Obj} {s s' : LState W} {e : Exc}
    (h : c v s = (.error e, s')) : e.isException = true := by
  cases k with
  | literal id vals =>
    simp only [Kind.structural] at hc
    split at hc
    · cases hc
    · obtain rfl := List.mem_singleton.1 hc
      unfold literalValidator at h
      simp only at h
      split at h
      · cases h; rfl
      · split at h <;> cases h; rfl
  | _ => simp [Kind.structural] at hc

theorem structural_ok {k : Kind W} {st : Style} {c : Coercer W} (hc : c ∈ k.structural st) {v w : W.Obj} {s s' : LState W}
    (h : c v s = (.ok w, s')) : w = v := by
  cases k with
  | literal id vals =>
    simp only [Kind.structural] at hc
    split at hc
    · cases hc
    · obtain rfl := List.mem_singleton.1 hc
      exact (literalValidator_ok h).1
  | _ => simp [Kind.structural] at hc

/-- validators that keep the value and raise only ordinary exceptions -/
theorem validate_fair {vs : List (Coercer W)} (h1 : ∀ c ∈ vs, ∀ v s e s', c v s = (.error e, s') → e.isException = true)
    (h2 : ∀ c ∈ vs, ∀ v s w s', c v s = (.ok w, s') → w = v) (v : W.Obj) (k : TPK) (s : LState W) :
    (∃ s', validate vs v k s = (.ok (v, k), s')) ∨ ∃ e s', e.isException = true ∧ validate vs v k s = (.error e, s') := by
  unfold validate
  induction vs generalizing s with
  | nil => exact .inl ⟨s, rfl⟩
  | cons c vs ih =>
    simp only [M.foldM, M.bind_assoc]
    rcases hc : c v s with ⟨r, s1⟩
    cases r with
    | error e => rw [M.bind_error hc]; exact .inr ⟨e, s1, h1 c List.mem_cons_self v s e s1 hc, rfl⟩
    | ok w =>
      rw [M.bind_ok hc]
      have := h2 c List.mem_cons_self v s w s1 hc
      subst this
      exact ih (fun c hc => h1 c (List.mem_cons_of_mem _ hc)) (fun c hc => h2 c (List.mem_cons_of_mem _ hc)) s1

theorem coerceLoop_exception {k : Kind W} {st : Style} {cs : List (Coercer W)}
    (hcs : ∀ c ∈ cs, ∀ v s e s', c v s = (.error e, s') → e.isException = true) {v : W.Obj} {e : Exc} {s s' : LState W}
    (h : coerceLoop k st cs v s = (.error e, s')) : e.isException = true := by
  rcases coerceLoop_error h with ⟨pre, c, v1, s1, rfl, -, hr⟩ | ⟨pre, c, post, v1, s1, rfl, -, hr, -⟩
  · rcases hr with hr | ⟨w, -, -, rfl⟩
    · exact hcs c (by simp) _ _ _ _ hr
    · rfl
  · exact hcs c (by simp) _ _ _ _ hr

theorem leaf_fair {d : Style} (hd : d ≠ .default) {k : Kind W} {toks args : List (Tok W)} {a : Ann W}
    (ha : Ann.make d k toks args = .ok a) (hv : (toks ++ args).all (fun t => !t.isValidation) = true)
    (hs : styleOf d (toks ++ args) ≠ .hollow) (hm : ∀ t ∈ toks ++ args, t.Mannered) :
    Fair (fun w => styleOf d (toks ++ args) = .hollow ∨ KindConf (styleOf d (toks ++ args)) k w) (.ann a) := by
  intro v s
  have hs' : styleOf d (toks ++ args) = .check ∨ styleOf d (toks ++ args) = .checkStrict := by
    rcases style_cases (styleOf d (toks ++ args)) with h | h | h
    · exact absurd h (styleOf_ne_default hd _)
    · exact absurd h hs
    · exact h
  simp only [F.fill]
  by_cases hP : KindConf (styleOf d (toks ++ args)) k v
  · obtain ⟨kd, h1, h2⟩ := leaf_pass ha hv hs' hP s
    exact .inl ⟨v, kd, s, h2, fun _ => rfl, fun _ => h1⟩
  · obtain ⟨h1, h2, h3, h4, -⟩ := Ann.make_ok ha
    rw [noValidators_of hv, List.nil_append] at h4
    have hP' : ¬ (styleOf d (toks ++ args) = .hollow ∨ KindConf (styleOf d (toks ++ args)) k v) := fun h => hP (h.resolve_left hs)
    have hval := fun (w : W.Obj) (kd : TPK) (s : LState W) => validate_fair (vs := a.validators)
      (fun c hc v s e s' => by rw [h4] at hc; exact structural_error hc)
      (fun c hc v s w s' => by rw [h4] at hc; exact structural_ok hc) w kd s
    rw [Ann.fill_checked a (by rw [h2]; exact hs')]
    split
    · rcases hval v .noCoerceStrict s with ⟨s', h⟩ | h
      · exact .inl ⟨v, _, s', h, fun _ => rfl, fun h => absurd h hP'⟩
      · exact .inr ⟨hP', h⟩
    · split
      · rcases hval v .noCoerce s with ⟨s', h⟩ | h
        · exact .inl ⟨v, _, s', h, fun _ => rfl, fun h => absurd h hP'⟩
        · exact .inr ⟨hP', h⟩
      · split
        · exact .inr ⟨hP', _, s, rfl, rfl⟩
        · rcases hc : coerceLoop a.kind a.style a.coercers v s with ⟨r, s1⟩
          cases r with
          | error e =>
            rw [M.bind_error hc]
            exact .inr ⟨hP', e, s1, coerceLoop_exception (by rw [h3]; exact coercers_mannered hm) hc, rfl⟩
          | ok w =>
            rw [M.bind_ok hc]
            rcases hval w .coerce s1 with ⟨s', h⟩ | h
            · exact .inl ⟨w, _, s', h, fun h => absurd h (by decide), fun h => absurd h hP'⟩
            · exact .inr ⟨hP', h⟩

theorem class_fair (hW : Sane W) {d : Style} (hd : d ≠ .default) {c : W.Cls} {toks args : List (Tok W)} {a : Ann W}
    (ha : Ann.make d (classKind c) toks args = .ok a)
    (hv : (toks ++ args).all (fun t => !t.isValidation) = true)
    (hs : styleOf d (toks ++ args) ≠ .hollow ∧ ∀ t ∈ toks ++ args, t.Mannered) :
    Fair (ClassConf (styleOf d (toks ++ args)) c) (.ann a) :=
  (leaf_fair hd ha hv hs.1 hs.2).congr fun v => (classConf_kind hW _ c v).2

/-- without coercers, a filler in force does not report a coercion -/
theorem fill_kind {a : Ann W} (hc : a.coercers = []) (hs : a.style ≠ .hollow) {v w : W.Obj} {k : TPK} {s s' : LState W}
    (h : a.fill v s = (.ok (w, k), s')) : k.rank ≤ 1 := by
  rcases style_cases a.style with hst | hst | hst
  · unfold Ann.fill at h; simp [hst, M.throw] at h
  · exact absurd hst hs
  · rw [Ann.fill_checked a hst] at h
    split at h
    · obtain ⟨rfl, -⟩ := validate_ok.1 h; decide
    · split at h
      · obtain ⟨rfl, -⟩ := validate_ok.1 h; decide
      · simp [hc] at h

theorem wrapFinish_coercers {k : WrapKind W} {a a' : Ann W} {bs : List (F W)} (h : wrapFinish k a bs = .ok a') :
    a'.coercers = a.coercers := by
  unfold wrapFinish at h
  split at h
  all_goals (try dsimp only at h)
  all_goals (repeat' split at h)
  all_goals first | (cases h; done) | (cases h; simp [Ann.addValidator])
  all_goals (split <;> rfl)

/-- a container without coercers is a fair member -/
theorem wrap_fair {d : Style} {k : WrapKind W} {ck : Kind W} {toks args : List (Tok W)} {a a' : Ann W} {bs : List (F W)} {P : W.Obj → Prop}
    (ha : Ann.make d ck toks args = .ok a) (hfin : wrapFinish k a bs = .ok a')
    (hp : (toks ++ args).all (fun t => !t.isCoercion && !t.isValidation) = true)
    (hs : styleOf d (toks ++ args) ≠ .hollow) (hd : Decides P (.wrap true k a' bs)) : Fair P (.wrap true k a' bs) := by
  have hc : a.coercers = [] := by
    rw [(Ann.make_ok ha).2.2.1]
    refine noCoercers_of ?_
    rw [List.all_eq_true] at hp ⊢; intro t ht; have := hp t ht; simp at this; simp [this]
  intro v s
  rcases hd v s with ⟨h1, s', h2⟩ | ⟨h1, e, s', h2, h3⟩
  · obtain ⟨kd, h2⟩ := F.call_ok.1 h2
    refine .inl ⟨v, kd, s', h2, fun _ => rfl, fun _ => ?_⟩
    simp only [F.fill] at h2
    exact fill_kind (by rw [wrapFinish_coercers hfin, hc]) (by rw [wrapFinish_style hfin, style_of_make ha]; exact hs) h2
  · exact .inr ⟨h1, e, s', h2, F.call_error.1 h3⟩

/-- a union of fair members keeps the conforming values -/
theorem union_stays {d : Style} {args toks : List (Tok W)} {ts : List (Tok W)} {hs : List (Hint W)} {bs : List (F W)}
    (hb : Each (fun h b => Fair (Conf d h none ts) b) hs bs) :
    Stays (fun w => hs = [] ∨ ConfAny d hs ts w) (.union true args toks bs) := by
  intro v s hc
  cases hall : F.allHollow bs with
  | true => exact ⟨s, by simp [F.call, F.fill, hall, M.bind, M.pure]⟩
  | false =>
    have hne : hs ≠ [] := by rintro rfl; cases hb; simp [F.allHollow] at hall
    have hc := hc.resolve_left hne
    have hall' : ∀ {hs : List (Hint W)} {bs : List (F W)}, Each (fun h b => Fair (Conf d h none ts) b) hs bs → ∀ s, ∃ rs s',
        AllTried v bs s rs s' ∧ (∀ x k, .ok (x, k) ∈ rs → k.rank ≤ 1 → x = v) ∧
        (ConfAny d hs ts v → ∃ k, TPK.rank k ≤ 1 ∧ .ok (v, k) ∈ rs) := by
      intro hs bs hb
      induction hb with
      | nil => intro s; exact ⟨[], s, .nil s, by simp, by simp [ConfAny]⟩
      | @cons h hs b bs h1 _ ih =>
        intro s
        rcases h1 v s with ⟨w, k, s1, g1, g2, g3⟩ | ⟨g1, e, s1, g2, g3⟩
        · obtain ⟨rs, s2, i1, i2, i3⟩ := ih s1
          refine ⟨.ok (w, k) :: rs, s2, .cons g1 (by simp) i1, ?_, ?_⟩
          · intro x j hx
            rcases List.mem_cons.1 hx with hx | hx
            · cases hx; exact g2
            · exact i2 x j hx
          · simp only [ConfAny]
            rintro (h | h)
            · exact ⟨k, g3 h, by rw [← g2 (g3 h)]; exact List.mem_cons_self⟩
            · obtain ⟨k', a, b⟩ := i3 h
              exact ⟨k', a, List.mem_cons_of_mem _ b⟩
        · obtain ⟨rs, s2, i1, i2, i3⟩ := ih s1
          refine ⟨.error e :: rs, s2, .cons g3 (by rintro e' h; cases h; exact g2) i1, ?_, ?_⟩
          · intro x j hx
            rcases List.mem_cons.1 hx with hx | hx
            · cases hx
            · exact i2 x j hx
          · simp only [ConfAny]
            rintro (h | h)
            · exact absurd h g1
            · obtain ⟨k', a, b⟩ := i3 h
              exact ⟨k', a, List.mem_cons_of_mem _ b⟩
    obtain ⟨rs, s1, ht, hval, hex⟩ := hall' hb s
    have k1 := unionLoop_tried ht (ps := []) (best := []) (key := none) (.inl ⟨rfl, rfl, by simp⟩)
    simp only [List.nil_append] at k1
    refine ⟨s1, ?_⟩
    have hbest : ∀ n, ∀ k, TPK.rank k ≤ n → TPK.rank k ≤ 1 → .ok (v, k) ∈ rs →
        ∃ k', TPK.rank k' ≤ 1 ∧ .ok (v, k') ∈ rs ∧ ∀ x j, .ok (x, j) ∈ rs → k'.rank ≤ j.rank := by
      intro n
      induction n with
      | zero => intro k hk hk1 hm; exact ⟨k, hk1, hm, fun x j _ => by omega⟩
      | succ n ih =>
        intro k hk hk1 hm
        by_cases hex : ∃ x j, Except.ok (x, j) ∈ rs ∧ TPK.rank j < k.rank
        · obtain ⟨x, j, hx, hj⟩ := hex
          have := hval x j hx (by omega)
          subst this
          exact ih j (by omega) (by omega) hx
        · refine ⟨k, hk1, hm, fun x j hx => ?_⟩
          exact Nat.le_of_not_lt fun hlt => hex ⟨x, j, hx, hlt⟩
    obtain ⟨k, hk1, hk⟩ := hex hc
    obtain ⟨k', hr, hk', hmin⟩ := hbest _ k (Nat.le_refl _) hk1 hk
    rw [F.call_ok]
    refine ⟨k', ?_⟩
    simp only [F.fill, hall]
    simp only [Bool.false_eq_true, if_false]
    exact k1.1 v k' ⟨hk', fun x j hx => ⟨hmin x j hx, fun he => hval x j hx (by rw [he]; exact hr)⟩⟩

end Records
