import Verif.Props.Legal
import Verif.Props.Class
/-
C129: exactly which field declarations are accepted when the class is created.
-/
namespace Records
variable {W : World}

/-! ### one target -/

theorem make_legal {d : Style} {k : Kind W} {bool : Prop} (hb : k.isBool = true ↔ bool) (pre args : List (Tok W)) :
    (∃ a, Ann.make d k pre args = .ok a) ↔ LegalTokens d bool k.origin (pre ++ args) := by
  rw [(C26_leaf d k pre args).1]
  unfold LegalTokens
  have h1 : (∀ t ∈ pre ++ args, t.usable k.isBool k.origin) ↔
      ∀ t ∈ pre ++ args, ∃ b : Bool, (b = true ↔ bool) ∧ t.usable b k.origin := by
    constructor
    · exact fun h t ht => ⟨_, hb, h t ht⟩
    · intro h t ht
      obtain ⟨b, h1, h2⟩ := h t ht
      have : b = k.isBool := by
        cases hk : k.isBool <;> cases b <;> simp_all
      exact this ▸ h2
  rw [h1]
  simp only [List.all_eq_true, Bool.not_eq_true']

theorem class_legal {d : Style} {c : W.Cls} (pre args : List (Tok W)) :
    (∃ a, Ann.make d (classKind c) pre args = .ok a) ↔ LegalClass d c (pre ++ args) := by
  have := make_legal (d := d) (classKind_isBool c) pre args
  rw [classKind_origin] at this
  exact this

theorem ann_accepted {d : Style} {k : Kind W} {toks args : List (Tok W)} :
    (∃ b, F.applyBind d toks (.ann { kind := k, args := args }) = .ok b) ↔ ∃ a, Ann.make d k toks args = .ok a := by
  constructor
  · rintro ⟨b, hb⟩
    obtain ⟨a, ha, -⟩ := applyBind_ann hb
    exact ⟨a, ha⟩
  · rintro ⟨a, ha⟩
    refine ⟨.ann a, ?_⟩
    unfold Ann.make at ha
    simp only [F.applyBind]
    cases h1 : Ann.applyAll ({ kind := k, args := args } : Ann W) toks with
    | error e => simp [h1] at ha
    | ok a1 => simp only [h1] at ha ⊢; rw [ha]; rfl

theorem wrap_accepted {d : Style} {toks args : List (Tok W)} {k : WrapKind W} {c : W.Cls} {subs : List (F W)} :
    (∃ b, F.applyBind d toks (.wrap false k (classAnn c args) subs) = .ok b) ↔
      ∃ a bs a', Ann.make d (classKind c) toks args = .ok a ∧ F.bindAll d subs = .ok bs ∧ wrapFinish k a bs = .ok a' := by
  constructor
  · rintro ⟨b, hb⟩
    obtain ⟨a, a', bs, h1, h2, h3, -⟩ := applyBind_wrap hb
    exact ⟨a, bs, a', h1, h2, h3⟩
  · rintro ⟨a, bs, a', h1, h2, h3⟩
    refine ⟨.wrap true k a' bs, ?_⟩
    unfold Ann.make at h1
    simp only [F.applyBind, classAnn]
    cases h0 : Ann.applyAll ({ kind := classKind c, args := args } : Ann W) toks with
    | error e => simp [h0] at h1
    | ok a1 => simp only [h0] at h1 ⊢; simp [h1, h2, h3]

/-! ### parts -/

theorem bindAll_union (d : Style) : (fs : List (F W)) → F.bindAll d fs = F.bindUnion d [] fs
  | [] => rfl
  | f :: fs => by
    simp only [F.bindAll, F.bindUnion, bindAll_union d fs, F.applyBind_eq, F.applyAll]

theorem late_ok {d : Style} : (hs : List (Hint W)) → (bs : List (F W)) →
    (F.bindAll d (getFsLate hs) = .ok bs ↔ ∃ fs, getFs hs = .ok fs ∧ F.bindAll d fs = .ok bs)
  | [], bs => by simp [getFsLate, getFs]
  | h :: hs, bs => by
    simp only [getFsLate, getFs]
    cases hg : getF h none with
    | error e => simp [F.bindAll, F.bind]
    | ok f =>
      simp only
      cases hb : F.bind d f with
      | error e =>
        simp only [F.bindAll, hb]
        cases getFs hs <;> simp [F.bindAll, hb]
      | ok b =>
        simp only [F.bindAll, hb]
        have ih := late_ok (d := d) hs
        cases hl : F.bindAll d (getFsLate hs) with
        | error e =>
          cases hgs : getFs hs with
          | error e => simp
          | ok fs =>
            cases hb' : F.bindAll d fs with
            | error e => simp [F.bindAll, hb, hb']
            | ok bs' => rw [(ih bs').2 ⟨fs, hgs, hb'⟩] at hl; cases hl
        | ok bs' =>
          obtain ⟨fs, h1, h2⟩ := (ih bs').1 hl
          simp [h1, F.bindAll, hb, h2]

/-- the last step of binding a container -/
theorem finish_iff {k : WrapKind W} {a : Ann W} {bs : List (F W)} (h0 : ∀ b, k ≠ .typeF b)
    (two : k = .mapping ∨ k = .defaultdict → ∃ x y, bs = [x, y]) (one : k = .tupleVar ∨ k = .iter ∨ k = .deque → ∃ x, bs = [x]) :
    (∃ a', wrapFinish k a bs = .ok a') ↔ (k = .generic ∨ a.style = .hollow → F.allHollow bs = true) := by
  cases k with
  | typeF b => exact absurd rfl (h0 b)
  | tupleFix => by_cases hs : a.style = .hollow <;> cases hb : F.allHollow bs <;> simp [wrapFinish, hs, hb]
  | generic => cases hb : F.allHollow bs <;> simp [wrapFinish, hb]
  | tupleVar | iter | deque =>
    obtain ⟨x, rfl⟩ := one (by simp)
    by_cases hs : a.style = .hollow <;> cases hb : x.isHollow <;> simp [wrapFinish, hs, hb, F.allHollow]
  | mapping | defaultdict =>
    obtain ⟨x, y, rfl⟩ := two (by simp)
    by_cases hs : a.style = .hollow <;> cases hb : (x.isHollow && y.isHollow) <;> simp [wrapFinish, hs, hb, F.allHollow]

theorem bindUnion_length {d : Style} {ts : List (Tok W)} : {fs bs : List (F W)} → F.bindUnion d ts fs = .ok bs → bs.length = fs.length
  | [], bs, h => by simp only [F.bindUnion] at h; cases h; rfl
  | f :: fs, bs, h => by
    obtain ⟨b, bs', -, h2, rfl⟩ := bindUnion_cons h
    simp [bindUnion_length h2]

/-- a container, given that its parts behave as specified -/
theorem wrap_legal {d : Style} {toks args : List (Tok W)} {k : WrapKind W} {c : W.Cls} {hs : List (Hint W)}
    (ih : (∃ fs bs, getFs hs = .ok fs ∧ F.bindUnion d [] fs = .ok bs) ↔ LegalAll d hs [])
    (h0 : ∀ b, k ≠ .typeF b) (two : k = .mapping ∨ k = .defaultdict → hs.length = 2)
    (one : k = .tupleVar ∨ k = .iter ∨ k = .deque → hs.length = 1) :
    (∃ fs b, getFs hs = .ok fs ∧ F.applyBind d toks (.wrap false k (classAnn c args) fs) = .ok b) ↔
      LegalClass d c (toks ++ args) ∧ LegalAll d hs [] ∧
        (k = .generic ∨ styleOf d (toks ++ args) = .hollow → UncheckedAll d hs []) := by
  have fin : ∀ {fs bs : List (F W)} {a : Ann W}, getFs hs = .ok fs → F.bindUnion d [] fs = .ok bs →
      Ann.make d (classKind c) toks args = .ok a →
      ((∃ a', wrapFinish k a bs = .ok a') ↔ (k = .generic ∨ styleOf d (toks ++ args) = .hollow → UncheckedAll d hs [])) := by
    intro fs bs a h1 h2 h3
    have hlen : bs.length = hs.length := by rw [bindUnion_length h2, getFs_length h1]
    rw [finish_iff h0 (fun hk => by
      have := hlen.trans (two hk)
      rcases bs with _ | ⟨x, _ | ⟨y, _ | _⟩⟩ <;> simp at this
      exact ⟨x, y, rfl⟩) (fun hk => by
      have := hlen.trans (one hk)
      rcases bs with _ | ⟨x, _ | _⟩ <;> simp at this
      exact ⟨x, rfl⟩), isHollow_union hs [] fs bs h1 h2, style_of_make h3]
  constructor
  · rintro ⟨fs, b, h1, hb⟩
    obtain ⟨a, bs, a', h2, h3, h4⟩ := wrap_accepted.1 ⟨b, hb⟩
    rw [bindAll_union] at h3
    exact ⟨(class_legal toks args).1 ⟨a, h2⟩, ih.1 ⟨fs, bs, h1, h3⟩, (fin h1 h3 h2).1 ⟨a', h4⟩⟩
  · rintro ⟨hc, hp, hx⟩
    obtain ⟨a, h2⟩ := (class_legal toks args).2 hc
    obtain ⟨fs, bs, h1, h3⟩ := ih.2 hp
    obtain ⟨a', h4⟩ := (fin h1 h3 h2).2 hx
    obtain ⟨b, hb⟩ := wrap_accepted.2 ⟨a, bs, a', h2, bindAll_union d fs ▸ h3, h4⟩
    exact ⟨fs, b, h1, hb⟩

theorem dumb_legal {d : Style} {toks args : List (Tok W)} :
    (∃ f b, (if args.isEmpty then .ok (.dumb false) else .error .typeError : Except Exc (F W)) = .ok f ∧
      F.applyBind d toks f = .ok b) ↔ args = [] ∧ toks = [] ∧ d = .hollow := by
  cases args with
  | cons t ts => simp
  | nil =>
    cases toks with
    | cons t ts => simp [F.applyBind]
    | nil => by_cases hd : d = .hollow <;> simp [F.applyBind, hd]

theorem single {d : Style} {h : Hint W} (ih : (∃ f b, getF h none = .ok f ∧ F.applyBind d [] f = .ok b) ↔ Legal d h none []) :
    (∃ fs bs, getFs [h] = .ok fs ∧ F.bindUnion d [] fs = .ok bs) ↔ LegalAll d [h] [] := by
  simp only [LegalAll, and_true, ← ih]
  constructor
  · rintro ⟨fs, bs, h1, h2⟩
    obtain ⟨f, fs', h3, -, rfl⟩ := getFs_cons h1
    obtain ⟨b, bs', h4, -, -⟩ := bindUnion_cons h2
    exact ⟨f, b, h3, h4⟩
  · rintro ⟨f, b, h1, h2⟩
    exact ⟨[f], [b], by simp [getFs, h1], by simp [F.bindUnion, h2]⟩

theorem pair {d : Style} {h k : Hint W} (ih : (∃ f b, getF h none = .ok f ∧ F.applyBind d [] f = .ok b) ↔ Legal d h none [])
    (ik : (∃ f b, getF k none = .ok f ∧ F.applyBind d [] f = .ok b) ↔ Legal d k none []) :
    (∃ fs bs, getFs [h, k] = .ok fs ∧ F.bindUnion d [] fs = .ok bs) ↔ LegalAll d [h, k] [] := by
  simp only [LegalAll, and_true, ← ih, ← ik]
  constructor
  · rintro ⟨fs, bs, h1, h2⟩
    obtain ⟨f, fs', h3, e1, rfl⟩ := getFs_cons h1
    obtain ⟨b, bs', h4, e2, -⟩ := bindUnion_cons h2
    obtain ⟨f', fs'', h5, -, rfl⟩ := getFs_cons e1
    obtain ⟨b', bs'', h6, -, -⟩ := bindUnion_cons e2
    exact ⟨⟨f, b, h3, h4⟩, f', b', h5, h6⟩
  · rintro ⟨⟨f, b, h1, h2⟩, f', b', h3, h4⟩
    exact ⟨[f, f'], [b, b'], by simp [getFs, h1, h3], by simp [F.bindUnion, h2, h4]⟩

theorem one_part {h : Hint W} {d : Style} {toks : List (Tok W)} {mk : List (F W) → F W} :
    (∃ f b, (match getF h none with | .ok f => .ok (mk [f]) | .error e => .error e : Except Exc (F W)) = .ok f ∧
      F.applyBind d toks f = .ok b) ↔ ∃ fs b, getFs [h] = .ok fs ∧ F.applyBind d toks (mk fs) = .ok b := by
  cases hg : getF h none <;> simp [getFs, hg]

theorem two_parts {h k : Hint W} {d : Style} {toks : List (Tok W)} {mk : List (F W) → F W} :
    (∃ f b, (match getF h none with
      | .error e => .error e
      | .ok f => match getF k none with | .ok f' => .ok (mk [f, f']) | .error e => .error e : Except Exc (F W)) = .ok f ∧
      F.applyBind d toks f = .ok b) ↔ ∃ fs b, getFs [h, k] = .ok fs ∧ F.applyBind d toks (mk fs) = .ok b := by
  cases hg : getF h none <;> cases hg' : getF k none <;> simp [getFs, hg, hg']

theorem all_parts {hs : List (Hint W)} {d : Style} {toks : List (Tok W)} {mk : List (F W) → F W} :
    (∃ f b, (match getFs hs with | .ok fs => .ok (mk fs) | .error e => .error e : Except Exc (F W)) = .ok f ∧
      F.applyBind d toks f = .ok b) ↔ ∃ fs b, getFs hs = .ok fs ∧ F.applyBind d toks (mk fs) = .ok b := by
  cases hg : getFs hs <;> simp

theorem leaf_legal {d : Style} {c : W.Cls} {toks args : List (Tok W)} :
    (∃ f b, (.ok (.ann (classAnn c args)) : Except Exc (F W)) = .ok f ∧ F.applyBind d toks f = .ok b) ↔
      LegalClass d c (toks ++ args) := by
  rw [← class_legal, ← ann_accepted]
  simp [classAnn]

theorem other_legal {d : Style} {k : Kind W} {toks args : List (Tok W)} (hb : k.isBool = false) (ho : k.origin = none) :
    (∃ f b, (.ok (.ann { kind := k, args := args }) : Except Exc (F W)) = .ok f ∧ F.applyBind d toks f = .ok b) ↔
      LegalTokens d False none (toks ++ args) := by
  rw [← ho, ← make_legal (by simp [hb]), ← ann_accepted]
  simp

mutual
theorem legal_iff {d : Style} : (h : Hint W) → (args : Option (List (Tok W))) → (toks : List (Tok W)) →
    ((∃ f b, getF h args = .ok f ∧ F.applyBind d toks f = .ok b) ↔ Legal d h args toks)
  | .cls c, args, toks => by simp only [getF, Legal]; exact leaf_legal
  | .none, args, toks => by simp only [getF, Legal]; exact leaf_legal
  | .any, args, toks => by simp only [getF, Legal]; exact leaf_legal
  | .typeBare, args, toks => by simp only [getF, Legal]; exact leaf_legal
  | .bareGeneric c, args, toks => by simp only [getF, Legal]; exact leaf_legal
  | .callable, args, toks => by simp only [getF, Legal]; exact other_legal rfl rfl
  | .literal id vals, args, toks => by simp only [getF, Legal]; exact other_legal rfl rfl
  | .typeOf base, args, toks => by
    simp only [getF, Legal]
    rw [← class_legal]
    constructor
    · rintro ⟨f, b, h, hb⟩
      cases h
      obtain ⟨a, bs, a', h1, -, -⟩ := wrap_accepted.1 ⟨b, hb⟩
      exact ⟨a, h1⟩
    · rintro ⟨a, ha⟩
      obtain ⟨b, hb⟩ := wrap_accepted.2 ⟨a, [], _, ha, (rfl : F.bindAll d [] = _), (rfl : wrapFinish (.typeF base) a [] = _)⟩
      exact ⟨_, b, rfl, hb⟩
  | .generic c hs, args, toks => by
    simp only [getF, Legal]
    have h := wrap_legal (d := d) (toks := toks) (args := args.getD []) (k := .generic) (c := c) (legal_all hs [])
      (by simp) (by simp) (by simp)
    simp only [true_or, forall_const] at h
    rw [← h]
    constructor
    · rintro ⟨f, b, h, hb⟩
      cases h
      obtain ⟨a, bs, a', h1, h2, h3⟩ := wrap_accepted.1 ⟨b, hb⟩
      obtain ⟨fs, h4, h5⟩ := (late_ok hs bs).1 h2
      obtain ⟨b', hb'⟩ := wrap_accepted.2 ⟨a, bs, a', h1, h5, h3⟩
      exact ⟨fs, b', h4, hb'⟩
    · rintro ⟨fs, b, h4, hb⟩
      obtain ⟨a, bs, a', h1, h2, h3⟩ := wrap_accepted.1 ⟨b, hb⟩
      obtain ⟨b', hb'⟩ := wrap_accepted.2 ⟨a, bs, a', h1, (late_ok hs bs).2 ⟨fs, h4, h2⟩, h3⟩
      exact ⟨_, b', rfl, hb'⟩
  | .tupleFix hs, args, toks => by
    simp only [getF, Legal]
    refine (all_parts (mk := .wrap false .tupleFix (classAnn W.tupleCls (args.getD [])))).trans ?_
    rw [wrap_legal (legal_all hs []) (by simp) (by simp) (by simp)]
    simp
  | .tupleVar h, args, toks => by
    simp only [getF, Legal]
    refine (one_part (mk := .wrap false .tupleVar (classAnn W.tupleCls (args.getD [])))).trans ?_
    rw [wrap_legal (single (legal_iff h none [])) (by simp) (by simp) (by simp)]
    simp [LegalAll, UncheckedAll]
  | .iter c h, args, toks => by
    simp only [getF, Legal]
    refine (one_part (mk := .wrap false .iter (classAnn c (args.getD [])))).trans ?_
    rw [wrap_legal (single (legal_iff h none [])) (by simp) (by simp) (by simp)]
    simp [LegalAll, UncheckedAll]
  | .deque c h, args, toks => by
    simp only [getF, Legal]
    refine (one_part (mk := .wrap false .deque (classAnn c (args.getD [])))).trans ?_
    rw [wrap_legal (single (legal_iff h none [])) (by simp) (by simp) (by simp)]
    simp [LegalAll, UncheckedAll]
  | .mapping c k v, args, toks => by
    simp only [getF, Legal]
    refine (two_parts (mk := .wrap false .mapping (classAnn c (args.getD [])))).trans ?_
    rw [wrap_legal (pair (legal_iff k none []) (legal_iff v none [])) (by simp) (by simp) (by simp)]
    simp [LegalAll, UncheckedAll]
  | .defaultdict c k v, args, toks => by
    simp only [getF, Legal]
    refine (two_parts (mk := .wrap false .defaultdict (classAnn c (args.getD [])))).trans ?_
    rw [wrap_legal (pair (legal_iff k none []) (legal_iff v none [])) (by simp) (by simp) (by simp)]
    simp [LegalAll, UncheckedAll]
  | .newType h, args, toks => by
    simp only [getF, Legal]
    exact legal_iff h _ _
  | .union hs, args, toks => by
    simp only [getF, Legal]
    refine (all_parts (mk := .union false (args.getD []) [])).trans ?_
    rw [← legal_all hs]
    constructor
    · rintro ⟨fs, b, h1, hb⟩
      obtain ⟨bs, h2, -⟩ := applyBind_union hb
      exact ⟨fs, bs, h1, h2⟩
    · rintro ⟨fs, bs, h1, h2⟩
      exact ⟨fs, _, h1, by simp [F.applyBind, h2]; rfl⟩
  | .annotated h ts, none, toks => by
    simp only [getF, Legal]
    exact legal_iff h _ _
  | .annotated h ts, some args, toks => by
    simp only [getF, Legal]
    exact dumb_legal
  | .opaque, args, toks => by
    simp only [getF, Legal]
    exact dumb_legal
theorem legal_all {d : Style} : (hs : List (Hint W)) → (ts : List (Tok W)) →
    ((∃ fs bs, getFs hs = .ok fs ∧ F.bindUnion d ts fs = .ok bs) ↔ LegalAll d hs ts)
  | [], ts => by simp [getFs, F.bindUnion, LegalAll]
  | h :: hs, ts => by
    simp only [LegalAll, ← legal_iff h none ts, ← legal_all hs ts]
    constructor
    · rintro ⟨fs, bs, h1, h2⟩
      obtain ⟨f, fs', h3, h5, rfl⟩ := getFs_cons h1
      obtain ⟨b, bs', h4, h6, -⟩ := bindUnion_cons h2
      exact ⟨⟨f, b, h3, h4⟩, fs', bs', h5, h6⟩
    · rintro ⟨⟨f, b, h1, h2⟩, fs, bs, h3, h4⟩
      exact ⟨f :: fs, b :: bs, by simp [getFs, h1, h3], by simp [F.bindUnion, h2, h4]⟩
end

/-! ### C129 -/

/-- **C129.** A part of a field, with tokens added to it, can be made exactly if it is legal. -/
theorem C129_part (d : Style) (h : Hint W) (toks : List (Tok W)) :
    (∃ f, memberFiller d toks h = .ok f) ↔ Legal d h none toks := by
  rw [← legal_iff]
  unfold memberFiller getFiller
  cases hg : getF h none with
  | error e => simp
  | ok f =>
    simp only [F.applyBind_eq, Except.ok.injEq, exists_and_left, exists_eq_left']
    rfl

theorem applyPre_none (toks : List (Tok W)) : ∀ f : F W, f.applyPre (toks.map fun t => (none, t)) = f.applyAll toks := by
  induction toks with
  | nil => intro f; rfl
  | cons t ts ih =>
    intro f
    simp only [List.map, F.applyPre, F.applySub, F.withSub, F.applyAll]
    cases f.apply t <;> simp [ih]

/-- **C129.** A class with a field of this hint, to which `pre_bind` adds the tokens, can be created exactly if it is legal. -/
theorem C129_field (d : Style) (h : Hint W) (toks : List (Tok W)) :
    (∃ f, makeFiller d (toks.map fun t => (none, t)) h = .ok f) ↔ Legal d h none toks := by
  rw [← C129_part]
  unfold makeFiller memberFiller
  simp only [applyPre_none]
  cases getFiller h with
  | error e => simp
  | ok f => cases hf : f.applyAll toks <;> simp [hf]

/-- **C129.** A class whose `pre_bind` adds tokens to whole fields can be created exactly if each own declaration is legal, all field
names are distinct, there is a field, and the tokens of `pre_bind` go to own fields. -/
theorem C129_class {sp : ClassSpec W} (hok : sp.OK) (hp : ∀ p ∈ sp.parents, Creatable p) (hk : ∀ q ∈ sp.pre, q.2.1 = none) :
    (∃ C, mkClass sp = .ok C) ↔
      (∀ n h, (n, h) ∈ sp.anns → h.Accepted sp.style sp.frozen ((sp.tokensFor n).map (·.2))) ∧
      (sp.inherited ++ sp.declared).Nodup ∧ sp.inherited ++ sp.declared ≠ [] ∧ ∀ q ∈ sp.pre, q.1 ∈ sp.declared := by
  rw [C44_creatable_iff hok hp]
  have hm : ∀ n, sp.tokensFor n = ((sp.tokensFor n).map (·.2)).map fun t => (none, t) := by
    intro n
    rw [List.map_map]
    refine (List.map_id _).symm.trans (List.map_congr_left ?_)
    intro q hq
    simp only [ClassSpec.tokensFor, List.mem_filterMap] at hq
    obtain ⟨r, hr, hq⟩ := hq
    split at hq
    · cases hq; simp [hk r hr]
    · cases hq
  have hl : ∀ n h, sp.legal n h ↔ h.Accepted sp.style sp.frozen ((sp.tokensFor n).map (·.2)) := by
    intro n h
    have key := fun t => C129_field sp.style t ((sp.tokensFor n).map (·.2))
    rw [← hm n] at key
    cases h <;> simp only [ClassSpec.legal, FHint.Accepted, key]
  simp only [hl]

/-! ### tokens inside hints -/

theorem legalAll_mem {d : Style} {h : Hint W} {ts : List (Tok W)} : {hs : List (Hint W)} → LegalAll d hs ts → h ∈ hs → Legal d h none ts
  | [], _, hm => nomatch hm
  | g :: hs, hl, hm => by
    simp only [LegalAll] at hl
    rcases List.mem_cons.1 hm with rfl | hm
    · exact hl.1
    · exact legalAll_mem hl.2 hm

theorem Target.legal {d : Style} {h : Hint W} {args : Option (List (Tok W))} {toks : List (Tok W)} {c : W.Cls} {ts : List (Tok W)}
    (ht : Target h args toks c ts) : Legal d h args toks → LegalClass d c ts := by
  induction ht with
  | cls | none | any | bareGeneric | typeBare | typeOf => exact fun h => by simpa only [Legal] using h
  | tupleFix | tupleVar | iter | deque | mapping | defaultdict | generic => exact fun h => by simp only [Legal] at h; exact h.1
  | newType _ ih | annotated _ ih => exact fun h => ih (by simpa only [Legal] using h)
  | member hm _ ih => exact fun h => ih (by simp only [Legal] at h; exact legalAll_mem h hm)
  | inTupleFix hm _ ih | inGeneric hm _ ih => exact fun h => ih (by simp only [Legal] at h; exact legalAll_mem h.2.1 hm)
  | inTupleVar _ ih | inIter _ ih | inDeque _ ih => exact fun h => ih (by simp only [Legal] at h; exact h.2.1)
  | key _ ih | defaultKey _ ih => exact fun h => ih (by simp only [Legal] at h; exact h.2.1.1)
  | value _ ih | defaultValue _ ih => exact fun h => ih (by simp only [Legal] at h; exact h.2.1.2)

/-- **C129.** In an accepted declaration the tokens that reach a class, anywhere in the hint, are legal on it. -/
theorem C129_target {d : Style} {h : Hint W} {toks : List (Tok W)} {f : F W} {c : W.Cls} {ts : List (Tok W)}
    (hf : makeFiller d (toks.map fun t => (none, t)) h = .ok f) (ht : Target h none toks c ts) : LegalClass d c ts :=
  ht.legal ((C129_field d h toks).1 ⟨f, hf⟩)

/-- **C129.** So a coercion token that does not fit the class it reaches is refused, wherever it is in the hint. -/
theorem C129_misfit {d : Style} {h : Hint W} {toks : List (Tok W)} {c : W.Cls} {ts : List (Tok W)} {t : CTok W} {e : Exc}
    (ht : Target h none toks c ts) (hm : .coercion t ∈ ts) (hu : Unfit c t e) :
    ∀ f, makeFiller d (toks.map fun t => (none, t)) h ≠ .ok f := by
  intro f hf
  obtain ⟨b, hb, g, hg⟩ := (C129_target hf ht).1 _ hm
  have : b = (classKind c).isBool := by
    have := hb.trans (classKind_isBool c).symm
    cases b <;> cases hk : (classKind c).isBool <;> simp_all
  rw [this, hu.get] at hg
  cases hg

/-! ### hints without tokens -/

theorem class_bare {d : Style} {bool : Prop} {o : Option W.Cls} (hd : d ≠ .checkStrict) : LegalTokens d bool o ([] : List (Tok W)) :=
  ⟨by simp, by simp, fun h => absurd h (by simpa [styleOf, lastStyle] using hd)⟩

mutual
theorem free_unchecked : (h : Hint W) → (args : Option (List (Tok W))) → TokenFree h → args.getD [] = [] → Unchecked .hollow h args []
  | .newType h, args, hf, ha => by
    simp only [Unchecked]; exact free_unchecked h _ (by simpa only [TokenFree] using hf) (by simp [ha])
  | .union hs, args, hf, ha => by
    simp only [Unchecked, ha, List.append_nil]; exact free_uncheckedAll hs (by simpa only [TokenFree] using hf)
  | .annotated h ts, none, hf, ha => by
    simp only [TokenFree] at hf
    simp only [Unchecked]; exact free_unchecked h _ hf.2 (by simp [hf.1])
  | .annotated h ts, some args, hf, ha => by simp only [Unchecked]
  | .opaque, args, hf, ha => by simp only [Unchecked]
  | .cls c, args, hf, ha => by simp only [Unchecked, ha]; rfl
  | .none, args, hf, ha => by simp only [Unchecked, ha]; rfl
  | .any, args, hf, ha => by simp only [Unchecked, ha]; rfl
  | .callable, args, hf, ha => by simp only [Unchecked, ha]; rfl
  | .literal _ _, args, hf, ha => by simp only [Unchecked, ha]; rfl
  | .typeBare, args, hf, ha => by simp only [Unchecked, ha]; rfl
  | .typeOf _, args, hf, ha => by simp only [Unchecked, ha]; rfl
  | .bareGeneric _, args, hf, ha => by simp only [Unchecked, ha]; rfl
  | .generic _ _, args, hf, ha => by simp only [Unchecked, ha]; rfl
  | .tupleFix _, args, hf, ha => by simp only [Unchecked, ha]; rfl
  | .tupleVar _, args, hf, ha => by simp only [Unchecked, ha]; rfl
  | .iter _ _, args, hf, ha => by simp only [Unchecked, ha]; rfl
  | .deque _ _, args, hf, ha => by simp only [Unchecked, ha]; rfl
  | .mapping _ _ _, args, hf, ha => by simp only [Unchecked, ha]; rfl
  | .defaultdict _ _ _, args, hf, ha => by simp only [Unchecked, ha]; rfl
theorem free_uncheckedAll : (hs : List (Hint W)) → AllTokenFree hs → UncheckedAll .hollow hs []
  | [], _ => by simp only [UncheckedAll]
  | h :: hs, hf => by
    simp only [AllTokenFree] at hf
    simp only [UncheckedAll]
    exact ⟨free_unchecked h none hf.1 rfl, free_uncheckedAll hs hf.2⟩
end

mutual
theorem free_legal : (h : Hint W) → (args : Option (List (Tok W))) → TokenFree h → args.getD [] = [] → Legal .hollow h args []
  | .newType h, args, hf, ha => by
    simp only [Legal]; exact free_legal h _ (by simpa only [TokenFree] using hf) (by simp [ha])
  | .union hs, args, hf, ha => by
    simp only [Legal, ha, List.append_nil]; exact free_legalAll hs (by simpa only [TokenFree] using hf)
  | .annotated h ts, none, hf, ha => by
    simp only [TokenFree] at hf
    simp only [Legal]; exact free_legal h _ hf.2 (by simp [hf.1])
  | .annotated h ts, some args, hf, ha => by simp only [Legal, and_true]; exact ha
  | .opaque, args, hf, ha => by simpa only [Legal, and_true] using ha
  | .cls c, args, hf, ha => by simp only [Legal, ha]; exact class_bare nofun
  | .none, args, hf, ha => by simp only [Legal, ha]; exact class_bare nofun
  | .any, args, hf, ha => by simp only [Legal, ha]; exact class_bare nofun
  | .callable, args, hf, ha => by simp only [Legal, ha]; exact class_bare nofun
  | .literal _ _, args, hf, ha => by simp only [Legal, ha]; exact class_bare nofun
  | .typeBare, args, hf, ha => by simp only [Legal, ha]; exact class_bare nofun
  | .typeOf _, args, hf, ha => by simp only [Legal, ha]; exact class_bare nofun
  | .bareGeneric _, args, hf, ha => by simp only [Legal, ha]; exact class_bare nofun
  | .generic _ hs, args, hf, ha => by
    simp only [TokenFree] at hf
    simp only [Legal, ha]; exact ⟨class_bare nofun, free_legalAll hs hf, free_uncheckedAll hs hf⟩
  | .tupleFix hs, args, hf, ha => by
    simp only [TokenFree] at hf
    simp only [Legal, ha]; exact ⟨class_bare nofun, free_legalAll hs hf, fun _ => free_uncheckedAll hs hf⟩
  | .tupleVar h, args, hf, ha => by
    simp only [TokenFree] at hf
    simp only [Legal, ha]; exact ⟨class_bare nofun, free_legal h none hf rfl, fun _ => free_unchecked h none hf rfl⟩
  | .iter _ h, args, hf, ha => by
    simp only [TokenFree] at hf
    simp only [Legal, ha]; exact ⟨class_bare nofun, free_legal h none hf rfl, fun _ => free_unchecked h none hf rfl⟩
  | .deque _ h, args, hf, ha => by
    simp only [TokenFree] at hf
    simp only [Legal, ha]; exact ⟨class_bare nofun, free_legal h none hf rfl, fun _ => free_unchecked h none hf rfl⟩
  | .mapping _ k v, args, hf, ha => by
    simp only [TokenFree] at hf
    simp only [Legal, ha]
    exact ⟨class_bare nofun, ⟨free_legal k none hf.1 rfl, free_legal v none hf.2 rfl⟩,
      fun _ => ⟨free_unchecked k none hf.1 rfl, free_unchecked v none hf.2 rfl⟩⟩
  | .defaultdict _ k v, args, hf, ha => by
    simp only [TokenFree] at hf
    simp only [Legal, ha]
    exact ⟨class_bare nofun, ⟨free_legal k none hf.1 rfl, free_legal v none hf.2 rfl⟩,
      fun _ => ⟨free_unchecked k none hf.1 rfl, free_unchecked v none hf.2 rfl⟩⟩
theorem free_legalAll : (hs : List (Hint W)) → AllTokenFree hs → LegalAll .hollow hs []
  | [], _ => by simp only [LegalAll]
  | h :: hs, hf => by
    simp only [AllTokenFree] at hf
    simp only [LegalAll]
    exact ⟨free_legal h none hf.1 rfl, free_legalAll hs hf.2⟩
end

/-- **C129.** In a class that does not check, every hint without tokens is accepted. -/
theorem C129_unchecked {h : Hint W} (hf : TokenFree h) : ∃ f, makeFiller .hollow [] h = .ok f :=
  (C129_field .hollow h []).2 (free_legal h none hf rfl)

mutual
theorem check_legal : (h : Hint W) → (args : Option (List (Tok W))) → TokenFree h → args.getD [] = [] → Checkable args.isSome h →
    Legal .check h args []
  | .newType h, args, hf, ha, hc => by
    simp only [Checkable] at hc
    simp only [Legal]; exact check_legal h _ (by simpa only [TokenFree] using hf) (by simp [ha]) hc
  | .union hs, args, hf, ha, hc => by
    simp only [Checkable] at hc
    simp only [Legal, ha, List.append_nil]; exact check_legalAll hs (by simpa only [TokenFree] using hf) hc
  | .annotated h ts, none, hf, ha, hc => by
    simp only [TokenFree] at hf
    simp only [Checkable] at hc
    simp only [Legal]; exact check_legal h _ hf.2 (by simp [hf.1]) hc.2
  | .annotated h ts, some args, hf, ha, hc => by simp [Checkable] at hc
  | .opaque, args, hf, ha, hc => by simp [Checkable] at hc
  | .cls c, args, hf, ha, hc => by simp only [Legal, ha]; exact class_bare nofun
  | .none, args, hf, ha, hc => by simp only [Legal, ha]; exact class_bare nofun
  | .any, args, hf, ha, hc => by simp only [Legal, ha]; exact class_bare nofun
  | .callable, args, hf, ha, hc => by simp only [Legal, ha]; exact class_bare nofun
  | .literal _ _, args, hf, ha, hc => by simp only [Legal, ha]; exact class_bare nofun
  | .typeBare, args, hf, ha, hc => by simp only [Legal, ha]; exact class_bare nofun
  | .typeOf _, args, hf, ha, hc => by simp only [Legal, ha]; exact class_bare nofun
  | .bareGeneric _, args, hf, ha, hc => by simp only [Legal, ha]; exact class_bare nofun
  | .generic _ hs, args, hf, ha, hc => by
    simp only [Checkable] at hc
    subst hc
    simp only [Legal, ha]; exact ⟨class_bare nofun, by simp only [LegalAll], by simp only [UncheckedAll]⟩
  | .tupleFix hs, args, hf, ha, hc => by
    simp only [TokenFree] at hf
    simp only [Checkable] at hc
    simp only [Legal, ha]; exact ⟨class_bare nofun, check_legalAll hs hf hc, nofun⟩
  | .tupleVar h, args, hf, ha, hc => by
    simp only [TokenFree] at hf
    simp only [Checkable] at hc
    simp only [Legal, ha]; exact ⟨class_bare nofun, check_legal h none hf rfl hc, nofun⟩
  | .iter _ h, args, hf, ha, hc => by
    simp only [TokenFree] at hf
    simp only [Checkable] at hc
    simp only [Legal, ha]; exact ⟨class_bare nofun, check_legal h none hf rfl hc, nofun⟩
  | .deque _ h, args, hf, ha, hc => by
    simp only [TokenFree] at hf
    simp only [Checkable] at hc
    simp only [Legal, ha]; exact ⟨class_bare nofun, check_legal h none hf rfl hc, nofun⟩
  | .mapping _ k v, args, hf, ha, hc => by
    simp only [TokenFree] at hf
    simp only [Checkable] at hc
    simp only [Legal, ha]
    exact ⟨class_bare nofun, ⟨check_legal k none hf.1 rfl hc.1, check_legal v none hf.2 rfl hc.2⟩, nofun⟩
  | .defaultdict _ k v, args, hf, ha, hc => by
    simp only [TokenFree] at hf
    simp only [Checkable] at hc
    simp only [Legal, ha]
    exact ⟨class_bare nofun, ⟨check_legal k none hf.1 rfl hc.1, check_legal v none hf.2 rfl hc.2⟩, nofun⟩
theorem check_legalAll : (hs : List (Hint W)) → AllTokenFree hs → AllCheckable hs → LegalAll .check hs []
  | [], _, _ => by simp only [LegalAll]
  | h :: hs, hf, hc => by
    simp only [AllTokenFree] at hf
    simp only [AllCheckable] at hc
    simp only [LegalAll]
    exact ⟨check_legal h none hf.1 rfl hc.1, check_legalAll hs hf.2 hc.2⟩
end

/-- **C129.** In a class that checks by subclass, every hint without tokens is accepted if all its parts can be checked. -/
theorem C129_checked {h : Hint W} (hf : TokenFree h) (hc : Checkable false h) : ∃ f, makeFiller .check [] h = .ok f :=
  (C129_field .check h []).2 (check_legal h none hf rfl hc)

end Records

namespace Records.Toy.Acc
open Records

/-- `List[Union[bool, Annotated[tuple, FromInteger]]]` -/
def bad : Hint Toy.W := .iter Toy.W.tupleCls (.union [.cls Toy.W.boolCls, .annotated (.cls Toy.W.tupleCls) [.coercion .fromInteger]])
/-- `List[Union[bool, Annotated[bool, FromInteger]]]` -/
def good : Hint Toy.W := .iter Toy.W.tupleCls (.union [.cls Toy.W.boolCls, .annotated (.cls Toy.W.boolCls) [.coercion .fromInteger]])

theorem notBool : ¬ BoolType Toy.W.tupleCls := by
  rintro (h | h)
  · cases h
  · cases h.1

example : ∀ f, makeFiller .check [] bad ≠ .ok f :=
  C129_misfit (toks := []) (c := Toy.W.tupleCls) (.inIter (.member (by simp) (.annotated .cls)))
    (List.mem_singleton.2 rfl) (.fromInteger notBool)

example : Legal .check good none [] := (C129_field .check good []).1 ⟨_, rfl⟩

example : ¬ Legal .check bad none [] := fun h =>
  have ⟨f, hf⟩ := (C129_field .check bad []).2 h
  C129_misfit (toks := []) (c := Toy.W.tupleCls) (.inIter (.member (by simp) (.annotated .cls)))
    (List.mem_singleton.2 rfl) (.fromInteger notBool) f hf

-- `Dict[Type, Tuple[bool, ...]]`
example : ∃ f, makeFiller (W := Toy.W) .check [] (.mapping Toy.W.tupleCls .typeBare (.tupleVar (.cls Toy.W.boolCls))) = .ok f :=
  C129_checked (by simp [TokenFree]) (by simp [Checkable])

-- a class cannot check an uninterpretable hint, one that does not check can have it
example : ∃ f, makeFiller (W := Toy.W) .hollow [] (.iter Toy.W.tupleCls .opaque) = .ok f := C129_unchecked (by simp [TokenFree])
example : ¬ Legal (W := Toy.W) .check (.iter Toy.W.tupleCls .opaque) none [] := by simp [Legal]

end Records.Toy.Acc
