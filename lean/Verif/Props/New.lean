import Verif.Proofs.New
import Verif.Proofs.ClassMore
import Verif.Spec.ToyEnv
set_option linter.unusedSimpArgs false
/-
C49-C56, C60-C62: construction.
-/
namespace Records
variable {W : World}

/-! ### helpers -/

theorem construct_none {E : Env W} {C : RecClass W} {parse : W.Obj → M W (Res W)} {kw : Dict W.Obj} :
    construct E C parse none kw = newFields E C none kw := rfl

theorem newFields_ok {E : Env W} {C : RecClass W} (wf : C.WF) {kw : Dict W.Obj} (hkw : Dict.WF kw) {s s' : LState W} {r : Res W}
    (h : newFields E C none kw s = (.ok r, s')) :
    ∃ out s1 defs s2 i x, FillArgs C.fields kw s out s1 ∧ (∀ k ∈ C.required, k ∈ kw.keys) ∧
      DefaultSeq C.fields (C.unsupplied E kw) s1 defs s2 ∧ C.postNew (C.fresh (out ++ defs)) s2 = (.ok (i, x), s') ∧
      Replaced C i x r := by
  obtain ⟨o, s1, hb⟩ := build_total (E := E) wf kw s
  have hs := newFields_spec wf hkw none hb
  rw [h] at hs
  cases hb with
  | unknownKey h1 h2 => cases hs
  | fillError h1 h2 =>
    rename_i k e
    cases he : e.isException <;> simp [Outcome.resolve, he] at hs
  | missing h1 h2 h3 => cases hs
  | factoryError h1 h2 h3 => cases hs
  | postError h1 h2 h3 h4 => cases hs
  | made h1 h2 h3 h4 h5 =>
    cases hs
    exact ⟨_, _, _, _, _, _, h1, h2, h3, h4, h5⟩

theorem DefaultSeq.get {fields : Dict (Field W)} {ks : List String} {s s' : LState W} {out : Dict W.Obj}
    (h : DefaultSeq fields ks s out s') {k : String} (hk : k ∈ ks) :
    ∃ f d w s1 s2, fields.get? k = some f ∧ f.default = some d ∧ Makes d s1 (.ok w) s2 ∧ out.get? k = some w := by
  induction h with
  | nil => cases hk
  | @cons k' f d ks s w s1 out s2 h1 h2 h3 _ ih =>
    simp only [Dict.get?]
    by_cases he : k' = k
    · subst he
      exact ⟨f, d, w, s, s1, h1, h2, h3, by simp⟩
    · simp only [he, if_false]
      exact ih (by cases hk with | head => exact absurd rfl he | tail _ h => exact h)

theorem get?_append {V : Type} (d e : Dict V) (k : String) : Dict.get? (d ++ e) k = (d.get? k).or (e.get? k) := by
  induction d with
  | nil => simp
  | cons a d ih =>
    obtain ⟨k', v⟩ := a
    simp only [List.cons_append, Dict.get?_cons]
    by_cases h : k' = k <;> simp [h, ih]

theorem fields_split {C : RecClass W} (wf : C.WF) (k : String) : k ∈ C.fields.keys ↔ k ∈ C.required ∨ k ∈ C.optional := by
  rw [wf.req, wf.opt, ← Dict.get?_isSome_iff, Option.isSome_iff_exists]
  constructor
  · rintro ⟨f, hf⟩
    cases hd : f.default with
    | none => exact .inl ⟨f, hf, hd⟩
    | some d => exact .inr ⟨f, d, hf, hd⟩
  · rintro (⟨f, hf, _⟩ | ⟨f, _, hf, _⟩) <;> exact ⟨f, hf⟩

theorem req_not_opt {C : RecClass W} (wf : C.WF) {k : String} (h : k ∈ C.required) : k ∉ C.optional := by
  rw [wf.req] at h
  rw [wf.opt]
  rintro ⟨f, d, hf, hd⟩
  obtain ⟨f', hf', hd'⟩ := h
  rw [hf] at hf'; cases hf'; rw [hd] at hd'; cases hd'

/-- the attributes of a new instance are those of the fields -/
theorem values_keys {E : Env W} {C : RecClass W} (wf : C.WF) {kw out defs : Dict W.Obj} {s s1 s2 : LState W} (hkw : Dict.WF kw)
    (h1 : FillArgs C.fields kw s out s1) (hr : ∀ k ∈ C.required, k ∈ kw.keys)
    (h2 : DefaultSeq C.fields (C.unsupplied E kw) s1 defs s2) : ((out ++ defs).map (·.1)).Perm (C.fields.map (·.1)) := by
  refine perm_of_nodup (values_wf wf hkw h1 h2) wf.nodup ?_
  intro k
  have e1 : List.map (·.1) (out ++ defs) = kw.keys ++ C.unsupplied E kw := by
    show Dict.keys (out ++ defs) = _
    rw [Dict.keys_append, h1.keys.1, h2.keys]
  rw [e1, List.mem_append, ((unsupplied_mem (E := E) wf (kw := kw)).2 k)]
  show _ ↔ k ∈ C.fields.keys
  constructor
  · rintro (h | ⟨h, _⟩)
    · exact h1.keys.2 k h
    · exact (fields_split wf k).2 (.inr h)
  · intro h
    by_cases hk : k ∈ kw.keys
    · exact .inl hk
    · rcases (fields_split wf k).1 h with h | h
      · exact absurd (hr k h) hk
      · exact .inr ⟨h, hk⟩

/-! ### C49 -/

/-- C49: the constructor does what the specification `Build` says, for some order of the missing optional fields; and something always
happens. -/
theorem C49_construction_refines {E : Env W} {C : RecClass W} (hC : Creatable C) (parse : W.Obj → M W (Res W))
    {kw : Dict W.Obj} (hkw : (kw.map (·.1)).Nodup) (s : LState W) :
    ∃ order o s', order.Perm (C.optional.filter fun k => decide (k ∉ kw.map (·.1))) ∧ Build C kw order s o s' ∧
      construct E C parse none kw s = (o.resolve E C none, s') := by
  have wf := hC.wf
  obtain ⟨o, s', hb⟩ := build_total (E := E) wf kw s
  refine ⟨_, o, s', ?_, hb, newFields_spec wf hkw none hb⟩
  unfold RecClass.unsupplied
  have : (C.optional.filter fun k => !kw.has k) = C.optional.filter fun k => decide (k ∉ kw.map (·.1)) := by
    apply List.filter_congr
    intro k _
    by_cases h : k ∈ kw.map (·.1)
    · simp [h, (Dict.has_iff kw k).2 h]
    · simp [h, (Dict.has_eq_false_iff kw k).2 h]
  rw [← this]
  exact E.setOrder_perm _

/-- C49: a successful keyword construction whose `post_new` does nothing yields a new instance of the class with exactly the class's
fields: a supplied field holds what its filler returned, any other field its default. -/
theorem C49_keyword_construction {E : Env W} {C : RecClass W} (hC : Creatable C) {parse : W.Obj → M W (Res W)}
    {kw : Dict W.Obj} (hkw : (kw.map (·.1)).Nodup) {s s' : LState W} {r : Res W}
    (hpost : ∀ i s, C.postNew i s = (.ok (i, none), s))
    (h : construct E C parse none kw s = (.ok r, s')) :
    ∃ i : Inst W, r = .new i ∧ i.cid = C.cid ∧ (i.dict.map (·.1)).Perm (C.fields.map (·.1)) ∧
      (∀ k v, (k, v) ∈ kw → ∃ f w s1 s2, (k, f) ∈ C.fields ∧ f.filler.call v s1 = (.ok w, s2) ∧ (k, w) ∈ i.dict) ∧
      (∀ k f, (k, f) ∈ C.fields → k ∉ kw.map (·.1) →
        ∃ d w s1 s2, f.default = some d ∧ Makes d s1 (.ok w) s2 ∧ (k, w) ∈ i.dict) ∧
      i.hash = if C.frozen then some none else none := by
  have wf := hC.wf
  obtain ⟨out, s1, defs, s2, i, x, h1, hr, h2, h3, h4⟩ := newFields_ok wf hkw h
  rw [hpost] at h3
  cases h3
  cases h4
  refine ⟨_, rfl, rfl, values_keys wf hkw h1 hr h2, ?_, ?_, rfl⟩
  · intro k v hm
    obtain ⟨f, w, s1, s2, hf, hc, hw⟩ := h1.get (Dict.mem_get? kw hkw k v hm)
    exact ⟨f, w, s1, s2, Dict.get?_eq_some_mem _ _ _ hf, hc, List.mem_append_left _ (Dict.get?_eq_some_mem _ _ _ hw)⟩
  · intro k f hf hk
    have hf := Dict.mem_get? C.fields wf.nodup k f hf
    have ho : k ∈ C.optional := by
      rcases (fields_split wf k).1 ((Dict.get?_isSome_iff _ _).1 (by rw [hf]; rfl)) with h | h
      · exact absurd (hr k h) hk
      · exact h
    obtain ⟨f', d, w, s1, s2, hf', hd, hm, hw⟩ := h2.get (((unsupplied_mem (E := E) wf (kw := kw)).2 k).2 ⟨ho, hk⟩)
    rw [hf] at hf'; cases hf'
    exact ⟨d, w, s1, s2, hd, hm, List.mem_append_right _ (Dict.get?_eq_some_mem _ _ _ hw)⟩

/-! ### C50, C51 -/

/-- a positional argument that is not parsed -/
theorem construct_skip {E : Env W} {C : RecClass W} {parse : W.Obj → M W (Res W)} {a : W.Obj} {kw : Dict W.Obj}
    (h : (kw.isEmpty && C.unary) = false) :
    (∀ key, C.required = [key] → construct E C parse (some a) kw =
      if kw.has key then M.throw .typeError else newFields E C none (kw.set key a)) ∧
    (C.required.length ≠ 1 → construct E C parse (some a) kw = M.throw .typeError) := by
  have : tryParse C parse a kw = M.pure none := by unfold tryParse; rw [h]; rfl
  simp only [construct, this, M.pure_bind]
  refine ⟨fun key hk => by rw [hk], fun hl => ?_⟩
  split
  · rename_i hk; rw [hk] at hl; exact absurd rfl hl
  · rfl

theorem one_or_not (l : List String) : (∃ k, l = [k]) ∨ l.length ≠ 1 := by
  rcases l with _ | ⟨a, _ | ⟨b, l⟩⟩ <;> simp

theorem newFields_unknown {E : Env W} {C : RecClass W} {st : Option (Res W)} {kw : Dict W.Obj} {k : String} (hk : k ∈ kw.keys)
    (hn : k ∉ C.fields.keys) (s : LState W) : newFields E C st kw s = (.error .typeError, s) := by
  unfold newFields
  rw [if_pos]
  · rfl
  · simp only [List.any_eq_true]
    exact ⟨k, hk, by simp [(Dict.has_eq_false_iff C.fields _).2 hn]⟩

/-- C50: with an unknown keyword, construction raises TypeError and the state is untouched: no parser, filler, factory or `post_new`
has run, with or without a positional argument. -/
theorem C50_unknown_keyword {E : Env W} {C : RecClass W} (parse : W.Obj → M W (Res W)) (arg : Option W.Obj)
    {kw : Dict W.Obj} {k : String} (hk : k ∈ kw.map (·.1)) (hn : k ∉ C.fields.map (·.1)) (s : LState W) :
    construct E C parse arg kw s = (.error .typeError, s) := by
  cases arg with
  | none => exact newFields_unknown hk hn s
  | some a =>
    have he : kw.isEmpty = false := by cases kw with | nil => cases hk | cons => rfl
    rcases one_or_not C.required with ⟨key, hr⟩ | hr
    · rw [(construct_skip (by simp [he])).1 key hr]
      split
      · rfl
      · exact newFields_unknown ((Dict.mem_keys_set _ _ _ _).2 (.inr hk)) hn s
    · rw [(construct_skip (by simp [he])).2 hr]; rfl

/-- C51: if a required field is missing, keyword construction raises; unless there is an unknown keyword (C50), the final state is the one
after the fillings (no factory, no `post_new`), and the error is that of the first failing filler, or TypeError. -/
theorem C51_missing_required {E : Env W} {C : RecClass W} (hC : Creatable C) (parse : W.Obj → M W (Res W))
    {kw : Dict W.Obj} (hkw : (kw.map (·.1)).Nodup) {k : String} (hk : k ∈ C.required) (hn : k ∉ kw.map (·.1)) (s : LState W) :
    (∃ e s', construct E C parse none kw s = (.error e, s')) ∧
    ((∀ k ∈ kw.map (·.1), k ∈ C.fields.map (·.1)) →
      (∃ out s', FillArgs C.fields kw s out s' ∧ construct E C parse none kw s = (.error .typeError, s')) ∨
      (∃ k e s', FillArgsFail C.fields kw s k e s' ∧
        construct E C parse none kw s = (.error (if e.isException then rewrapErr E e k else e), s'))) := by
  have wf := hC.wf
  by_cases h : ∀ k ∈ kw.map (·.1), k ∈ C.fields.map (·.1)
  · rcases fill_total C.fields kw s h with ⟨out, s1, h1⟩ | ⟨k', e, s1, h1⟩
    · have := newFields_spec (E := E) wf hkw none (Build.missing h1 hk hn)
      exact ⟨⟨_, _, this⟩, fun _ => .inl ⟨out, s1, h1, this⟩⟩
    · have := newFields_spec (E := E) wf hkw none (Build.fillError h h1)
      have e1 : Outcome.resolve E C none (.fillError k' e) = .error (if e.isException then rewrapErr E e k' else e) := by
        simp only [Outcome.resolve]
        split <;> rfl
      rw [e1] at this
      exact ⟨⟨_, _, this⟩, fun _ => .inr ⟨k', e, s1, h1, this⟩⟩
  · refine ⟨?_, fun hh => absurd hh h⟩
    have : ∃ k, k ∈ kw.map (·.1) ∧ k ∉ C.fields.map (·.1) := by
      apply Classical.byContradiction
      intro hn
      exact h fun k hk => Classical.byContradiction fun hk' => hn ⟨k, hk, hk'⟩
    obtain ⟨k', h1, h2⟩ := this
    exact ⟨_, _, C50_unknown_keyword parse none h1 h2 s⟩

/-! ### C52 -/

/-- C52: the plain default of a missing field reaches `post_new` as it is; a value passed explicitly reaches it as the output of the filler. -/
theorem C52_default_verbatim {E : Env W} {C : RecClass W} (hC : Creatable C) {parse : W.Obj → M W (Res W)}
    {kw : Dict W.Obj} (hkw : (kw.map (·.1)).Nodup) {s s' : LState W} {r : Res W}
    (h : construct E C parse none kw s = (.ok r, s')) {k : String} {f : Field W} (hf : (k, f) ∈ C.fields) :
    ∃ values s2 i x, C.postNew (C.fresh values) s2 = (.ok (i, x), s') ∧ Replaced C i x r ∧
      (k ∉ kw.map (·.1) → ∀ d, f.default = some (.value d) → (k, d) ∈ values) ∧
      (∀ v, (k, v) ∈ kw → ∃ w s1 s1', f.filler.call v s1 = (.ok w, s1') ∧ (k, w) ∈ values) := by
  have wf := hC.wf
  obtain ⟨out, s1, defs, s2, i, x, h1, hr, h2, h3, h4⟩ := newFields_ok wf hkw h
  have hf := Dict.mem_get? C.fields wf.nodup k f hf
  refine ⟨_, s2, i, x, h3, h4, ?_, ?_⟩
  · intro hk d hd
    have ho : k ∈ C.optional := (wf.opt k).2 ⟨f, _, hf, hd⟩
    obtain ⟨f', d', w, s1, s2, hf', hd', hm, hw⟩ := h2.get (((unsupplied_mem (E := E) wf (kw := kw)).2 k).2 ⟨ho, hk⟩)
    rw [hf] at hf'; cases hf'
    rw [hd] at hd'; cases hd'
    cases hm
    exact List.mem_append_right _ (Dict.get?_eq_some_mem _ _ _ hw)
  · intro v hv
    obtain ⟨f', w, s1, s2, hf', hc, hw⟩ := h1.get (Dict.mem_get? kw hkw k v hv)
    rw [hf] at hf'; cases hf'
    exact ⟨w, s1, s2, hc, List.mem_append_left _ (Dict.get?_eq_some_mem _ _ _ hw)⟩

theorem fillLoop_congr {E : Env W} {fields fields' : Dict (Field W)} {st : Option (Res W)} {kw acc : Dict W.Obj}
    (h : ∀ k ∈ kw.keys, fields.get? k = fields'.get? k) : fillLoop E fields st kw acc = fillLoop E fields' st kw acc := by
  induction kw generalizing acc with
  | nil => rfl
  | cons a kw ih =>
    obtain ⟨k, v⟩ := a
    funext s
    simp only [fillLoop, ← h k (by simp)]
    cases fields.get? k with
    | none => rfl
    | some f => simp only [ih (fun k hk => h k (by simp [hk]))]

theorem defaultLoop_congr {fields fields' : Dict (Field W)} {ks : List String} {acc : Dict W.Obj}
    (h : ∀ k, (fields.get? k).bind (·.default) = (fields'.get? k).bind (·.default)) :
    defaultLoop fields ks acc = defaultLoop fields' ks acc := by
  induction ks generalizing acc with
  | nil => rfl
  | cons k ks ih =>
    simp only [defaultLoop, ← h k]
    cases (fields.get? k).bind (·.default) with
    | none => rfl
    | some d => simp only; congr 1; funext v; exact ih

/-- C52: the filler of a field that is not supplied is irrelevant: replacing it by any other filler changes nothing. -/
theorem C52_filler_not_used {E : Env W} {C : RecClass W} {parse : W.Obj → M W (Res W)} {kw : Dict W.Obj}
    {k : String} {f : Field W} (hf : C.fields.get? k = some f) (hk : k ∉ kw.map (·.1)) (g : F W) :
    construct E { C with fields := C.fields.set k { f with filler := g } } parse none kw = construct E C parse none kw := by
  have hkeys : ∀ k', (C.fields.set k { f with filler := g }).has k' = C.fields.has k' := by
    intro k'
    unfold Dict.has
    rw [Dict.get?_set]
    by_cases h : k' = k
    · subst h; simp [hf]
    · simp [h]
  rw [construct_none, construct_none]
  unfold newFields
  simp only [hkeys]
  rw [fillLoop_congr (fields' := C.fields)]
  · split
    · rfl
    · congr 1
      funext r
      cases r with
      | inl p => rfl
      | inr values =>
        simp only
        rw [defaultLoop_congr (fields' := C.fields)]
        · rfl
        · intro k'
          rw [Dict.get?_set]
          by_cases h : k' = k
          · subst h; simp [hf]
          · simp [h]
  · intro k' hk'
    rw [Dict.get?_set, if_neg]
    rintro rfl
    exact hk hk'

/-! ### C53 -/

theorem Quiet.run {α : Type} {x : M W α} (h : Quiet x) {s s' : LState W} {r : Except Exc α} (hx : x s = (r, s')) :
    s'.user = s.user ∧ ∀ t, ∃ t', x t = (r, t') ∧ t'.user = t.user := by
  obtain ⟨r0, h⟩ := h
  have h1 := h s
  rw [hx] at h1
  refine ⟨h1.2, fun t => ⟨(x t).2, ?_, (h t).2⟩⟩
  have := (h t).1
  rw [← h1.1] at this
  exact Prod.ext this rfl

theorem fill_perm {C : RecClass W} (q : QuietFields C) {kw kw' : Dict W.Obj} (hp : kw.Perm kw') :
    ∀ s out s', FillArgs C.fields kw s out s' → ∀ t, ∃ out' t', FillArgs C.fields kw' t out' t' ∧ out.Perm out' ∧
      s'.user = s.user ∧ t'.user = t.user := by
  induction hp with
  | nil =>
    intro s out s' h t
    cases h
    exact ⟨[], t, .nil t, .nil, rfl, rfl⟩
  | cons x _ ih =>
    intro s out s' h t
    cases h with
    | cons h1 h2 h3 =>
      obtain ⟨e1, hq⟩ := (q.fillers _ (Dict.get?_eq_some_mem _ _ _ h1) _).run h2
      obtain ⟨t1, h2', e2⟩ := hq t
      obtain ⟨out', t', h3', hp', e3, e4⟩ := ih _ _ _ h3 t1
      exact ⟨_, t', .cons h1 h2' h3', hp'.cons _, e3.trans e1, e4.trans e2⟩
  | swap x y l =>
    intro s out s' h t
    cases h with
    | cons h1 h2 h3 =>
      cases h3 with
      | cons g1 g2 g3 =>
        obtain ⟨e1, hq⟩ := (q.fillers _ (Dict.get?_eq_some_mem _ _ _ h1) _).run h2
        obtain ⟨e2, gq⟩ := (q.fillers _ (Dict.get?_eq_some_mem _ _ _ g1) _).run g2
        obtain ⟨t1, g2', e3⟩ := gq t
        obtain ⟨t2, h2', e4⟩ := hq t1
        have hs := fill_same q g3
        obtain ⟨t3, h3', e5, e6⟩ := hs t2
        exact ⟨_, t3, .cons g1 g2' (.cons h1 h2' h3'), .swap _ _ _, e5.trans (e2.trans e1), e6.trans (e4.trans e3)⟩
  | trans _ _ ih1 ih2 =>
    intro s out s' h t
    obtain ⟨o1, t1, h1, p1, e1, e2⟩ := ih1 _ _ _ h t
    obtain ⟨o2, t2, h2, p2, e3, e4⟩ := ih2 _ _ _ h1 t
    exact ⟨o2, t2, h2, p1.trans p2, e1, e4⟩
where
  fill_same {C : RecClass W} (q : QuietFields C) {kw : Dict W.Obj} {s out s'} (h : FillArgs C.fields kw s out s') :
      ∀ t, ∃ t', FillArgs C.fields kw t out t' ∧ s'.user = s.user ∧ t'.user = t.user := by
    induction h with
    | nil => exact fun t => ⟨t, .nil t, rfl, rfl⟩
    | cons h1 h2 _ ih =>
      intro t
      obtain ⟨e1, hq⟩ := (q.fillers _ (Dict.get?_eq_some_mem _ _ _ h1) _).run h2
      obtain ⟨t1, h2', e2⟩ := hq t
      obtain ⟨t2, h3, e3, e4⟩ := ih t1
      exact ⟨t2, .cons h1 h2' h3, e3.trans e1, e4.trans e2⟩

theorem makes_quiet {C : RecClass W} (q : QuietFields C) {k : String} {f : Field W} {d : Deflt W} (hf : C.fields.get? k = some f)
    (hd : f.default = some d) : Quiet d.make := by
  cases d with
  | value v => exact ⟨.ok v, fun s => ⟨rfl, rfl⟩⟩
  | factory g => exact q.factories _ (Dict.get?_eq_some_mem _ _ _ hf) g hd

theorem Makes.of_eq {d : Deflt W} {s s' : LState W} {r : Except Exc W.Obj} (h : d.make s = (r, s')) : Makes d s r s' := by
  have := makes_total d s
  rw [h] at this
  exact this

theorem default_perm {C : RecClass W} (q : QuietFields C) {ks ks' : List String} (hp : ks.Perm ks') :
    ∀ s out s', DefaultSeq C.fields ks s out s' → ∀ t, ∃ out' t', DefaultSeq C.fields ks' t out' t' ∧ out.Perm out' ∧
      s'.user = s.user ∧ t'.user = t.user := by
  have step : ∀ {k f d s w s1}, C.fields.get? k = some f → f.default = some d → Makes d s (.ok w) s1 → s1.user = s.user ∧
      ∀ t, ∃ t', Makes d t (.ok w) t' ∧ t'.user = t.user := by
    intro k f d s w s1 hf hd hm
    obtain ⟨e1, hq⟩ := (makes_quiet q hf hd).run hm.eq
    refine ⟨e1, fun t => ?_⟩
    obtain ⟨t', h, e⟩ := hq t
    exact ⟨t', .of_eq h, e⟩
  have same : ∀ {ks s out s'}, DefaultSeq C.fields ks s out s' → ∀ t, ∃ t', DefaultSeq C.fields ks t out t' ∧
      s'.user = s.user ∧ t'.user = t.user := by
    intro ks s out s' h
    induction h with
    | nil => exact fun t => ⟨t, .nil t, rfl, rfl⟩
    | cons h1 h2 h3 _ ih =>
      intro t
      obtain ⟨e1, hq⟩ := step h1 h2 h3
      obtain ⟨t1, h3', e2⟩ := hq t
      obtain ⟨t2, h4, e3, e4⟩ := ih t1
      exact ⟨t2, .cons h1 h2 h3' h4, e3.trans e1, e4.trans e2⟩
  induction hp with
  | nil =>
    intro s out s' h t
    cases h
    exact ⟨[], t, .nil t, .nil, rfl, rfl⟩
  | cons x _ ih =>
    intro s out s' h t
    cases h with
    | cons h1 h2 h3 h4 =>
      obtain ⟨e1, hq⟩ := step h1 h2 h3
      obtain ⟨t1, h3', e2⟩ := hq t
      obtain ⟨out', t', h4', hp', e3, e4⟩ := ih _ _ _ h4 t1
      exact ⟨_, t', .cons h1 h2 h3' h4', hp'.cons _, e3.trans e1, e4.trans e2⟩
  | swap x y l =>
    intro s out s' h t
    cases h with
    | cons h1 h2 h3 h4 =>
      cases h4 with
      | cons g1 g2 g3 g4 =>
        obtain ⟨e1, hq⟩ := step h1 h2 h3
        obtain ⟨e2, gq⟩ := step g1 g2 g3
        obtain ⟨t1, g3', e3⟩ := gq t
        obtain ⟨t2, h3', e4⟩ := hq t1
        obtain ⟨t3, h4', e5, e6⟩ := same g4 t2
        exact ⟨_, t3, .cons g1 g2 g3' (.cons h1 h2 h3' h4'), .swap _ _ _, e5.trans (e2.trans e1), e6.trans (e4.trans e3)⟩
  | trans _ _ ih1 ih2 =>
    intro s out s' h t
    obtain ⟨o1, t1, h1, p1, e1, e2⟩ := ih1 _ _ _ h t
    obtain ⟨o2, t2, h2, p2, e3, e4⟩ := ih2 _ _ _ h1 t
    exact ⟨o2, t2, h2, p1.trans p2, e1, e4⟩

theorem SameRes.truthy {C : RecClass W} (ob : OrderBlind C) {x y : Res W} (h : SameRes x y) : Res.true C x ↔ Res.true C y := by
  cases h with
  | old v => rfl
  | new h => simp only [Res.true, ob.truthy _ _ h]

/-- C53: with fillers and factories free of visible effects, and `post_new` and `__bool__` blind to the order of `__dict__`, permuting the
keyword arguments and changing the iteration order of sets (`E'` instead of `E`) yields the same record. -/
theorem C53_order_irrelevant {E E' : Env W} {C : RecClass W} (hC : Creatable C) (q : QuietFields C) (ob : OrderBlind C)
    (parse parse' : W.Obj → M W (Res W)) {kw kw' : Dict W.Obj} (hkw : (kw.map (·.1)).Nodup) (hp : kw.Perm kw')
    {s s' t : LState W} (hst : s.user = t.user) {r : Res W} (h : construct E C parse none kw s = (.ok r, s')) :
    ∃ r' t', construct E' C parse' none kw' t = (.ok r', t') ∧ SameRes r r' := by
  have wf := hC.wf
  have hkp : kw.keys.Perm kw'.keys := hp.map _
  have hkw' : Dict.WF kw' := hkp.nodup_iff.1 hkw
  obtain ⟨out, s1, defs, s2, i, x, h1, hr, h2, h3, h4⟩ := newFields_ok wf hkw h
  obtain ⟨out', t1, h1', po, e1, e2⟩ := fill_perm q hp _ _ _ h1 t
  have hup : (C.unsupplied E kw).Perm (C.unsupplied E' kw') := by
    unfold RecClass.unsupplied
    have : (C.optional.filter fun k => !kw.has k) = C.optional.filter fun k => !kw'.has k := by
      apply List.filter_congr
      intro k _
      have : kw.has k = kw'.has k := by
        rw [Bool.eq_iff_iff, Dict.has_iff, Dict.has_iff]; exact hkp.mem_iff
      rw [this]
    rw [this]
    exact (E.setOrder_perm _).trans (E'.setOrder_perm _).symm
  obtain ⟨defs', t2, h2', pd, e3, e4⟩ := default_perm q hup _ _ _ h2 t1
  have hi : SameInst (C.fresh (out ++ defs)) (C.fresh (out' ++ defs')) := ⟨rfl, po.append pd, rfl⟩
  obtain ⟨j, y, t3, h3', hj, hxy⟩ := ob.post _ _ s2 t2 hi (by rw [e3, e1, e4, e2, hst]) _ _ _ h3
  have hr' : ∀ k ∈ C.required, k ∈ kw'.map (·.1) := fun k hk => hkp.mem_iff.1 (hr k hk)
  have build : ∀ r', Replaced C j y r' → SameRes r r' → ∃ r' t', construct E' C parse' none kw' t = (.ok r', t') ∧ SameRes r r' :=
    fun r' hr hs => ⟨r', t3, newFields_spec wf hkw' none (Build.made h1' hr' h2' h3' hr), hs⟩
  rcases hxy with ⟨rfl, rfl⟩ | ⟨x', y', rfl, rfl, hxy⟩
  · cases h4
    exact build _ .none (.new hj)
  · cases h4 with
    | falsy hf => exact build _ (.falsy (fun hy => hf ((hxy.truthy ob).2 hy))) (.new hj)
    | truthy ht => exact build _ (.truthy ((hxy.truthy ob).1 ht)) hxy

/-- C53: neither does the order decide whether construction succeeds. -/
theorem C53_success_iff {E E' : Env W} {C : RecClass W} (hC : Creatable C) (q : QuietFields C) (ob : OrderBlind C)
    (parse parse' : W.Obj → M W (Res W)) {kw kw' : Dict W.Obj} (hkw : (kw.map (·.1)).Nodup) (hp : kw.Perm kw')
    {s t : LState W} (hst : s.user = t.user) :
    (∃ r, (construct E C parse none kw s).1 = .ok r) ↔ ∃ r, (construct E' C parse' none kw' t).1 = .ok r := by
  constructor
  · rintro ⟨r, h⟩
    obtain ⟨r', t', h', _⟩ := C53_order_irrelevant hC q ob parse parse' hkw hp hst (r := r)
      (s' := (construct E C parse none kw s).2) (Prod.ext h rfl)
    exact ⟨r', by rw [h']⟩
  · rintro ⟨r, h⟩
    obtain ⟨r', t', h', _⟩ := C53_order_irrelevant hC q ob parse' parse ((hp.map _).nodup_iff.1 hkw) hp.symm hst.symm (r := r)
      (s' := (construct E' C parse' none kw' t).2) (Prod.ext h rfl)
    exact ⟨r', by rw [h']⟩

/-! ### C54 -/

theorem call_inv {fields : Dict (Field W)} {β : Type} (cnt : LState W → β)
    (h : ∀ kf ∈ fields, ∀ v s, cnt (kf.2.filler.call v s).2 = cnt s) {k : String} {f : Field W} {v : W.Obj} {s s' : LState W}
    {r : Except Exc W.Obj} (h1 : fields.get? k = some f) (h2 : f.filler.call v s = (r, s')) : cnt s' = cnt s := by
  have := h _ (Dict.get?_eq_some_mem _ _ _ h1) v s
  simp only [h2] at this
  exact this

theorem FillArgs.inv {fields : Dict (Field W)} {β : Type} (cnt : LState W → β)
    (h : ∀ kf ∈ fields, ∀ v s, cnt (kf.2.filler.call v s).2 = cnt s) {kw out s s'} (hs : FillArgs fields kw s out s') :
    cnt s' = cnt s := by
  induction hs with
  | nil => rfl
  | cons h1 h2 _ ih =>
    exact ih.trans (call_inv cnt h h1 h2)

theorem FillArgsFail.inv {fields : Dict (Field W)} {β : Type} (cnt : LState W → β)
    (h : ∀ kf ∈ fields, ∀ v s, cnt (kf.2.filler.call v s).2 = cnt s) {kw k e s s'} (hs : FillArgsFail fields kw s k e s') :
    cnt s' = cnt s := by
  induction hs with
  | here h1 h2 =>
    exact call_inv cnt h h1 h2
  | there h1 h2 _ ih =>
    exact ih.trans (call_inv cnt h h1 h2)

theorem count_make {C : RecClass W} (wf : C.WF) {k : String} {cnt : LState W → Nat} (c : CountsFactory C k cnt) {k' : String}
    {f : Field W} {d : Deflt W} {s s' : LState W} {r : Except Exc W.Obj} (hf : C.fields.get? k' = some f) (hd : f.default = some d)
    (hm : Makes d s r s') : cnt s' = cnt s + if k' = k then 1 else 0 := by
  by_cases hk : k' = k
  · subst hk
    obtain ⟨f', g, hf', hg, hc⟩ := c.own
    have hf' := Dict.mem_get? C.fields wf.nodup _ _ hf'
    rw [hf] at hf'; cases hf'
    rw [hd] at hg; cases hg
    cases hm with
    | factory h => have := hc s; rw [h] at this; simpa using this
  · simp only [hk, if_false, Nat.add_zero]
    cases hm with
    | value => rfl
    | factory h =>
      have := c.others _ (Dict.get?_eq_some_mem _ _ _ hf) hk _ hd s
      rw [h] at this
      exact this

theorem count_defaults {C : RecClass W} (wf : C.WF) {k : String} {cnt : LState W → Nat} (c : CountsFactory C k cnt)
    {ks out s s'} (h : DefaultSeq C.fields ks s out s') (hn : ks.Nodup) : cnt s' = cnt s + if k ∈ ks then 1 else 0 := by
  induction h with
  | nil => simp
  | @cons k' f d ks s w s1 out s2 h1 h2 h3 _ ih =>
    have hn := List.nodup_cons.1 hn
    rw [ih hn.2, count_make wf c h1 h2 h3]
    by_cases hk : k' = k
    · subst hk; simp [hn.1]
    · have hk' : k ≠ k' := fun h => hk h.symm
      simp [hk, hk']

theorem count_defaults_fail {C : RecClass W} (wf : C.WF) {k : String} {cnt : LState W → Nat} (c : CountsFactory C k cnt)
    {ks e s s'} (h : DefaultFail C.fields ks s e s') (hn : ks.Nodup) :
    cnt s' = cnt s ∨ (k ∈ ks ∧ cnt s' = cnt s + 1) := by
  induction h with
  | @here k' f d ks s e s1 h1 h2 h3 =>
    rw [count_make wf c h1 h2 h3]
    by_cases hk : k' = k
    · subst hk; simp
    · simp [hk]
  | @there k' f d ks s w s1 e s2 h1 h2 h3 _ ih =>
    have hn := List.nodup_cons.1 hn
    have hm := count_make wf c h1 h2 h3
    by_cases hk : k' = k
    · subst hk
      simp only [if_true] at hm
      rcases ih hn.2 with h | ⟨h, _⟩
      · exact .inr ⟨by simp, h.trans hm⟩
      · exact absurd h hn.1
    · simp only [hk, if_false, Nat.add_zero] at hm
      rcases ih hn.2 with h | ⟨h1, h2⟩
      · exact .inl (h.trans hm)
      · exact .inr ⟨by simp [h1], by rw [h2, hm]⟩

/-- C54: in a successful keyword construction the factory of a field runs once if the field was not supplied, and not at all if it was. -/
theorem C54_factory_once {E : Env W} {C : RecClass W} (hC : Creatable C) {parse : W.Obj → M W (Res W)}
    {kw : Dict W.Obj} (hkw : (kw.map (·.1)).Nodup) {k : String} {cnt : LState W → Nat} (c : CountsFactory C k cnt)
    {s s' : LState W} {r : Res W} (h : construct E C parse none kw s = (.ok r, s')) :
    cnt s' = cnt s + if k ∈ kw.map (·.1) then 0 else 1 := by
  have wf := hC.wf
  obtain ⟨out, s1, defs, s2, i, x, h1, hr, h2, h3, h4⟩ := newFields_ok wf hkw h
  obtain ⟨hn, hm⟩ := unsupplied_mem (E := E) wf (kw := kw)
  have hp := c.post (C.fresh (out ++ defs)) s2
  rw [h3] at hp
  rw [hp, count_defaults wf c h2 hn, h1.inv cnt c.fillers]
  obtain ⟨f, g, hf, hd, _⟩ := c.own
  have ho : k ∈ C.optional := (wf.opt k).2 ⟨f, _, Dict.mem_get? C.fields wf.nodup _ _ hf, hd⟩
  by_cases hk : k ∈ kw.map (·.1)
  · rw [if_neg (fun h => ((hm k).1 h).2 hk), if_pos hk]
  · rw [if_pos ((hm k).2 ⟨ho, hk⟩), if_neg hk]

/-- C54: if construction fails, the factory ran at most once, and not at all if the field was supplied. -/
theorem C54_factory_at_most_once {E : Env W} {C : RecClass W} (hC : Creatable C) {parse : W.Obj → M W (Res W)}
    {kw : Dict W.Obj} (hkw : (kw.map (·.1)).Nodup) {k : String} {cnt : LState W → Nat} (c : CountsFactory C k cnt)
    (s : LState W) :
    cnt (construct E C parse none kw s).2 = cnt s ∨
      (k ∉ kw.map (·.1) ∧ cnt (construct E C parse none kw s).2 = cnt s + 1) := by
  have wf := hC.wf
  obtain ⟨hn, hm⟩ := unsupplied_mem (E := E) wf (kw := kw)
  obtain ⟨o, s', hb⟩ := build_total (E := E) wf kw s
  have key : cnt s' = cnt s ∨ (k ∉ kw.map (·.1) ∧ cnt s' = cnt s + 1) := by
    have post : ∀ {i s2 q}, C.postNew i s2 = (q, s') → cnt s' = cnt s2 := fun {i s2 q} hq => by
      have := c.post i s2
      rw [hq] at this
      exact this
    have defs : ∀ {out s1 defs s2}, FillArgs C.fields kw s out s1 → DefaultSeq C.fields (C.unsupplied E kw) s1 defs s2 →
        cnt s' = cnt s2 → cnt s' = cnt s ∨ (k ∉ kw.map (·.1) ∧ cnt s' = cnt s + 1) := by
      intro out s1 defs s2 h1 h2 e
      rw [e, count_defaults wf c h2 hn, h1.inv cnt c.fillers]
      by_cases hk : k ∈ C.unsupplied E kw
      · exact .inr ⟨((hm k).1 hk).2, by simp [hk]⟩
      · exact .inl (by simp [hk])
    cases hb with
    | unknownKey => exact .inl rfl
    | fillError _ h2 => exact .inl (h2.inv cnt c.fillers)
    | missing h1 _ _ => exact .inl (h1.inv cnt c.fillers)
    | factoryError h1 _ h3 =>
      rcases count_defaults_fail wf c h3 hn with h | ⟨hk, h⟩
      · exact .inl (h.trans (h1.inv cnt c.fillers))
      · exact .inr ⟨((hm k).1 hk).2, by rw [h, h1.inv cnt c.fillers]⟩
    | postError h1 _ h3 h4 => exact defs h1 h3 (post h4)
    | made h1 _ h3 h4 _ => exact defs h1 h3 (post h4)
  have : construct E C parse none kw s = _ := newFields_spec wf hkw none hb
  rw [this]
  exact key

/-! ### C55 -/

/-- C55: with parsing off or keyword arguments present, a positional argument stands for the unique required field; it is a TypeError if
there is none or several, or if that field is also given by keyword. -/
theorem C55_not_parsed {E : Env W} {C : RecClass W} (parse : W.Obj → M W (Res W)) {kw : Dict W.Obj}
    (h : kw ≠ [] ∨ C.unary = false) (a : W.Obj) (s : LState W) :
    (∀ key, C.required = [key] →
      (key ∈ kw.map (·.1) → construct E C parse (some a) kw s = (.error .typeError, s)) ∧
      (key ∉ kw.map (·.1) → construct E C parse (some a) kw s = construct E C parse none (kw ++ [(key, a)]) s)) ∧
    (C.required.length ≠ 1 → construct E C parse (some a) kw s = (.error .typeError, s)) := by
  have he : (kw.isEmpty && C.unary) = false := by
    rcases h with h | h
    · cases kw with
      | nil => exact absurd rfl h
      | cons => rfl
    · simp [h]
  obtain ⟨h1, h2⟩ := construct_skip (E := E) (parse := parse) (a := a) he
  refine ⟨fun key hk => ⟨fun hm => ?_, fun hm => ?_⟩, fun hl => by rw [h2 hl]; rfl⟩
  · rw [h1 key hk, if_pos ((Dict.has_iff kw key).2 hm)]; rfl
  · rw [h1 key hk, if_neg (by rw [(Dict.has_eq_false_iff kw key).2 hm]; simp), Dict.set_of_not_mem _ _ _ hm]
    rfl

theorem notNone_some {r : Res W} (h : ¬ r.isNone) : r.notNone = some r := by
  cases r with
  | old v => exact if_neg h
  | new i => rfl

theorem notNone_none {r : Res W} (h : r.isNone) : r.notNone = none := by
  cases r with
  | old v => exact if_pos h
  | new i => exact absurd h (by simp [Res.isNone])

/-- C55: with parsing on and no unique required field, the outcome is that of `parse` (where a parser that returns `None` counts as no
parser). -/
theorem C55_parsed_no_field {E : Env W} {C : RecClass W} {parse : W.Obj → M W (Res W)} (hu : C.unary = true)
    (hl : C.required.length ≠ 1) (a : W.Obj) {s s1 : LState W} :
    (∀ e, parse a s = (.error e, s1) → construct E C parse (some a) [] s = (.error e, s1)) ∧
    (∀ r, parse a s = (.ok r, s1) → ¬ r.isNone → construct E C parse (some a) [] s = (.ok r, s1)) ∧
    (∀ r, parse a s = (.ok r, s1) → r.isNone → construct E C parse (some a) [] s = (.error .typeError, s1)) := by
  have key : ∀ st, tryParse C parse a [] s = (.ok st, s1) → construct E C parse (some a) [] s =
      (match st with | some r => .ok r | none => .error .typeError, s1) := by
    intro st hst
    unfold construct
    simp only
    rw [M.bind_ok hst]
    rcases hq : C.required with _ | ⟨x, _ | ⟨y, l⟩⟩
    · cases st <;> rfl
    · rw [hq] at hl; exact absurd rfl hl
    · cases st <;> rfl
  refine ⟨fun e h => ?_, fun r h hr => ?_, fun r h hr => ?_⟩
  · have ht : tryParse C parse a [] s = (.error e, s1) := by
      unfold tryParse
      simp [hu, h, hl]
    unfold construct
    simp only
    rw [M.bind_error ht]
  · exact key (some r) (by unfold tryParse; simp [hu, h, notNone_some hr])
  · exact key none (by unfold tryParse; simp [hu, h, notNone_none hr])

theorem construct_parsed {E : Env W} {C : RecClass W} {parse : W.Obj → M W (Res W)} {key : String}
    (hr : C.required = [key]) {a : W.Obj} {s s1 : LState W} {st : Option (Res W)}
    (ht : tryParse C parse a [] s = (.ok st, s1)) :
    construct E C parse (some a) [] s = newFields E C st [(key, a)] s1 := by
  unfold construct
  simp only
  rw [M.bind_ok ht, hr]
  rfl

/-- C55: with parsing on and a unique required field: if no parser succeeded (or it returned `None`), the argument is that field; any other
error of `parse` is raised. -/
theorem C55_parsed_field {E : Env W} {C : RecClass W} {parse : W.Obj → M W (Res W)} (hu : C.unary = true) {key : String}
    (hr : C.required = [key]) (a : W.Obj) {s s1 : LState W} :
    (∀ e, parse a s = (.error e, s1) → e.kind = .parseFailure →
      construct E C parse (some a) [] s = construct E C parse none [(key, a)] s1) ∧
    (∀ e, parse a s = (.error e, s1) → e.kind ≠ .parseFailure → construct E C parse (some a) [] s = (.error e, s1)) ∧
    (∀ r, parse a s = (.ok r, s1) → r.isNone → construct E C parse (some a) [] s = construct E C parse none [(key, a)] s1) := by
  refine ⟨fun e h he => ?_, fun e h he => ?_, fun r h hn => ?_⟩
  · exact construct_parsed hr (by unfold tryParse; simp [hu, h, he, hr])
  · have ht : tryParse C parse a [] s = (.error e, s1) := by
      unfold tryParse
      simp [hu, h, he]
    unfold construct
    simp only
    rw [M.bind_error ht]
  · exact construct_parsed hr (by unfold tryParse; simp [hu, h, notNone_none hn])

/-- C55: ... if parsing succeeded, the field construction is carried out all the same, and its outcome decides: `Outcome.resolve` tells what
becomes of each kind of failure when a parse result stands by (C56). -/
theorem C55_standby {E : Env W} {C : RecClass W} (hC : Creatable C) {parse : W.Obj → M W (Res W)} (hu : C.unary = true)
    {key : String} (hr : C.required = [key]) {a : W.Obj} {s s1 : LState W} {r : Res W} (h : parse a s = (.ok r, s1))
    (hn : ¬ r.isNone) :
    ∃ o s2, Build C [(key, a)] (C.unsupplied E [(key, a)]) s1 o s2 ∧
      construct E C parse none [(key, a)] s1 = (o.resolve E C none, s2) ∧
      construct E C parse (some a) [] s = (o.resolve E C (some r), s2) := by
  have wf := hC.wf
  have hkw : Dict.WF [(key, a)] := by simp [Dict.WF]
  obtain ⟨o, s2, hb⟩ := build_total (E := E) wf [(key, a)] s1
  refine ⟨o, s2, hb, newFields_spec wf hkw none hb, ?_⟩
  rw [construct_parsed hr (st := some r) (s1 := s1) (by unfold tryParse; simp [hu, h, notNone_some hn])]
  exact newFields_spec wf hkw _ hb

/-- C55: if both interpretations of the argument succeed, TypeError is raised. -/
theorem C55_ambiguous {E : Env W} {C : RecClass W} (hC : Creatable C) {parse : W.Obj → M W (Res W)} (hu : C.unary = true)
    {key : String} (hr : C.required = [key]) {a : W.Obj} {s s1 s2 : LState W} {r r' : Res W} (h : parse a s = (.ok r, s1))
    (hn : ¬ r.isNone) (h' : construct E C parse none [(key, a)] s1 = (.ok r', s2)) :
    construct E C parse (some a) [] s = (.error .typeError, s2) := by
  obtain ⟨o, s3, hb, h1, h2⟩ := C55_standby (E := E) hC hu hr h hn
  rw [h'] at h1
  rw [h2]
  cases o with
  | made r' => cases h1; rfl
  | fillError k e =>
    simp only [Outcome.resolve] at h1
    split at h1 <;> cases h1
  | _ => cases h1

/-! ### C56 -/

theorem construct_standby {E : Env W} {C : RecClass W} (hC : Creatable C) {parse : W.Obj → M W (Res W)} (hu : C.unary = true)
    {key : String} (hr : C.required = [key]) {a : W.Obj} {s s1 s2 : LState W} {r : Res W} {o : Outcome W}
    (h : parse a s = (.ok r, s1)) (hn : ¬ r.isNone) (hb : Build C [(key, a)] (C.unsupplied E [(key, a)]) s1 o s2) :
    construct E C parse (some a) [] s = (o.resolve E C (some r), s2) := by
  rw [construct_parsed hr (st := some r) (s1 := s1) (by unfold tryParse; simp [hu, h, notNone_some hn])]
  exact newFields_spec hC.wf (by simp [Dict.WF]) _ hb

/-- C56: if the filling of the trivial field raises an Exception, the parse result is returned. -/
theorem C56_fill_failure {E : Env W} {C : RecClass W} (hC : Creatable C) {parse : W.Obj → M W (Res W)} (hu : C.unary = true)
    {key : String} (hr : C.required = [key]) {a : W.Obj} {s s1 s2 : LState W} {r : Res W}
    (h : parse a s = (.ok r, s1)) (hn : ¬ r.isNone) {f : Field W} (hf : (key, f) ∈ C.fields) {e : Exc}
    (hc : f.filler.call a s1 = (.error e, s2)) (he : e.isException = true) :
    construct E C parse (some a) [] s = (.ok r, s2) := by
  have wf := hC.wf
  have hf' := Dict.mem_get? C.fields wf.nodup _ _ hf
  have := construct_standby (E := E) hC hu hr h hn (Build.fillError (k := key) (e := e) (s' := s2) (by
    intro k hk
    simp only [List.map_cons, List.map_nil, List.mem_singleton] at hk
    subst hk
    exact List.mem_map.2 ⟨_, hf, rfl⟩) (.here hf' hc))
  rw [this]
  simp [Outcome.resolve, he]

/-- C56: if `post_new` raises an Exception, the parse result is returned if and only if it is truthy; otherwise the exception is raised. -/
theorem C56_post_failure {E : Env W} {C : RecClass W} (hC : Creatable C) {parse : W.Obj → M W (Res W)} (hu : C.unary = true)
    {key : String} (hr : C.required = [key]) {a : W.Obj} {s s1 s2 s3 s4 : LState W} {r : Res W}
    (h : parse a s = (.ok r, s1)) (hn : ¬ r.isNone) {out defs : Dict W.Obj} (h1 : FillArgs C.fields [(key, a)] s1 out s2)
    (h2 : DefaultSeq C.fields (C.unsupplied E [(key, a)]) s2 defs s3) {e : Exc}
    (h3 : C.postNew (C.fresh (out ++ defs)) s3 = (.error e, s4)) (he : e.isException = true) :
    (Res.true C r → construct E C parse (some a) [] s = (.ok r, s4)) ∧
    (¬ Res.true C r → construct E C parse (some a) [] s = (.error e, s4)) := by
  have := construct_standby (E := E) hC hu hr h hn (Build.postError h1 (by rw [hr]; simp) h2 h3)
  rw [this]
  exact ⟨fun ht => by simp [Outcome.resolve, he, ht], fun ht => by simp [Outcome.resolve, ht]⟩

/-- C56: an exception of a default factory is raised although a parse result stands by. -/
theorem C56_factory_failure {E : Env W} {C : RecClass W} (hC : Creatable C) {parse : W.Obj → M W (Res W)} (hu : C.unary = true)
    {key : String} (hr : C.required = [key]) {a : W.Obj} {s s1 s2 s3 : LState W} {r : Res W}
    (h : parse a s = (.ok r, s1)) (hn : ¬ r.isNone) {out : Dict W.Obj} (h1 : FillArgs C.fields [(key, a)] s1 out s2) {e : Exc}
    (h2 : DefaultFail C.fields (C.unsupplied E [(key, a)]) s2 e s3) :
    construct E C parse (some a) [] s = (.error e, s3) := by
  have := construct_standby (E := E) hC hu hr h hn (Build.factoryError h1 (by rw [hr]; simp) h2)
  rw [this]
  simp [Outcome.resolve]

/-! ### C60 -/

/-- C60: if the filler of `k` is the first one to fail, raising an Exception `e`, construction raises an error that names `k`: of the class of
`e` if it can be built from one string; ValueError if building it raises TypeError.  (If building it raises something else, that is
raised.)  Other `BaseException`s are raised as they are. -/
theorem C60_fill_error {E : Env W} {C : RecClass W} (hC : Creatable C) (parse : W.Obj → M W (Res W)) {kw : Dict W.Obj}
    (hkw : (kw.map (·.1)).Nodup) (hk : ∀ k ∈ kw.map (·.1), k ∈ C.fields.map (·.1)) {s s' : LState W} {k : String} {e : Exc}
    (h : FillArgsFail C.fields kw s k e s') :
    ((∀ n, e.kind ≠ .base n) → (∀ n, e.kind = .user n → E.rewrap n = .ok) →
      construct E C parse none kw s = (.error ⟨e.kind, some k⟩, s')) ∧
    (∀ n, e.kind = .user n → (E.rewrap n = .typeError ∨ ∃ e', E.rewrap n = .raises e' ∧ (e'.kind = .typeError ∨ e'.kind = .parseFailure)) →
      construct E C parse none kw s = (.error ⟨.valueError, some k⟩, s')) ∧
    (∀ n e', e.kind = .user n → E.rewrap n = .raises e' → e'.kind ≠ .typeError → e'.kind ≠ .parseFailure →
      construct E C parse none kw s = (.error e', s')) ∧
    (∀ n, e.kind = .base n → construct E C parse none kw s = (.error e, s')) := by
  have := newFields_spec (E := E) hC.wf hkw none (Build.fillError (order := C.unsupplied E kw) hk h)
  rw [construct_none, this]
  simp only [Outcome.resolve]
  refine ⟨fun hb hu => ?_, fun n hn hu => ?_, fun n e' hn hu ht hp => ?_, fun n hn => ?_⟩
  · have he : e.isException = true := by
      unfold Exc.isException; split
      · rename_i n hn; exact absurd hn (hb n)
      · rfl
    rw [if_pos he]
    unfold rewrapErr
    split
    · rename_i n hn
      rw [hu n hn]
      simp only [hn]
    · rfl
  · rw [if_pos (by unfold Exc.isException; rw [hn])]
    unfold rewrapErr
    rw [hn]
    rcases hu with hu | ⟨e', hu, ht⟩
    · simp only [hu]
    · have : e'.isTypeError = true := by unfold Exc.isTypeError; rcases ht with ht | ht <;> rw [ht]
      simp only [hu, this, if_true]
  · rw [if_pos (by unfold Exc.isException; rw [hn])]
    unfold rewrapErr
    rw [hn]
    have : e'.isTypeError = false := by
      unfold Exc.isTypeError
      split
      · exact absurd ‹_› ht
      · exact absurd ‹_› hp
      · rfl
    simp [hu, this]
  · rw [if_neg (by unfold Exc.isException; rw [hn]; simp)]

/-! ### C61 -/

/-- C61: the keyword `cls` is a TypeError, so is `arg` beside a positional argument; `arg` alone is the positional argument. -/
theorem C61_arg_cls {C : RecClass W} (new : Option W.Obj → Dict W.Obj → M W (Res W)) (kw : Dict W.Obj) (s : LState W) :
    ("cls" ∈ kw.map (·.1) → ∀ arg, callCls C new arg kw s = (.error .typeError, s)) ∧
    ("arg" ∈ kw.map (·.1) → ∀ a, callCls C new (some a) kw s = (.error .typeError, s)) ∧
    ((kw.map (·.1)).Nodup → ∀ a, ("arg", a) ∈ kw →
      callCls C new none kw s = callCls C new (some a) (kw.filter fun kv => decide (kv.1 ≠ "arg")) s) := by
  refine ⟨fun h arg => ?_, fun h a => ?_, fun hwf a h => ?_⟩
  · unfold callCls
    rw [if_pos ((Dict.has_iff kw _).2 h)]; rfl
  · unfold callCls
    obtain ⟨v, hv⟩ := Option.isSome_iff_exists.1 ((Dict.get?_isSome_iff kw "arg").2 h)
    rw [hv]
    split <;> rfl
  · have hg := Dict.mem_get? kw hwf _ _ h
    have he := Dict.erase_eq_filter kw hwf "arg"
    have hn : Dict.get? (kw.filter fun kv => decide (kv.1 ≠ "arg")) "arg" = none := by
      rw [← he, Dict.get?_erase kw hwf]; simp
    have hh : ∀ k, k ≠ "arg" → Dict.has (kw.filter fun kv => decide (kv.1 ≠ "arg")) k = kw.has k := by
      intro k hk
      unfold Dict.has
      rw [← he, Dict.get?_erase kw hwf, if_neg hk]
    unfold callCls
    rw [hg, hn, hh "cls" (by decide)]
    have hi : callCls.init C (kw.filter fun kv => decide (kv.1 ≠ "arg")) = callCls.init C kw := by
      funext r
      unfold callCls.init
      rw [hh "self" (by decide)]
    rw [hi, he]

/-- C61: with the keyword `self` no instance of the class is ever returned: if `__new__` made one, TypeError is raised after it. -/
theorem C61_self {C : RecClass W} (new : Option W.Obj → Dict W.Obj → M W (Res W)) {kw : Dict W.Obj}
    (h : "self" ∈ kw.map (·.1)) (arg : Option W.Obj) {s s' : LState W} :
    (∀ r, callCls C new arg kw s = (.ok r, s') → r.isInst C.cid = false) ∧
    ("arg" ∉ kw.map (·.1) → "cls" ∉ kw.map (·.1) → ∀ r, new arg kw s = (.ok r, s') → r.isInst C.cid = true →
      callCls C new arg kw s = (.error .typeError, s')) := by
  have hs := (Dict.has_iff kw "self").2 h
  have hi : ∀ {r s r' s'}, callCls.init C kw r s = (.ok r', s') → r'.isInst C.cid = false := by
    intro r s r' s' hr
    unfold callCls.init at hr
    rw [hs, Bool.and_true] at hr
    cases hc : r.isInst C.cid with
    | true => rw [hc] at hr; cases hr
    | false => rw [hc] at hr; cases hr; exact hc
  refine ⟨fun r hr => ?_, fun h1 h2 r hn hr => ?_⟩
  · unfold callCls at hr
    split at hr
    · cases hr
    · cases hg : kw.get? "arg" with
      | none =>
        rw [hg] at hr
        cases arg <;> (obtain ⟨_, _, _, h⟩ := M.bind_eq_ok hr; exact hi h)
      | some b =>
        rw [hg] at hr
        cases arg with
        | none => obtain ⟨_, _, _, h⟩ := M.bind_eq_ok hr; exact hi h
        | some a => cases hr
  · unfold callCls
    rw [if_neg (by rw [(Dict.has_eq_false_iff kw _).2 h2]; simp), (Dict.get?_eq_none_iff kw _).2 h1]
    have : M.bind (new arg kw) (callCls.init C kw) s = (.error .typeError, s') := by
      rw [M.bind_ok hn]
      unfold callCls.init
      rw [hs, hr]; rfl
    cases arg <;> exact this

/-- C61: without these three names everything is passed through to the construction. -/
theorem C61_passed_through {C : RecClass W} (new : Option W.Obj → Dict W.Obj → M W (Res W)) {kw : Dict W.Obj}
    (h1 : "arg" ∉ kw.map (·.1)) (h2 : "cls" ∉ kw.map (·.1)) (h3 : "self" ∉ kw.map (·.1)) (arg : Option W.Obj) :
    callCls C new arg kw = new arg kw := by
  unfold callCls
  rw [if_neg (by rw [(Dict.has_eq_false_iff kw _).2 h2]; simp), (Dict.get?_eq_none_iff kw _).2 h1]
  have : callCls.init C kw = M.pure := by
    funext r
    unfold callCls.init
    rw [(Dict.has_eq_false_iff kw _).2 h3, Bool.and_false]; rfl
  rw [this]
  cases arg <;> exact M.bind_pure _

/-! ### C62 -/

/-- C62: the instance given to `post_new` has all its fields; what it returns decides the result of a successful construction. -/
theorem C62_post_new_decides {E : Env W} {C : RecClass W} (hC : Creatable C) {parse : W.Obj → M W (Res W)}
    {kw : Dict W.Obj} (hkw : (kw.map (·.1)).Nodup) {s s' : LState W} {r : Res W}
    (h : construct E C parse none kw s = (.ok r, s')) :
    ∃ values s2 i x, (values.map (·.1)).Perm (C.fields.map (·.1)) ∧ C.postNew (C.fresh values) s2 = (.ok (i, x), s') ∧
      (x = none → r = .new i) ∧ (∀ y, x = some y → Res.true C y → r = y) ∧ (∀ y, x = some y → ¬ Res.true C y → r = .new i) := by
  have wf := hC.wf
  obtain ⟨out, s1, defs, s2, i, x, h1, hr, h2, h3, h4⟩ := newFields_ok wf hkw h
  refine ⟨_, s2, i, x, values_keys wf hkw h1 hr h2, h3, ?_, ?_, ?_⟩
  · rintro rfl; cases h4; rfl
  · rintro y rfl ht
    cases h4 with
    | falsy hf => exact absurd ht hf
    | truthy _ => rfl
  · rintro y rfl hf
    cases h4 with
    | falsy _ => rfl
    | truthy ht => exact absurd ht hf

/-- C62: if `post_new` raises, so does construction. -/
theorem C62_post_new_raises {E : Env W} {C : RecClass W} (hC : Creatable C) {parse : W.Obj → M W (Res W)}
    {kw : Dict W.Obj} (hkw : (kw.map (·.1)).Nodup) {s s1 s2 s3 : LState W} {out defs : Dict W.Obj}
    (h1 : FillArgs C.fields kw s out s1) (hr : ∀ k ∈ C.required, k ∈ kw.map (·.1))
    (h2 : DefaultSeq C.fields (C.unsupplied E kw) s1 defs s2) {e : Exc}
    (h3 : C.postNew (C.fresh (out ++ defs)) s2 = (.error e, s3)) : construct E C parse none kw s = (.error e, s3) :=
  newFields_spec hC.wf hkw none (Build.postError h1 hr h2 h3)

/-- C62: `post_new` is called exactly once in a successful construction, at most once in any. -/
theorem C62_post_new_once {E : Env W} {C : RecClass W} (hC : Creatable C) {parse : W.Obj → M W (Res W)}
    {kw : Dict W.Obj} (hkw : (kw.map (·.1)).Nodup) {cnt : LState W → Nat} (c : CountsPost C cnt) (s : LState W) :
    (∀ r s', construct E C parse none kw s = (.ok r, s') → cnt s' = cnt s + 1) ∧
    (cnt (construct E C parse none kw s).2 = cnt s ∨ cnt (construct E C parse none kw s).2 = cnt s + 1) := by
  have wf := hC.wf
  have mk : ∀ {k f d s r s'}, C.fields.get? k = some f → f.default = some d → Makes d s r s' → cnt s' = cnt s := by
    intro k f d s r s' hf hd hm
    cases hm with
    | value => rfl
    | factory h =>
      have := c.factories _ (Dict.get?_eq_some_mem _ _ _ hf) _ hd s
      rw [h] at this
      exact this
  have ds : ∀ {ks s out s'}, DefaultSeq C.fields ks s out s' → cnt s' = cnt s := by
    intro ks s out s' h
    induction h with
    | nil => rfl
    | cons h1 h2 h3 _ ih => exact ih.trans (mk h1 h2 h3)
  have df : ∀ {ks s e s'}, DefaultFail C.fields ks s e s' → cnt s' = cnt s := by
    intro ks s e s' h
    induction h with
    | here h1 h2 h3 => exact mk h1 h2 h3
    | there h1 h2 h3 _ ih => exact ih.trans (mk h1 h2 h3)
  have post : ∀ {i s2 q s'}, C.postNew i s2 = (q, s') → cnt s' = cnt s2 + 1 := fun {i s2 q s'} hq => by
    have := c.post i s2
    rw [hq] at this
    exact this
  constructor
  · intro r s' h
    obtain ⟨out, s1, defs, s2, i, x, h1, hr, h2, h3, h4⟩ := newFields_ok wf hkw h
    rw [post h3, ds h2, h1.inv cnt c.fillers]
  · obtain ⟨o, s', hb⟩ := build_total (E := E) wf kw s
    have : construct E C parse none kw s = _ := newFields_spec wf hkw none hb
    rw [this]
    simp only
    cases hb with
    | unknownKey => exact .inl rfl
    | fillError _ h2 => exact .inl (h2.inv cnt c.fillers)
    | missing h1 _ _ => exact .inl (h1.inv cnt c.fillers)
    | factoryError h1 _ h3 => exact .inl ((df h3).trans (h1.inv cnt c.fillers))
    | postError h1 _ h3 h4 => exact .inr (by rw [post h4, ds h3, h1.inv cnt c.fillers])
    | made h1 _ h3 h4 _ => exact .inr (by rw [post h4, ds h3, h1.inv cnt c.fillers])

end Records

/-! ### concrete cases -/
namespace Records.Toy

/-- `class D(RecordBase): x: int; y: int = "no int"; z: list = Factory(list)`, types checked; the factory logs 7 -/
def spD : ClassSpec W :=
  { cid := .record 10, style := .check,
    anns := [("x", .plain (.cls .int)), ("y", .plain (.cls .int)), ("z", .plain (.cls .list))],
    attrs := [("y", .value (.str "no int")), ("z", .factory (M.bind (log 7) fun _ => M.pure (list [])))] }

def D : RecClass W := clsOf spD noClass

theorem D_creatable : Creatable D := .intro spD D ⟨by decide, by decide, nofun⟩ nofun rfl

def kwX (v : TObj) : Dict TObj := [("x", v)]

theorem nodup1 (k : String) (v : TObj) : (List.map (·.1) [(k, v)]).Nodup := by simp

/-- C49, C52: construction succeeds; the default of `y` would be rejected by the filler of `y` -/
theorem D_made : construct env D noParse none (kwX (.int 1)) s0 =
    (.ok (.new ⟨.record 10, [("x", .int 1), ("y", .str "no int"), ("z", list [])], none⟩), ⟨[7], fun _ => []⟩) := rfl

example := C49_keyword_construction D_creatable (nodup1 _ _) (fun _ _ => rfl) D_made
example := C52_default_verbatim D_creatable (nodup1 _ _) D_made (k := "y") (.tail _ (.head _))
example : (construct env D noParse none [("x", .int 1), ("y", .str "no int")] s0).1 =
    .error ⟨.typeError, some "y"⟩ := rfl

/-- C50 -/
example : construct env D noParse (some (.int 3)) [("q", .int 1)] s0 = (.error .typeError, s0) :=
  C50_unknown_keyword (W := W) noParse _ (k := "q") (by decide) (by decide) s0

/-- C51: nothing is logged -/
example : construct env D noParse none [("y", .int 1)] s0 = (.error .typeError, s0) := rfl
example := C51_missing_required (E := env) D_creatable noParse (nodup1 "y" (.int 1)) (k := "x") (by decide) (by decide) s0

/-- C53: `class Q(RecordBase): x: int; y: int = 1; z: int = Factory(lambda: 2)`; another order of arguments and of the set -/
def spQ : ClassSpec W :=
  { cid := .record 11, anns := [("w", .plain (.cls .int)), ("x", .plain (.cls .int)), ("y", .plain (.cls .int)), ("z", .plain (.cls .int))],
    attrs := [("y", .value (.int 1)), ("z", .factory (M.pure (.int 2)))] }

def Q : RecClass W := clsOf spQ noClass

theorem Q_creatable : Creatable Q := .intro spQ Q ⟨by decide, by decide, nofun⟩ nofun rfl

theorem Q_quiet : QuietFields Q := by
  constructor
  · intro kf hkf v
    refine ⟨.ok v, fun s => ?_⟩
    rcases hkf with _ | ⟨_, _ | ⟨_, _ | ⟨_, _ | ⟨_, h⟩⟩⟩⟩
    · exact ⟨rfl, rfl⟩
    · exact ⟨rfl, rfl⟩
    · exact ⟨rfl, rfl⟩
    · exact ⟨rfl, rfl⟩
    · cases h
  · intro kf hkf g hg
    rcases hkf with _ | ⟨_, _ | ⟨_, _ | ⟨_, _ | ⟨_, h⟩⟩⟩⟩
    · cases hg
    · cases hg
    · cases hg
    · cases hg; exact ⟨.ok (.int 2), fun s => ⟨rfl, rfl⟩⟩
    · cases h

theorem Q_blind : OrderBlind Q := by
  refine ⟨fun _ _ _ => rfl, fun i j s t hij _ i' x s' h => ?_⟩
  cases h
  exact ⟨j, none, t, rfl, hij, .inl ⟨rfl, rfl⟩⟩

example : construct env Q noParse none [("w", .int 5), ("x", .int 6)] s0 =
    (.ok (.new ⟨.record 11, [("w", .int 5), ("x", .int 6), ("y", .int 1), ("z", .int 2)], none⟩), s0) := rfl
example : construct env' Q noParse none [("x", .int 6), ("w", .int 5)] s0 =
    (.ok (.new ⟨.record 11, [("x", .int 6), ("w", .int 5), ("z", .int 2), ("y", .int 1)], none⟩), s0) := rfl
example := C53_order_irrelevant (E := env) (E' := env') (kw := [("w", .int 5), ("x", .int 6)]) Q_creatable Q_quiet Q_blind
  noParse noParse (by decide) (.swap _ _ _) (rfl : s0.user = s0.user) (s' := s0) rfl

/-- C54: the log counts the calls of the factory of `z` -/
def sevens (s : LState W) : Nat := (show List Nat from s.user).length

theorem sevens_append (l : List Nat) (n : Nat) : (l ++ [n]).length = l.length + 1 := by simp

/-- `D` without type checks -/
def spD' : ClassSpec W := { spD with style := .hollow }

theorem D'_creatable : Creatable (clsOf spD' noClass) := .intro spD' _ ⟨by decide, by decide, nofun⟩ nofun rfl

theorem D_counts : CountsFactory (clsOf spD' noClass) "z" sevens := by
  refine ⟨?_, ?_, ?_, fun _ _ => rfl⟩
  · intro kf hkf v s
    rcases hkf with _ | ⟨_, _ | ⟨_, _ | ⟨_, h⟩⟩⟩
    · rfl
    · rfl
    · rfl
    · cases h
  · intro kf hkf hk g hg
    rcases hkf with _ | ⟨_, _ | ⟨_, _ | ⟨_, h⟩⟩⟩
    · cases hg
    · cases hg
    · exact absurd rfl hk
    · cases h
  · exact ⟨_, _, .tail _ (.tail _ (.head _)), rfl, fun s => sevens_append _ 7⟩

example : sevens (construct env (clsOf spD' noClass) noParse none (kwX (.int 1)) s0).2 = 1 :=
  C54_factory_once (parse := noParse) D'_creatable (nodup1 _ _) D_counts (E := env) (s := s0) (Prod.ext rfl rfl)
example : sevens (construct env (clsOf spD' noClass) noParse none [("x", .int 1), ("z", .int 2)] s0).2 = 0 := rfl

/-- C55: `class U(RecordBase, unary_parse=True): x: int` (checked) with a parser that accepts strings only, returning `U(x=1)` -/
def spU : ClassSpec W :=
  { cid := .record 12, style := .check, unary := some true, anns := [("x", .plain (.cls .int))],
    parsers := [.user fun v => match (show TObj from v) with
      | .str _ => M.pure (.new ⟨.record 12, [("x", .int 1)], none⟩)
      | .bool _ => M.pure (.new ⟨.record 12, [("x", .int 2)], none⟩)
      | _ => M.throw .valueError] }

def U : RecClass W := clsOf spU noClass

theorem U_creatable : Creatable U := .intro spU U ⟨by decide, by decide, nofun⟩ nofun rfl

/-- only the field interpretation works; only parsing works; both work -/
example : callN env U 5 (some (.int 3)) [] s0 = (.ok (.new ⟨.record 12, [("x", .int 3)], none⟩), s0) := rfl
example : callN env U 5 (some (.str "s")) [] s0 = (.ok (.new ⟨.record 12, [("x", .int 1)], none⟩), s0) := rfl
example : callN env U 5 (some (.bool true)) [] s0 = (.error .typeError, s0) := rfl
example := C55_ambiguous (E := env) U_creatable (parse := parseN env U 4) rfl rfl (a := .bool true) (s := s0) rfl
  (by simp [Res.isNone]) rfl
example := C56_fill_failure (E := env) U_creatable (parse := parseN env U 4) rfl rfl (a := .str "s") (s := s0) rfl
  (by simp [Res.isNone]) (.head _) rfl rfl

/-- `B` has two required fields and parses -/
example := C55_parsed_no_field (E := env) (C := B) (parse := noParse) rfl (by decide) (.int 1) (s := s0) (s1 := s0)
/-- `D` does not parse -/
example : construct env D noParse (some (.int 1)) [("y", .int 2)] s0 =
    construct env D noParse none [("y", .int 2), ("x", .int 1)] s0 :=
  ((C55_not_parsed (W := W) (kw := [("y", TObj.int 2)]) noParse (.inl (by simp)) (TObj.int 1) s0).1 "x" rfl).2 (by decide)

/-- C60: the errors of a coercer -/
def spE (e : Exc) : ClassSpec W :=
  { cid := .record 13, style := .check, anns := [("x", .plain (.annotated (.cls .int) [vtok (err 1 e)]))] }

def EC (e : Exc) : RecClass W := clsOf (spE e) noClass

example : (construct env (EC ⟨.user 0, none⟩) noParse none (kwX (.int 1)) s0).1 = .error ⟨.user 0, some "x"⟩ := rfl
example : (construct env (EC ⟨.user 1, none⟩) noParse none (kwX (.int 1)) s0).1 = .error ⟨.valueError, some "x"⟩ := rfl
example : (construct env (EC ⟨.user 2, none⟩) noParse none (kwX (.int 1)) s0).1 = .error .keyError := rfl
example : (construct env (EC ⟨.base 4, none⟩) noParse none (kwX (.int 1)) s0).1 = .error ⟨.base 4, none⟩ := rfl
example := C60_fill_error (E := env) (s := s0) (C := EC ⟨.user 0, none⟩) (.intro (spE ⟨.user 0, none⟩) _ ⟨by decide, by decide, nofun⟩ nofun rfl) noParse
  (nodup1 "x" (.int 1)) (by decide) (.here rfl (rfl : _ = (_, _)))

/-- C61 -/
example : callN env D 5 none [("arg", .int 1)] s0 = callN env D 5 (some (.int 1)) [] s0 := rfl
example : callN env D 5 none [("cls", .int 1)] s0 = (.error .typeError, s0) := rfl

/-- `class S(RecordBase): self: int` cannot be built by keyword -/
def spS : ClassSpec W := { cid := .record 14, anns := [("self", .plain (.cls .int))] }

example : callN env (clsOf spS noClass) 5 none [("self", .int 1)] s0 = (.error .typeError, s0) := rfl
example : callN env (clsOf spS noClass) 5 (some (.int 1)) [] s0 = (.ok (.new ⟨.record 14, [("self", .int 1)], none⟩), s0) := rfl

/-- C62: a `post_new` that logs 9 and sets `y` -/
def spP : ClassSpec W :=
  { spA with cid := .record 15,
             postNew := fun i => M.bind (log 9) fun _ => M.pure ({ i with dict := i.dict.set "y" (.int 0) }, some (.old (.str ""))) }

example : construct env (clsOf spP noClass) noParse none (kwX (.int 1)) s0 =
    (.ok (.new ⟨.record 15, [("x", .int 1), ("y", .int 0)], none⟩), ⟨[9], fun _ => []⟩) := rfl

theorem P_counts : CountsPost (clsOf spP noClass) sevens := by
  refine ⟨?_, ?_, fun i s => sevens_append _ 9⟩
  · intro kf hkf v s
    rcases hkf with _ | ⟨_, _ | ⟨_, h⟩⟩
    · rfl
    · rfl
    · cases h
  · intro kf hkf g hg
    rcases hkf with _ | ⟨_, _ | ⟨_, h⟩⟩
    · cases hg
    · cases hg
    · cases h

/-- C56: `class V(RecordBase, unary_parse=True): x`, with falsy instances, whose `post_new` rejects strings -/
def spF : ClassSpec W :=
  { spU with cid := .record 16, style := .hollow, truthy := fun _ => false,
             postNew := fun i => match (show Option TObj from i.dict.get? "x") with
               | some (.str _) => M.throw .valueError
               | _ => M.pure (i, none) }

end Records.Toy

namespace Records
open Toy

/-- C56: that any failure of `post_new` yields the parse result is refuted: a falsy parse result is dropped. -/
theorem C56_refuted : ∃ (sp : ClassSpec W) (C : RecClass W) (a : TObj) (r : Res W), sp.OK ∧ mkClass sp = .ok C ∧
    parseN env C 4 a s0 = (.ok r, s0) ∧ ¬ r.isNone ∧ callN env C 5 (some a) [] s0 = (.error .valueError, s0) :=
  ⟨spF, _, .str "s", _, ⟨by decide, by decide, nofun⟩, rfl, rfl, by simp [Res.isNone], rfl⟩

end Records
