import Verif.Spec.New
import Verif.Spec.Class
import Verif.Proofs.Class
import Verif.Proofs.Monad
set_option linter.unusedSimpArgs false
/-
Field construction refines its relational specification.
-/
namespace Records
variable {W : World}

theorem FillArgs.keys {fields : Dict (Field W)} {kw : Dict W.Obj} {s s' : LState W} {out : Dict W.Obj}
    (h : FillArgs fields kw s out s') : out.keys = kw.keys ∧ ∀ k ∈ kw.keys, k ∈ fields.keys := by
  induction h with
  | nil => exact ⟨rfl, nofun⟩
  | cons h1 _ _ ih =>
    refine ⟨by simp [ih.1], ?_⟩
    intro k hk
    simp only [Dict.keys_cons, List.mem_cons] at hk
    rcases hk with rfl | hk
    · exact Dict.keys_mem_of_mem (Dict.get?_eq_some_mem _ _ _ h1)
    · exact ih.2 k hk

theorem DefaultSeq.keys {fields : Dict (Field W)} {ks : List String} {s s' : LState W} {out : Dict W.Obj}
    (h : DefaultSeq fields ks s out s') : out.keys = ks := by
  induction h with
  | nil => rfl
  | cons _ _ _ _ ih => simp [ih]

theorem FillArgs.get {fields : Dict (Field W)} {kw : Dict W.Obj} {s s' : LState W} {out : Dict W.Obj}
    (h : FillArgs fields kw s out s') {k : String} {v : W.Obj} (hm : kw.get? k = some v) :
    ∃ f w s1 s2, fields.get? k = some f ∧ f.filler.call v s1 = (.ok w, s2) ∧ out.get? k = some w := by
  induction h with
  | nil => cases hm
  | @cons k' v' kw s f w s1 out s2 h1 h2 _ ih =>
    simp only [Dict.get?] at hm ⊢
    by_cases hk : k' = k
    · subst hk
      simp only [if_true] at hm ⊢
      cases hm
      exact ⟨f, w, s, s1, h1, h2, rfl⟩
    · simp only [hk, if_false] at hm ⊢
      exact ih hm

/-- the fill loop, with the accumulator -/
theorem fillLoop_seq {E : Env W} {fields : Dict (Field W)} {st : Option (Res W)} {kw : Dict W.Obj} {s s' : LState W}
    {out acc : Dict W.Obj} (h : FillArgs fields kw s out s') (hwf : Dict.WF kw) (hd : ∀ k ∈ kw.keys, k ∉ acc.keys) :
    fillLoop E fields st kw acc s = (.ok (.inr (acc ++ out)), s') := by
  induction h generalizing acc with
  | nil => simp [fillLoop, M.pure]
  | @cons k v kw s f w s1 out s2 h1 h2 _ ih =>
    simp only [fillLoop, h1, h2]
    have hn := List.nodup_cons.1 hwf
    have hk : k ∉ acc.keys := hd k (by simp)
    rw [Dict.set_of_not_mem _ _ _ hk, ih hn.2]
    · simp
    · intro k' hk'
      simp only [Dict.keys_append, List.mem_append, Dict.keys_cons, Dict.keys_nil, List.mem_singleton, not_or]
      refine ⟨hd k' (by simp [hk']), ?_⟩
      rintro rfl
      exact hn.1 hk'

theorem fillLoop_fail {E : Env W} {fields : Dict (Field W)} {st : Option (Res W)} {kw : Dict W.Obj} {s s' : LState W}
    {k : String} {e : Exc} (h : FillArgsFail fields kw s k e s') (acc : Dict W.Obj) :
    fillLoop E fields st kw acc s = (if !e.isException then .error e else
      match st with | some r => .ok (.inl r) | none => .error (rewrapErr E e k), s') := by
  induction h generalizing acc with
  | here h1 h2 =>
    simp only [fillLoop, h1, h2]
    split
    · rfl
    · split <;> rfl
  | there h1 h2 _ ih => simp only [fillLoop, h1, h2]; exact ih _

theorem fill_total (fields : Dict (Field W)) (kw : Dict W.Obj) (s : LState W) (h : ∀ k ∈ kw.keys, k ∈ fields.keys) :
    (∃ out s', FillArgs fields kw s out s') ∨ (∃ k e s', FillArgsFail fields kw s k e s') := by
  induction kw generalizing s with
  | nil => exact .inl ⟨[], s, .nil s⟩
  | cons a kw ih =>
    obtain ⟨k, v⟩ := a
    obtain ⟨f, hf⟩ := Option.isSome_iff_exists.1 ((Dict.get?_isSome_iff fields k).2 (h k (by simp)))
    rcases hc : f.filler.call v s with ⟨r, s1⟩
    cases r with
    | error e => exact .inr ⟨k, e, s1, .here hf hc⟩
    | ok w =>
      rcases ih s1 (fun k hk => h k (by simp [hk])) with ⟨out, s', ho⟩ | ⟨k', e, s', ho⟩
      · exact .inl ⟨_, s', .cons hf hc ho⟩
      · exact .inr ⟨k', e, s', .there hf hc ho⟩

theorem Makes.eq {d : Deflt W} {s s' : LState W} {r : Except Exc W.Obj} (h : Makes d s r s') : d.make s = (r, s') := by
  cases h with
  | value => rfl
  | factory h => exact h

theorem makes_total (d : Deflt W) (s : LState W) : Makes d s (d.make s).1 (d.make s).2 := by
  cases d with
  | value v => exact .value v s
  | factory f => exact .factory rfl

theorem defaultLoop_seq {fields : Dict (Field W)} {ks : List String} {s s' : LState W} {out acc : Dict W.Obj}
    (h : DefaultSeq fields ks s out s') (hn : ks.Nodup) (hd : ∀ k ∈ ks, k ∉ acc.keys) :
    defaultLoop fields ks acc s = (.ok (acc ++ out), s') := by
  induction h generalizing acc with
  | nil => simp [defaultLoop, M.pure]
  | @cons k f d ks s w s1 out s2 h1 h2 h3 _ ih =>
    have hn := List.nodup_cons.1 hn
    simp only [defaultLoop, h1, Option.bind_some, h2, M.bind, h3.eq]
    rw [Dict.set_of_not_mem _ _ _ (hd k (by simp)), ih hn.2]
    · simp
    · intro k' hk'
      simp only [Dict.keys_append, List.mem_append, Dict.keys_cons, Dict.keys_nil, List.mem_singleton, not_or]
      refine ⟨hd k' (by simp [hk']), ?_⟩
      rintro rfl
      exact hn.1 hk'

theorem defaultLoop_fail {fields : Dict (Field W)} {ks : List String} {s s' : LState W} {e : Exc}
    (h : DefaultFail fields ks s e s') (acc : Dict W.Obj) : defaultLoop fields ks acc s = (.error e, s') := by
  induction h generalizing acc with
  | here h1 h2 h3 => simp only [defaultLoop, h1, Option.bind_some, h2, M.bind, h3.eq]
  | there h1 h2 h3 _ ih => simp only [defaultLoop, h1, Option.bind_some, h2, M.bind, h3.eq]; exact ih _

theorem default_total (fields : Dict (Field W)) (ks : List String) (s : LState W)
    (h : ∀ k ∈ ks, ∃ f d, fields.get? k = some f ∧ f.default = some d) :
    (∃ out s', DefaultSeq fields ks s out s') ∨ (∃ e s', DefaultFail fields ks s e s') := by
  induction ks generalizing s with
  | nil => exact .inl ⟨[], s, .nil s⟩
  | cons k ks ih =>
    obtain ⟨f, d, hf, hd⟩ := h k (by simp)
    have hm := makes_total d s
    rcases hr : (d.make s).1 with e | w
    · rw [hr] at hm
      exact .inr ⟨e, _, .here hf hd hm⟩
    · rw [hr] at hm
      rcases ih (d.make s).2 (fun k hk => h k (by simp [hk])) with ⟨out, s', ho⟩ | ⟨e, s', ho⟩
      · exact .inl ⟨_, s', .cons hf hd hm ho⟩
      · exact .inr ⟨e, s', .there hf hd hm ho⟩

theorem unsupplied_mem {E : Env W} {C : RecClass W} (wf : C.WF) {kw : Dict W.Obj} :
    (C.unsupplied E kw).Nodup ∧ ∀ k, k ∈ C.unsupplied E kw ↔ k ∈ C.optional ∧ k ∉ kw.keys := by
  have hp := E.setOrder_perm (C.optional.filter fun k => !kw.has k)
  refine ⟨hp.nodup_iff.2 (wf.opt_nodup.filter _), fun k => ?_⟩
  unfold RecClass.unsupplied
  rw [hp.mem_iff]
  simp only [List.mem_filter, Bool.not_eq_true', Dict.has_eq_false_iff]

theorem Res.true_iff {C : RecClass W} {r : Res W} : Res.true C r ↔ r.truthy C = Bool.true := by cases r <;> rfl

theorem Replaced.eq {C : RecClass W} {i : Inst W} {r : Option (Res W)} {res : Res W} (h : Replaced C i r res) :
    (match (generalizing := false) r with | Option.none => Res.new i | some r => if r.truthy C then r else Res.new i) = res := by
  cases h with
  | none => rfl
  | falsy h => rw [Res.true_iff] at h; simp [h]
  | truthy h => rw [Res.true_iff] at h; simp [h]

theorem replaced_total (C : RecClass W) (i : Inst W) (r : Option (Res W)) : ∃ res, Replaced C i r res := by
  cases r with
  | none => exact ⟨_, .none⟩
  | some r =>
    by_cases h : Res.true C r
    · exact ⟨_, .truthy h⟩
    · exact ⟨_, .falsy h⟩

theorem update_nil_of_wf {V : Type} {d : Dict V} (h : d.WF) : Dict.update [] d = d := by
  rw [Dict.update_of_disjoint _ _ h (by simp)]; rfl

theorem mkInst_fresh {C : RecClass W} {values : Dict W.Obj} (h : values.WF) : mkInst C values = C.fresh values := by
  unfold mkInst RecClass.fresh
  rw [update_nil_of_wf h]

theorem values_wf {E : Env W} {C : RecClass W} (wf : C.WF) {kw out defs : Dict W.Obj} {s s1 s2 : LState W} (hkw : Dict.WF kw)
    (h1 : FillArgs C.fields kw s out s1) (h2 : DefaultSeq C.fields (C.unsupplied E kw) s1 defs s2) : Dict.WF (out ++ defs) := by
  unfold Dict.WF
  rw [Dict.keys_append, h1.keys.1, h2.keys]
  obtain ⟨hn, hm⟩ := unsupplied_mem (E := E) wf (kw := kw)
  refine List.nodup_append.2 ⟨hkw, hn, ?_⟩
  rintro a ha b hb rfl
  exact ((hm a).1 hb).2 ha

/-- Field construction does what the specification says. -/
theorem newFields_spec {E : Env W} {C : RecClass W} (wf : C.WF) {kw : Dict W.Obj} (hkw : Dict.WF kw) {s s' : LState W}
    {o : Outcome W} (st : Option (Res W)) (h : Build C kw (C.unsupplied E kw) s o s') :
    newFields E C st kw s = (o.resolve E C st, s') := by
  have hknown : (∀ k ∈ kw.keys, k ∈ C.fields.keys) → (kw.keys.any fun k => !C.fields.has k) = false := by
    intro h
    simp only [List.any_eq_false, Bool.not_eq_true', Bool.not_eq_false]
    intro k hk
    simp [(Dict.has_iff C.fields k).2 (h k hk)]
  have hreq : (∀ k ∈ C.required, k ∈ kw.keys) → (C.required.any fun k => !kw.has k) = false := by
    intro h
    simp only [List.any_eq_false, Bool.not_eq_true', Bool.not_eq_false]
    intro k hk
    simp [(Dict.has_iff kw k).2 (h k hk)]
  obtain ⟨hun, hum⟩ := unsupplied_mem (E := E) wf (kw := kw)
  cases h with
  | unknownKey h1 h2 =>
    unfold newFields
    rw [if_pos]
    · cases st <;> rfl
    · simp only [List.any_eq_true]
      exact ⟨_, h1, by simp [(Dict.has_eq_false_iff C.fields _).2 h2]⟩
  | fillError h1 h2 =>
    unfold newFields
    rw [hknown h1, if_neg (by simp)]
    simp only [M.bind, fillLoop_fail h2]
    rename_i e
    cases he : e.isException with
    | false => cases st <;> simp [Outcome.resolve, he]
    | true => cases st <;> simp [Outcome.resolve, he, M.pure]
  | missing h1 h2 h3 =>
    unfold newFields
    rw [hknown h1.keys.2, if_neg (by simp)]
    simp only [M.bind, fillLoop_seq (E := E) (st := st) (acc := []) h1 hkw (by simp)]
    rw [if_pos]
    · cases st <;> rfl
    · simp only [List.any_eq_true]
      exact ⟨_, h2, by simp [(Dict.has_eq_false_iff kw _).2 h3]⟩
  | factoryError h1 h2 h3 =>
    rename_i out s1 e
    unfold newFields
    rw [hknown h1.keys.2, if_neg (by simp)]
    simp only [M.bind, fillLoop_seq (E := E) (st := st) (acc := []) h1 hkw (by simp)]
    rw [hreq h2, if_neg (by simp)]
    have := defaultLoop_fail h3 ([] ++ out)
    unfold RecClass.unsupplied at this
    simp only [List.nil_append] at this ⊢
    simp only [M.bind, this]
    cases st <;> rfl
  | postError h1 h2 h3 h4 =>
    rename_i out s1 defs s2 e
    unfold newFields
    rw [hknown h1.keys.2, if_neg (by simp)]
    simp only [M.bind, fillLoop_seq (E := E) (st := st) (acc := []) h1 hkw (by simp)]
    rw [hreq h2, if_neg (by simp)]
    have := defaultLoop_seq (acc := [] ++ out) h3 hun
      (fun k hk => by simp only [List.nil_append, h1.keys.1]; exact ((hum k).1 hk).2)
    unfold RecClass.unsupplied at this
    simp only [List.nil_append] at this ⊢
    simp only [M.bind, this, mkInst_fresh (values_wf wf hkw h1 h3), finishNew, h4]
    cases he : e.isException with
    | false => cases st <;> simp [Outcome.resolve, he]
    | true =>
      cases st with
      | none => simp [Outcome.resolve]
      | some p =>
        simp only [Outcome.resolve, Res.true_iff, he]
        by_cases hp : p.truthy C = Bool.true <;> simp [hp]
  | made h1 h2 h3 h4 h5 =>
    rename_i out s1 defs s2 i r res
    unfold newFields
    rw [hknown h1.keys.2, if_neg (by simp)]
    simp only [M.bind, fillLoop_seq (E := E) (st := st) (acc := []) h1 hkw (by simp)]
    rw [hreq h2, if_neg (by simp)]
    have := defaultLoop_seq (acc := [] ++ out) h3 hun
      (fun k hk => by simp only [List.nil_append, h1.keys.1]; exact ((hum k).1 hk).2)
    unfold RecClass.unsupplied at this
    simp only [List.nil_append] at this ⊢
    simp only [M.bind, this, mkInst_fresh (values_wf wf hkw h1 h3), finishNew, h4]
    cases st with
    | none => simp only [Outcome.resolve]; exact congrArg (fun r => (Except.ok r, s')) h5.eq
    | some p => rfl

/-- Something always happens. -/
theorem build_total {E : Env W} {C : RecClass W} (wf : C.WF) (kw : Dict W.Obj) (s : LState W) :
    ∃ o s', Build C kw (C.unsupplied E kw) s o s' := by
  by_cases h : ∀ k ∈ kw.keys, k ∈ C.fields.keys
  · rcases fill_total C.fields kw s h with ⟨out, s1, h1⟩ | ⟨k, e, s1, h1⟩
    · by_cases hr : ∀ k ∈ C.required, k ∈ kw.keys
      · rcases default_total C.fields (C.unsupplied E kw) s1 (fun k hk => by
          have := ((unsupplied_mem (E := E) wf (kw := kw)).2 k).1 hk
          exact (wf.opt k).1 this.1) with ⟨defs, s2, h2⟩ | ⟨e, s2, h2⟩
        · rcases hp : C.postNew (C.fresh (out ++ defs)) s2 with ⟨r, s3⟩
          cases r with
          | error e => exact ⟨_, s3, .postError h1 hr h2 hp⟩
          | ok ir =>
            obtain ⟨i, r⟩ := ir
            obtain ⟨res, hres⟩ := replaced_total C i r
            exact ⟨_, s3, .made h1 hr h2 hp hres⟩
        · exact ⟨_, s2, .factoryError h1 hr h2⟩
      · have : ∃ k, k ∈ C.required ∧ k ∉ kw.keys := by
          apply Classical.byContradiction
          intro hn
          exact hr fun k hk => Classical.byContradiction fun hk' => hn ⟨k, hk, hk'⟩
        obtain ⟨k, hk, hk'⟩ := this
        exact ⟨_, s1, .missing h1 hk hk'⟩
    · exact ⟨_, s1, .fillError h h1⟩
  · have : ∃ k, k ∈ kw.keys ∧ k ∉ C.fields.keys := by
      apply Classical.byContradiction
      intro hn
      exact h fun k hk => Classical.byContradiction fun hk' => hn ⟨k, hk, hk'⟩
    obtain ⟨k, hk, hk'⟩ := this
    exact ⟨_, s, .unknownKey hk hk'⟩

end Records
