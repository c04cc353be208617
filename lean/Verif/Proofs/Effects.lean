import Verif.Spec.Effects
import Verif.Proofs.Instance
import Verif.Proofs.Honest
set_option linter.unusedSimpArgs false
/-
Lemmas for C109: comparisons with effects.
-/
namespace Records
variable {W : World}

theorem Runs.append {α β : Type} {f : α → M W β} {l l' : List α} {s s1 s2 : LState W} {rs rs' : List β} (h : Runs f l s rs s1)
    (h' : Runs f l' s1 rs' s2) : Runs f (l ++ l') s (rs ++ rs') s2 := by
  induction h with
  | nil => exact h'
  | cons ha _ ih => exact .cons ha (ih h')

/-- a sequence of calls either gives all its results or stops with an exception -/
theorem runs_or_stops {α β : Type} (f : α → M W β) (l : List α) (s : LState W) :
    (∃ rs s', Runs f l s rs s') ∨ ∃ e s', Stops f l s e s' := by
  induction l generalizing s with
  | nil => exact .inl ⟨[], s, .nil s⟩
  | cons a l ih =>
    rcases h : f a s with ⟨r, s1⟩
    cases r with
    | error e => exact .inr ⟨e, s1, [], a, l, [], s, rfl, .nil s, h⟩
    | ok r =>
      rcases ih s1 with ⟨rs, s', hr⟩ | ⟨e, s', pre, b, post, rs, s2, hl, hr, hb⟩
      · exact .inl ⟨r :: rs, s', .cons h hr⟩
      · exact .inr ⟨e, s', a :: pre, b, post, r :: rs, s2, by rw [hl]; rfl, .cons h hr, hb⟩

theorem stops_cons {α β : Type} {f : α → M W β} {a : α} {l : List α} {s : LState W} {e : Exc} {s' : LState W}
    (h : Stops f (a :: l) s e s') : f a s = (.error e, s') ∨ ∃ r s1, f a s = (.ok r, s1) ∧ Stops f l s1 e s' := by
  obtain ⟨pre, b, post, rs, s2, hl, hr, hb⟩ := h
  cases pre with
  | nil => cases hr; cases hl; exact .inl hb
  | cons c pre =>
    cases hl
    cases hr with
    | cons ha hr' => exact .inr ⟨_, _, ha, pre, b, post, _, s2, rfl, hr', hb⟩

theorem mapM_runs {α β : Type} {f : α → M W β} {l : List α} {s s' : LState W} {rs : List β} (h : Runs f l s rs s') :
    M.mapM f l s = (.ok rs, s') := by
  induction h with
  | nil => rfl
  | cons ha _ ih => unfold M.mapM; rw [M.bind_ok ha, M.bind_ok ih]; rfl

theorem mapM_stops {α β : Type} {f : α → M W β} {l : List α} {s s' : LState W} {e : Exc} (h : Stops f l s e s') :
    M.mapM f l s = (.error e, s') := by
  induction l generalizing s with
  | nil => obtain ⟨pre, b, post, rs, s2, hl, _⟩ := h; cases pre <;> cases hl
  | cons a l ih =>
    unfold M.mapM
    rcases stops_cons h with h | ⟨r, s1, h, h'⟩
    · exact M.bind_error h
    · rw [M.bind_ok h, M.bind_error (ih h')]

/-! ### refinement -/

theorem exportValueE_plain (H : Hasher W) (rep : W.Obj → String) (o : ExportOpts) (f : XField W) (v : W.Obj) :
    exportValueE (.plain H rep) o f v = M.pure (exportValue o f v) := by
  unfold exportValueE exportValue
  by_cases hw : f.name ∈ o.whitelist
  · simp [hw]
  · simp only [hw, if_false, decide_false, Bool.false_or]
    cases o.includeDefaults with
    | true => simp
    | false => cases f.default with
      | none => simp
      | some d => cases d <;> rfl

theorem exportTuplesE_congr {V : ValueOps W} {obj : Carrier W} {o : ExportOpts} {mok : List String} {fs : List (XField W)}
    (h : ∀ f ∈ fs, ∀ v, exportValueE V o f v = M.pure (exportValue o f v)) :
    exportTuplesE V obj o mok fs = exportTuples obj o mok fs := by
  induction fs with
  | nil => rfl
  | cons f fs ih =>
    have ih := ih fun g hg => h g (by simp [hg])
    funext s
    unfold exportTuplesE exportTuples
    rw [ih]
    cases exportField o f with
    | error e => rfl
    | ok b => cases b with
      | false => rfl
      | true =>
        simp only
        rcases ha : obj.attr f.name s with ⟨r, s'⟩
        cases r with
        | error e => rfl
        | ok v =>
          simp only [h f (by simp) v, M.pure_bind]
          split <;> rfl

theorem mapM_pure {α β : Type} (f : α → β) (l : List α) : M.mapM (W := W) (fun a => M.pure (f a)) l = M.pure (l.map f) := by
  induction l with
  | nil => rfl
  | cons a l ih => unfold M.mapM; rw [M.pure_bind, ih]; rfl

theorem mapM_hash_plain (H : Hasher W) (rep : W.Obj → String) (l : List W.Obj) :
    M.mapM (ValueOps.plain H rep).hash l = M.ofExcept (if l.all W.hashable then .ok (l.map H.obj) else .error .typeError) := by
  induction l with
  | nil => rfl
  | cons a l ih =>
    unfold M.mapM
    rw [ih]
    cases ha : W.hashable a with
    | false => funext s; simp [ValueOps.plain, ha]; rfl
    | true =>
      cases hl : l.all W.hashable <;> funext s <;> simp [ValueOps.plain, ha, hl] <;> rfl

theorem eqFieldsE_plain (H : Hasher W) (rep : W.Obj → String) (E : Env W) (a b : Inst W) (ks : List String) (s : LState W) :
    eqFieldsE (.plain H rep) E a b ks s = (eqFields E a b ks, s) := by
  induction ks with
  | nil => rfl
  | cons k ks ih =>
    unfold eqFieldsE eqFields
    cases a.attr E k with
    | error e => rfl
    | ok v => cases b.attr E k with
      | error e => rfl
      | ok w =>
        show (if (!W.eq v w) = true then M.pure false else eqFieldsE (.plain H rep) E a b ks) s = _
        cases h : W.eq v w with
        | false => simp [h]; rfl
        | true => simpa [h] using ih

/-! ### what is asked -/


/-- one field of an export -/
theorem exportValueE_candidate {V : ValueOps W} {o : ExportOpts} {black : List Nat} {i : Inst W} {f : Field W} {v : W.Obj}
    {c : Shown W} (hv : i.dict.get? f.name = some v) (hc : candidate o.includeDefaults black o.whitelist i f.name f = some c) :
    c.name = f.name ∧ c.value = v ∧ exportValueE V o f.x v =
      match c.default with
      | none => M.pure true
      | some d => M.bind (V.eq d v) fun b => M.pure (!b) := by
  unfold candidate at hc
  split at hc
  · rw [hv] at hc
    cases hc
    refine ⟨rfl, rfl, ?_⟩
    unfold exportValueE
    show (if f.name ∈ o.whitelist then _ else _) = _
    by_cases hw : f.name ∈ o.whitelist
    · simp [hw]
    · cases hi : o.includeDefaults with
      | true => simp [hw, hi]
      | false =>
        simp only [hw, hi, if_false, false_or, Bool.false_eq_true]
        show (match f.default with | none => _ | some d => _) = _
        cases f.default with
        | none => rfl
        | some d => cases d <;> rfl
  · cases hc

theorem candidate_none {o : ExportOpts} {black : List Nat} (ho : o.blacklist = .tags black) {i : Inst W} {f : Field W} {v : W.Obj}
    (hv : i.dict.get? f.name = some v) (hc : candidate o.includeDefaults black o.whitelist i f.name f = none) :
    exportField o f.x = .ok false := by
  rw [exportField_tags ho]
  unfold candidate at hc
  split at hc
  · rw [hv] at hc; cases hc
  · rename_i h
    rw [decide_eq_false (by exact h)]

theorem candidate_some {o : ExportOpts} {black : List Nat} (ho : o.blacklist = .tags black) {i : Inst W} {f : Field W} {c : Shown W}
    (hc : candidate o.includeDefaults black o.whitelist i f.name f = some c) : exportField o f.x = .ok true := by
  rw [exportField_tags ho]
  unfold candidate at hc
  split at hc
  · rename_i h
    rw [decide_eq_true (by exact h)]
  · cases hc

/-- all comparisons give an answer -/
theorem exportTuplesE_runs {V : ValueOps W} {E : Env W} {o : ExportOpts} {black : List Nat} (ho : o.blacklist = .tags black)
    {i : Inst W} {mok : List String} (fs : Dict (Field W)) (hn : ∀ kf ∈ fs, kf.2.name = kf.1)
    (hf : ∀ kf ∈ fs, ∃ v, i.dict.get? kf.1 = some v) {s s' : LState W} {bs : List Bool}
    (h : Runs (fun p => V.eq p.1 p.2)
      (questions (fs.filterMap fun kf => candidate o.includeDefaults black o.whitelist i kf.1 kf.2)) s bs s') :
    exportTuplesE V (.ofInst E i) o mok (fs.map fun kf => kf.2.x) s =
      (.ok (keep (fs.filterMap fun kf => candidate o.includeDefaults black o.whitelist i kf.1 kf.2) bs), s') := by
  induction fs generalizing s bs with
  | nil => cases h; rfl
  | cons kf fs ih =>
    obtain ⟨k, f⟩ := kf
    obtain ⟨v, hv⟩ := hf (k, f) (by simp)
    have hname : f.name = k := hn (k, f) (by simp)
    subst hname
    have ih := @ih (fun x hx => hn x (by simp [hx])) (fun x hx => hf x (by simp [hx]))
    simp only [List.map_cons, List.filterMap_cons] at h ⊢
    have ha : (Carrier.ofInst E i).attr f.x.name s = (.ok v, s) := inst_attr hv s
    unfold exportTuplesE
    cases hc : candidate o.includeDefaults black o.whitelist i f.name f with
    | none =>
      rw [hc] at h
      simp only [candidate_none ho hv hc]
      exact ih h
    | some c =>
      rw [hc] at h
      obtain ⟨h1, h2, h3⟩ := exportValueE_candidate (V := V) hv hc
      simp only [candidate_some ho hc, ha, h3]
      cases hd : c.default with
      | none =>
        simp only [questions, List.filterMap_cons, hd, Option.map_none] at h
        simp only [keep, hd, M.pure_bind, if_true]
        rw [M.bind_ok (ih h), h1, h2]
        rfl
      | some d =>
        simp only [questions, List.filterMap_cons, hd, Option.map_some] at h
        cases h with
        | @cons _ _ r rs _ s1 _ hq hr =>
          rw [h2] at hq
          simp only
          rw [M.bind_assoc, M.bind_ok hq, M.pure_bind]
          cases r with
          | true => simp only [keep, hd]; exact ih hr
          | false =>
            simp only [keep, hd, Bool.not_false, if_true]
            rw [M.bind_ok (ih hr), h1, h2]
            rfl

/-- a comparison raises -/
theorem exportTuplesE_stops {V : ValueOps W} {E : Env W} {o : ExportOpts} {black : List Nat} (ho : o.blacklist = .tags black)
    {i : Inst W} {mok : List String} (fs : Dict (Field W)) (hn : ∀ kf ∈ fs, kf.2.name = kf.1)
    (hf : ∀ kf ∈ fs, ∃ v, i.dict.get? kf.1 = some v) {s s' : LState W} {e : Exc}
    (h : Stops (fun p => V.eq p.1 p.2)
      (questions (fs.filterMap fun kf => candidate o.includeDefaults black o.whitelist i kf.1 kf.2)) s e s') :
    exportTuplesE V (.ofInst E i) o mok (fs.map fun kf => kf.2.x) s = (.error e, s') := by
  induction fs generalizing s with
  | nil => obtain ⟨pre, b, post, rs, s2, hl, _⟩ := h; cases pre <;> cases hl
  | cons kf fs ih =>
    obtain ⟨k, f⟩ := kf
    obtain ⟨v, hv⟩ := hf (k, f) (by simp)
    have hname : f.name = k := hn (k, f) (by simp)
    subst hname
    have ih := @ih (fun x hx => hn x (by simp [hx])) (fun x hx => hf x (by simp [hx]))
    simp only [List.map_cons, List.filterMap_cons] at h ⊢
    have ha : (Carrier.ofInst E i).attr f.x.name s = (.ok v, s) := inst_attr hv s
    unfold exportTuplesE
    cases hc : candidate o.includeDefaults black o.whitelist i f.name f with
    | none =>
      rw [hc] at h
      simp only [candidate_none ho hv hc]
      exact ih h
    | some c =>
      rw [hc] at h
      obtain ⟨h1, h2, h3⟩ := exportValueE_candidate (V := V) hv hc
      simp only [candidate_some ho hc, ha, h3]
      cases hd : c.default with
      | none =>
        simp only [questions, List.filterMap_cons, hd, Option.map_none] at h
        simp only [M.pure_bind, if_true]
        rw [M.bind_error (ih h)]
      | some d =>
        simp only [questions, List.filterMap_cons, hd, Option.map_some] at h
        simp only
        rcases stops_cons h with hq | ⟨r, s1, hq, hr⟩
        · rw [h2] at hq
          rw [M.bind_assoc, M.bind_error hq]
        · rw [h2] at hq
          rw [M.bind_assoc, M.bind_ok hq, M.pure_bind]
          cases r with
          | true => exact ih hr
          | false =>
            simp only [Bool.not_false, if_true]
            rw [M.bind_error (ih hr)]

theorem candidate_name {incl : Bool} {black : List Nat} {white : List String} {i : Inst W} {k : String} {f : Field W} {c : Shown W}
    (h : candidate incl black white i k f = some c) : c.name = k := by
  unfold candidate at h
  split at h
  · cases hv : i.dict.get? k with
    | none => rw [hv] at h; cases h
    | some v => rw [hv] at h; cases h; rfl
  · cases h

theorem keep_names (cs : List (Shown W)) (bs : List Bool) : ((keep cs bs).map (·.1)).Sublist (cs.map (·.name)) := by
  induction cs generalizing bs with
  | nil => exact .slnil
  | cons c cs ih =>
    unfold keep
    cases c.default with
    | none => exact (ih bs).cons_cons _
    | some d => cases bs with
      | nil => exact (ih []).cons _
      | cons b bs => cases b with
        | true => exact (ih bs).cons _
        | false => exact (ih bs).cons_cons _

theorem candidates_names {incl : Bool} {black : List Nat} {white : List String} {i : Inst W} (fs : Dict (Field W)) :
    ((fs.filterMap fun kf => candidate incl black white i kf.1 kf.2).map (·.name)).Sublist (fs.map (·.1)) := by
  induction fs with
  | nil => exact .slnil
  | cons kf fs ih =>
    simp only [List.filterMap_cons, List.map_cons]
    cases h : candidate incl black white i kf.1 kf.2 with
    | none => exact ih.cons _
    | some c => simp only [List.map_cons, candidate_name h]; exact ih.cons_cons _

theorem keep_wf {incl : Bool} {black : List Nat} {white : List String} {C : RecClass W} (wf : C.WF) (i : Inst W) (bs : List Bool)
    (srt : SortArg) : Dict.WF (sortEntries srt (keep (candidates incl black white C i) bs)) := by
  unfold Dict.WF
  exact ((sortEntries_perm srt _).map _).nodup_iff.2
    (((keep_names _ bs).trans (candidates_names C.fields)).nodup wf.nodup)

theorem leaves (e : Exc) : Leaves e e.leaving := by
  by_cases h : e.kind = .stopIteration
  · exact .inr ⟨h, Exc.leaving_stop h⟩
  · exact .inl ⟨h, Exc.leaving_of_ne h⟩

theorem toDictE_eq (V : ValueOps W) (C : RecClass W) (obj : Carrier W) (o : ExportOpts) :
    toDictE V C obj o Sel.empty = M.bind (M.generator (exportTuplesE V obj o C.optional (C.fields.map fun kf => kf.2.x))) fun l =>
      M.pure (Dict.update [] (sortEntries o.sort l)) := by
  have h : (extraction C Sel.empty).1 = C.optional := rfl
  unfold toDictE
  simp only
  rw [extraction_empty_values, List.map_map]
  rfl

theorem toDictE_runs {V : ValueOps W} {E : Env W} {C : RecClass W} (wf : C.WF) {i : Inst W} (hi : Full C i) {o : ExportOpts}
    {black : List Nat} (ho : o.blacklist = .tags black) {s s' : LState W} {bs : List Bool}
    (h : Runs (fun p => V.eq p.1 p.2) (questions (candidates o.includeDefaults black o.whitelist C i)) s bs s') :
    toDictE V C (.ofInst E i) o Sel.empty s =
      (.ok (sortEntries o.sort (keep (candidates o.includeDefaults black o.whitelist C i) bs)), s') := by
  have hr := exportTuplesE_runs (E := E) ho (mok := C.optional) C.fields
    (fun kf hkf => wf.named kf.1 kf.2 (Dict.mem_get? _ wf.nodup _ _ hkf))
    (fun kf hkf => hi.get (List.mem_map.2 ⟨kf, hkf, rfl⟩)) h
  rw [toDictE_eq, M.bind_ok (M.generator_ok hr)]
  show (Except.ok (Dict.update [] (sortEntries o.sort (keep (candidates o.includeDefaults black o.whitelist C i) bs))), s') = _
  rw [update_nil_eq (keep_wf wf i bs o.sort)]

theorem toDictE_stops {V : ValueOps W} {E : Env W} {C : RecClass W} (wf : C.WF) {i : Inst W} (hi : Full C i) {o : ExportOpts}
    {black : List Nat} (ho : o.blacklist = .tags black) {s s' : LState W} {e : Exc}
    (h : Stops (fun p => V.eq p.1 p.2) (questions (candidates o.includeDefaults black o.whitelist C i)) s e s') :
    toDictE V C (.ofInst E i) o Sel.empty s = (.error e.leaving, s') := by
  have hr := exportTuplesE_stops (E := E) ho (mok := C.optional) C.fields
    (fun kf hkf => wf.named kf.1 kf.2 (Dict.mem_get? _ wf.nodup _ _ hkf))
    (fun kf hkf => hi.get (List.mem_map.2 ⟨kf, hkf, rfl⟩)) h
  rw [toDictE_eq, M.bind_error (M.generator_error hr)]

/-! ### equality -/

/-- what the loop of `==` does with the pairs of values: the first true answer to `!=` or the first exception ends it -/
theorem eqFieldsE_cases (V : ValueOps W) {E : Env W} {a b : Inst W} (fs : Dict (Field W))
    (ha : ∀ kf ∈ fs, ∃ v, a.dict.get? kf.1 = some v) (hb : ∀ kf ∈ fs, ∃ v, b.dict.get? kf.1 = some v) (s : LState W)
    (pairs : List (W.Obj × W.Obj)) (hp : pairs = fs.filterMap fun kf => match a.dict.get? kf.1, b.dict.get? kf.1 with
      | some v, some w => some (v, w)
      | _, _ => none) :
    (∃ s', Runs (fun p => V.ne p.1 p.2) pairs s (List.replicate pairs.length false) s' ∧
      eqFieldsE V E a b (fs.map (·.1)) s = (.ok true, s')) ∨
    ∃ pre p post s1 s', pairs = pre ++ p :: post ∧ Runs (fun p => V.ne p.1 p.2) pre s (List.replicate pre.length false) s1 ∧
      ((V.ne p.1 p.2 s1 = (.ok true, s') ∧ eqFieldsE V E a b (fs.map (·.1)) s = (.ok false, s')) ∨
        ∃ e, V.ne p.1 p.2 s1 = (.error e, s') ∧ eqFieldsE V E a b (fs.map (·.1)) s = (.error e, s')) := by
  induction fs generalizing s pairs with
  | nil => subst hp; exact .inl ⟨s, .nil s, rfl⟩
  | cons kf fs ih =>
    obtain ⟨v, hv⟩ := ha kf (by simp)
    obtain ⟨w, hw⟩ := hb kf (by simp)
    have ih := ih (fun x hx => ha x (by simp [hx])) (fun x hx => hb x (by simp [hx]))
    simp only [List.filterMap_cons, hv, hw] at hp
    subst hp
    have hva : a.attr E kf.1 = .ok v := by unfold Inst.attr; rw [hv]
    have hwb : b.attr E kf.1 = .ok w := by unfold Inst.attr; rw [hw]
    have key : eqFieldsE V E a b ((kf :: fs).map (·.1)) s =
        M.bind (V.ne v w) (fun r => if r then M.pure false else eqFieldsE V E a b (fs.map (·.1))) s := by
      simp only [List.map_cons]
      rw [eqFieldsE, hva, hwb]
      rfl
    rw [key]
    rcases hq : V.ne v w s with ⟨r, s1⟩
    cases r with
    | error e =>
      exact .inr ⟨[], (v, w), _, s, s1, rfl, .nil s, .inr ⟨e, hq, M.bind_error hq⟩⟩
    | ok r => cases r with
      | true => exact .inr ⟨[], (v, w), _, s, s1, rfl, .nil s, .inl ⟨hq, M.bind_ok hq⟩⟩
      | false =>
        rw [M.bind_ok hq]
        rcases ih s1 _ rfl with ⟨s', h1, h2⟩ | ⟨pre, p, post, s2, s', h1, h2, h3⟩
        · exact .inl ⟨s', .cons hq h1, h2⟩
        · exact .inr ⟨(v, w) :: pre, p, post, s2, s', by rw [h1]; rfl, .cons hq h2, h3⟩

/-! ### the rest -/

theorem runs_parts {V : ValueOps W} {l : Dict W.Obj} {s s' : LState W} {rs : List String}
    (h : Runs (fun kv : String × W.Obj => V.repr kv.2) l s rs s') :
    Runs (fun kv : String × W.Obj => M.bind (V.repr kv.2) fun r => M.pure (kv.1 ++ "=" ++ r)) l s
      (List.zipWith (fun kv r => kv.1 ++ "=" ++ r) l rs) s' := by
  induction h with
  | nil => exact .nil _
  | cons ha _ ih => exact .cons (by rw [M.bind_ok ha]; rfl) ih

theorem stops_parts {V : ValueOps W} {l : Dict W.Obj} {s s' : LState W} {e : Exc}
    (h : Stops (fun kv : String × W.Obj => V.repr kv.2) l s e s') :
    Stops (fun kv : String × W.Obj => M.bind (V.repr kv.2) fun r => M.pure (kv.1 ++ "=" ++ r)) l s e s' := by
  obtain ⟨pre, a, post, rs, s1, hl, hr, ha⟩ := h
  exact ⟨pre, a, post, _, s1, hl, runs_parts hr, M.bind_error ha⟩

theorem attrs_full {E : Env W} {i : Inst W} (ks : List String) (h : ∀ k ∈ ks, ∃ v, i.dict.get? k = some v) :
    ∃ vs, attrs E i ks = .ok vs := by
  induction ks with
  | nil => exact ⟨[], rfl⟩
  | cons k ks ih =>
    obtain ⟨v, hv⟩ := h k (by simp)
    obtain ⟨vs, hvs⟩ := ih fun j hj => h j (by simp [hj])
    have ha : i.attr E k = .ok v := by unfold Inst.attr; rw [hv]
    exact ⟨v :: vs, by unfold attrs; rw [ha, hvs]⟩

theorem orderingKey_full {E : Env W} {C : RecClass W} {i : Inst W} (hi : Full C i) : ∃ vs, orderingKey E C i = .ok vs := by
  refine attrs_full _ fun k hk => hi.get ?_
  unfold Dict.keys at hk
  obtain ⟨kf, hkf, rfl⟩ := List.mem_map.1 hk
  exact List.mem_map.2 ⟨kf, (List.mem_filter.1 hkf).1, rfl⟩

theorem listCmpE_self (V : ValueOps W) (O : CmpOp → W.Obj → W.Obj → M W Bool) (op : CmpOp) (vs : List W.Obj) :
    listCmpE V O op vs vs = M.pure (op.nat vs.length vs.length) := by
  have hl : ∀ m n, op.nat (m + 1) (n + 1) = op.nat m n := by intro m n; cases op <;> simp [CmpOp.nat]
  induction vs with
  | nil => unfold listCmpE; rfl
  | cons v vs ih =>
    unfold listCmpE
    rw [if_pos rfl, ih, List.length_cons, hl]

theorem extraction_no_plain {C : RecClass W} (h : NoPlainDefaults C) (sel : Sel W.Obj) :
    ∀ f ∈ (extraction C sel).2.values, ∀ d, f.default ≠ some (.value d) := by
  have P0 : ∀ kf ∈ (C.fields.map fun kf => (kf.1, kf.2.x) : Dict (XField W)), ∀ d, kf.2.default ≠ some (.value d) := by
    intro kf hkf d hd
    obtain ⟨a, ha, rfl⟩ := List.mem_map.1 hkf
    exact h a ha d hd
  have setMock : ∀ (x : Dict (XField W)) k, (∀ kf ∈ x, ∀ d, kf.2.default ≠ some (.value d)) →
      ∀ kf ∈ x.set k (mockField k), ∀ d, kf.2.default ≠ some (.value d) := by
    intro x k hx kf hkf d hd
    rcases Dict.mem_set hkf with hk | hk
    · exact hx kf hk d hd
    · subst hk; cases hd
  have fold : ∀ {β : Type} (g : Dict (XField W) → β → Dict (XField W)) (l : List β) (x : Dict (XField W)),
      (∀ x b, (∀ kf ∈ x, ∀ d, kf.2.default ≠ some (.value d)) → ∀ kf ∈ g x b, ∀ d, kf.2.default ≠ some (.value d)) →
      (∀ kf ∈ x, ∀ d, kf.2.default ≠ some (.value d)) →
      ∀ kf ∈ l.foldl g x, ∀ d, kf.2.default ≠ some (.value d) := by
    intro β g l
    induction l with
    | nil => intro x _ hx; exact hx
    | cons b l ih => intro x hg hx; exact ih (g x b) hg (hg x b hx)
  have erase : ∀ (x : Dict (XField W)) k, ∀ kf ∈ x.erase k, kf ∈ x := by
    intro x k
    induction x with
    | nil => intro kf hk; exact hk
    | cons a x ih =>
      obtain ⟨k', v'⟩ := a
      intro kf hk
      rw [Dict.erase] at hk
      split at hk
      · exact .tail _ hk
      · cases hk with
        | head => exact .head _
        | tail _ hk => exact .tail _ (ih kf hk)
  suffices ∀ kf ∈ (extraction C sel).2, ∀ d, kf.2.default ≠ some (.value d) by
    intro f hf
    obtain ⟨kf, hkf, rfl⟩ := List.mem_map.1 hf
    exact this kf hkf
  unfold extraction
  simp only
  split
  · exact P0
  · refine fold _ _ _ (fun x b hx kf hk => hx kf (erase x _ kf hk)) ?_
    refine fold _ _ _ (fun x b hx => setMock x _ hx) ?_
    refine fold _ _ _ (fun x b hx => setMock x _ hx) ?_
    refine fold _ _ _ (fun x b hx => ?_) P0
    split
    · exact hx
    · exact setMock x _ hx

end Records
