import Verif.Proofs.ClassMore
import Verif.Spec.ToyRec
set_option linter.unusedSimpArgs false
/-
C43-C48, C87, C88: record classes.
-/
namespace Records
variable {W : World}

theorem inherited_eq (sp : ClassSpec W) : Dict.keys (sp.parents.flatMap (·.fields)) = sp.inherited := by
  simp [Dict.keys, ClassSpec.inherited, List.map_flatMap]

theorem own_keys {sp : ClassSpec W} (hok : sp.OK) {own : Dict (Field W)} (ho : ownFields sp sp.hints = .ok own) :
    own.keys.Perm sp.declared ∧ own.keys =
      sp.baseAnns.filter (fun n => decide (n ∈ sp.declared)) ++ sp.declared.filter (fun n => decide (n ∉ sp.baseAnns)) := by
  rw [(ownFields_ok ho).1]
  refine ⟨((hints_perm hok).filter _).map _, ?_⟩
  unfold ClassSpec.hints
  rw [List.filter_append, List.map_append]
  have hwf : Dict.WF sp.anns := hok.anns
  have h1 : ∀ l : List String,
      ((l.filterMap fun n => (Dict.get? sp.anns n).map fun h => (n, h)).filter fun a => a.2.declares).map (·.1) =
        l.filter (fun n => decide (n ∈ sp.declared)) := by
    intro l
    induction l with
    | nil => rfl
    | cons n l ih =>
      have hiff : n ∈ sp.declared ↔ ∃ h, Dict.get? sp.anns n = some h ∧ h.declares = true := by
        simp only [ClassSpec.declared, List.mem_map, List.mem_filter]
        constructor
        · rintro ⟨⟨n', h⟩, ⟨hm, hd⟩, rfl⟩; exact ⟨h, Dict.mem_get? _ hwf _ _ hm, hd⟩
        · rintro ⟨h, hm, hd⟩; exact ⟨(n, h), ⟨Dict.get?_eq_some_mem _ _ _ hm, hd⟩, rfl⟩
      simp only [List.filterMap_cons, List.filter_cons]
      cases hg : Dict.get? sp.anns n with
      | none =>
        rw [if_neg (by simp [hiff, hg])]
        exact ih
      | some h =>
        simp only [Option.map_some, List.filter_cons]
        by_cases hd : h.declares = true
        · rw [if_pos hd, if_pos (by simp [hiff, hg, hd])]
          simp only [List.map_cons, ih]
        · rw [if_neg hd, if_neg (by simp [hiff, hg, hd])]
          exact ih
  rw [h1]
  congr 1
  unfold ClassSpec.declared
  rw [List.filter_map, List.filter_filter, List.filter_filter]
  refine congrArg (List.map _) (List.filter_congr fun a _ => ?_)
  simp [Bool.and_comm]

theorem mkClass_keys {sp : ClassSpec W} (hok : sp.OK) {C : RecClass W} (h : mkClass sp = .ok C) :
    ∃ own : Dict (Field W), ownFields sp sp.hints = .ok own ∧ C.fields.keys = sp.inherited ++ own.keys := by
  obtain ⟨own, all1, ho, -, -, -, -, hpre, hbind, -⟩ := mkClass_ok hok h
  refine ⟨own, ho, ?_⟩
  rw [(bindFields_ok hbind).1, (preBind_ok hpre).1, ← inherited_eq]
  simp [Dict.keys]

/-! ### C43 -/

/-- C43: the field names are the parents' field names in order, followed by the own declarations: first the declared names that
are also annotated in a base class, in the order of `get_type_hints`, then the others in declaration order. -/
theorem C43_field_order {sp : ClassSpec W} (hok : sp.OK) {C : RecClass W} (h : mkClass sp = .ok C) :
    C.fields.map (·.1) = sp.inherited ++ sp.baseAnns.filter (fun n => decide (n ∈ sp.declared)) ++
      sp.declared.filter (fun n => decide (n ∉ sp.baseAnns)) := by
  obtain ⟨own, ho, hk⟩ := mkClass_keys hok h
  obtain ⟨h1, h2⟩ := own_keys hok ho
  rw [List.append_assoc, ← h2]
  exact hk

/-- C43: the declaration order, if no own name is annotated in a base class -/
theorem C43_declaration_order {sp : ClassSpec W} (hok : sp.OK) {C : RecClass W} (h : mkClass sp = .ok C)
    (hd : ∀ n ∈ sp.baseAnns, n ∉ sp.declared) : C.fields.map (·.1) = sp.inherited ++ sp.declared := by
  rw [C43_field_order hok h, List.append_assoc]
  congr 1
  have h1 : sp.baseAnns.filter (fun n => decide (n ∈ sp.declared)) = [] := by
    rw [List.filter_eq_nil_iff]; intro n hn; simp [hd n hn]
  have h2 : sp.declared.filter (fun n => decide (n ∉ sp.baseAnns)) = sp.declared := by
    rw [List.filter_eq_self]; intro n hn; simp only [decide_eq_true_eq]; exact fun hb => hd n hb hn
  rw [h1, h2, List.nil_append]

/-- C43: names are distinct, there is at least one field, required and optional names partition the field names, and a field
is optional iff it has a default. -/
theorem C43_partition {C : RecClass W} (hC : Creatable C) :
    (C.fields.map (·.1)).Nodup ∧ C.fields ≠ [] ∧ (C.required ++ C.optional).Perm (C.fields.map (·.1)) ∧
      (∀ k f, C.fields.get? k = some f → (k ∈ C.optional ↔ f.default ≠ none) ∧ (k ∈ C.required ↔ f.default = none)) := by
  have wf := hC.wf
  have hdis : ∀ k, k ∈ C.required → k ∉ C.optional := by
    intro k hr ho
    obtain ⟨f, hf, hd⟩ := (wf.req k).1 hr
    obtain ⟨f', d, hf', hd'⟩ := (wf.opt k).1 ho
    rw [hf] at hf'; cases hf'
    rw [hd] at hd'; cases hd'
  refine ⟨wf.nodup, wf.ne, ?_, ?_⟩
  · refine perm_of_nodup (List.nodup_append.2 ⟨wf.req_nodup, wf.opt_nodup, ?_⟩) wf.nodup ?_
    · intro a ha b hb hab; subst hab; exact hdis a ha hb
    · intro k
      rw [List.mem_append, wf.req, wf.opt]
      constructor
      · rintro (⟨f, hf, -⟩ | ⟨f, d, hf, -⟩) <;> exact Dict.keys_mem_of_mem (Dict.get?_eq_some_mem _ _ _ hf)
      · intro hk
        obtain ⟨f, hf⟩ := Option.isSome_iff_exists.1 ((Dict.get?_isSome_iff C.fields k).2 hk)
        cases hd : f.default with
        | none => exact .inl ⟨f, hf, hd⟩
        | some d => exact .inr ⟨f, d, hf, hd⟩
  · intro k f hf
    rw [wf.req, wf.opt]
    constructor
    · constructor
      · rintro ⟨f', d, hf', hd⟩; rw [hf] at hf'; cases hf'; rw [hd]; exact nofun
      · intro hd
        cases hfd : f.default with
        | none => exact absurd hfd hd
        | some d => exact ⟨f, d, hf, hfd⟩
    · constructor
      · rintro ⟨f', hf', hd⟩; rw [hf] at hf'; cases hf'; exact hd
      · intro hd; exact ⟨f, hf, hd⟩

/-! ### C44 -/

/-- a declaration for which a `RecordField` can be made -/
theorem fieldFromHint_ok_iff {sp : ClassSpec W} {n : String} {h : FHint W} :
    (∃ f, fieldFromHint sp.cid sp.frozen n (sp.defaultOf n) h = .ok f) ↔
      h.resolvable sp.frozen := by
  unfold FHint.resolvable
  cases h with
  | classVar => exact ⟨fun _ => .inl rfl, fun _ => ⟨none, rfl⟩⟩
  | rawFinal => simp [fieldFromHint, FHint.type?]
  | plain t =>
    simp only [fieldFromHint]
    cases hg : getFiller t <;> simp [FHint.type?, hg]
  | final t toks =>
    simp only [fieldFromHint]
    cases hf : sp.frozen <;> cases hg : getFiller t <;> simp [FHint.type?, hg]

theorem legal_field {sp : ClassSpec W} {n : String} {h : FHint W} (hl : sp.legal n h) :
    ∃ f, fieldFromHint sp.cid sp.frozen n (sp.defaultOf n) h = .ok f := by
  rw [fieldFromHint_ok_iff]
  have hmk : ∀ t, (∃ f, makeFiller sp.style (sp.tokensFor n) t = .ok f) → ∃ g, getFiller t = .ok g := by
    rintro t ⟨f, hf⟩
    unfold makeFiller at hf
    cases hg : getFiller t with
    | error e => simp [hg] at hf
    | ok g => exact ⟨g, rfl⟩
  cases h with
  | classVar => exact .inl rfl
  | rawFinal => exact hl.elim
  | plain t => exact .inr ⟨t, rfl, hmk t hl, nofun⟩
  | final t toks => exact .inr ⟨t, rfl, hmk t hl.2, fun _ _ => hl.1⟩

/-- C44: a class can be created iff each own declaration is legal, all field names - inherited and own - are distinct, there is
a field, and `pre_bind` adds tokens to own fields only. -/
theorem C44_creatable_iff {sp : ClassSpec W} (hok : sp.OK) (hp : ∀ p ∈ sp.parents, Creatable p) :
    (∃ C, mkClass sp = .ok C) ↔
      (∀ n h, (n, h) ∈ sp.anns → sp.legal n h) ∧ (sp.inherited ++ sp.declared).Nodup ∧ sp.inherited ++ sp.declared ≠ [] ∧
      ∀ q ∈ sp.pre, q.1 ∈ sp.declared := by
  have hbp : ∀ p ∈ sp.parents, ∀ k f, p.fields.get? k = some f → f.filler.Bound := fun p hpm => (hp p hpm).wf.bound
  constructor
  · rintro ⟨C, h⟩
    obtain ⟨own, all1, ho, hown, hdis, hwf, hne, hpre, hbind, -⟩ := mkClass_ok hok h
    obtain ⟨hperm, -⟩ := own_keys hok ho
    have hwf' : (sp.inherited ++ own.keys).Nodup := by
      rw [← inherited_eq]; simpa [Dict.WF, Dict.keys] using hwf
    have hP : (sp.inherited ++ own.keys).Perm (sp.inherited ++ sp.declared) := hperm.append_left _
    have hkC : C.fields.keys = sp.inherited ++ own.keys := by
      rw [(bindFields_ok hbind).1, (preBind_ok hpre).1, ← inherited_eq]; simp [Dict.keys]
    refine ⟨?_, hP.nodup_iff.1 hwf', ?_, ?_⟩
    · intro n hh hm
      have hm' := (hints_perm hok).mem_iff.2 hm
      rcases ownFields_mem ho hm' with rfl | ⟨f, hf, he⟩
      · trivial
      · obtain ⟨n1, n2, n3, t, n4, n5, n6⟩ := fieldFromHint_some he
        have hk : n ∈ C.fields.keys := by
          rw [hkC]; exact List.mem_append_right _ (Dict.keys_mem_of_mem hf)
        obtain ⟨fC, hfC⟩ := Option.isSome_iff_exists.1 ((Dict.get?_isSome_iff _ _).2 hk)
        have : ∃ f, makeFiller sp.style (sp.tokensFor n) t = .ok f := by
          rcases mkClass_field hok h hbp hfC with ⟨p, hpm, hpf, -, -⟩ | ⟨hh', g, hm2, -, -, -, t', ht', hmk⟩
          · exfalso
            refine hdis n ?_ (Dict.keys_mem_of_mem hf)
            rw [inherited_eq]
            exact List.mem_flatMap.2 ⟨p, hpm, List.mem_map.2 ⟨_, hpf, rfl⟩⟩
          · have : hh' = hh := by
              have a := Dict.mem_get? _ (show Dict.WF sp.anns from hok.anns) _ _ hm
              have b := Dict.mem_get? _ (show Dict.WF sp.anns from hok.anns) _ _ hm2
              rw [a] at b; cases b; rfl
            subst this
            rw [n4] at ht'; cases ht'
            exact ⟨_, hmk⟩
        cases hh with
        | classVar => trivial
        | rawFinal => cases n4
        | plain t' => cases n4; exact this
        | final t' toks => cases n4; exact ⟨n6 _ rfl, this⟩
    · intro hn
      rw [hn] at hP
      have hnil := hP.eq_nil
      rw [← hkC] at hnil
      exact (mkClass_wf hok h fun p hpm => (hp p hpm).wf).ne (List.map_eq_nil_iff.1 hnil)
    · intro q hq
      have hk := (preBind_ok hpre).2.1 q hq
      obtain ⟨f0, hf0⟩ := Option.isSome_iff_exists.1 ((Dict.get?_isSome_iff _ _).2 hk)
      rw [Dict.keys_append, inherited_eq, List.mem_append] at hk
      rcases hk with hk | hk
      · exfalso
        have hkC' : q.1 ∈ C.fields.keys := by rw [hkC]; exact List.mem_append_left _ hk
        obtain ⟨fC, hfC⟩ := Option.isSome_iff_exists.1 ((Dict.get?_isSome_iff _ _).2 hkC')
        rcases mkClass_field hok h hbp hfC with ⟨p, hpm, hpf, ht, -⟩ | ⟨hh', g, hm2, hni, -⟩
        · have : (q.2.1, q.2.2) ∈ sp.tokensFor q.1 :=
            List.mem_filterMap.2 ⟨q, hq, by simp⟩
          rw [ht] at this; cases this
        · exact hni hk
      · exact hperm.mem_iff.1 hk
  · rintro ⟨hleg, hnd, hne, hpre⟩
    obtain ⟨own, ho⟩ := ownFields_exists (sp := sp) (l := sp.hints) fun a ha =>
      legal_field (hleg a.1 a.2 ((hints_perm hok).mem_iff.1 ha))
    obtain ⟨hperm, -⟩ := own_keys hok ho
    have hnd' : (sp.inherited ++ own.keys).Nodup := (hperm.append_left _).nodup_iff.2 hnd
    cases hi : inheritedFields own sp.parents [] with
    | error e =>
      exfalso
      obtain ⟨-, h2⟩ := inheritedFields_error hi
      rcases h2 .nil with ⟨k, hk, hko⟩ | h3
      · rw [inherited_eq] at hk
        exact (List.nodup_append.1 hnd').2.2 k hk k hko rfl
      · apply h3
        have := (List.nodup_append.1 hnd').1
        rw [← inherited_eq] at this
        simpa [Dict.WF] using this
    | ok inh =>
      obtain ⟨e1, e2, e3, e4⟩ := all_eq hok ho hi
      subst e3
      have hkeys : Dict.keys (sp.parents.flatMap (·.fields) ++ own) = sp.inherited ++ own.keys := by
        rw [Dict.keys_append, inherited_eq]
      have hpb : ∃ all1, preBind sp.pre (sp.parents.flatMap (·.fields) ++ own) = .ok all1 := by
        apply preBind_exists
        · intro q hq
          rw [hkeys]
          exact List.mem_append_right _ (hperm.mem_iff.2 (hpre q hq))
        · intro k f hf
          rw [Dict.get?_append] at hf
          cases hg : Dict.get? (sp.parents.flatMap (·.fields)) k with
          | some f1 =>
            simp only [hg] at hf; cases hf
            have hk : k ∈ sp.inherited := by
              rw [← inherited_eq]; exact Dict.keys_mem_of_mem (Dict.get?_eq_some_mem _ _ _ hg)
            have : tokFor sp.pre k = [] := by
              unfold tokFor
              rw [List.filterMap_eq_nil_iff]
              intro q hq
              rw [if_neg]
              intro hqk
              subst hqk
              exact (List.nodup_append.1 hnd).2.2 _ hk _ (hpre q hq) rfl
            rw [this]
            exact ⟨_, rfl⟩
          | none =>
            simp only [hg] at hf
            obtain ⟨hh, hm, he⟩ := (ownFields_ok ho).2 k f (Dict.get?_eq_some_mem _ _ _ hf)
            obtain ⟨n1, n2, n3, t, n4, n5, n6⟩ := fieldFromHint_some he
            have hl := hleg k hh ((hints_perm hok).mem_iff.1 hm)
            have hmk : ∃ f, makeFiller sp.style (sp.tokensFor k) t = .ok f := by
              cases hh <;> cases n4
              · exact hl
              · exact hl.2
            obtain ⟨g, hg⟩ := hmk
            simp only [makeFiller, n5] at hg
            rw [tokFor_eq]
            cases ha : f.filler.applyPre (sp.tokensFor k) with
            | error e => simp [ha] at hg
            | ok g' => exact ⟨g', rfl⟩
      obtain ⟨all1, hall1⟩ := hpb
      obtain ⟨p1, p2, p3⟩ := preBind_ok hall1
      have hbb : ∃ all2, bindFields sp.cid sp.style all1 = .ok all2 := by
        apply bindFields_exists
        rintro ⟨k, f⟩ hm hown
        have hwf1 : Dict.WF all1 := by unfold Dict.WF; rw [p1]; exact e2
        have hf := Dict.mem_get? _ hwf1 _ _ hm
        obtain ⟨f0, hf0⟩ := Dict.get?_some_of_keys p1 hf
        obtain ⟨g, hg, hf'⟩ := p3 k f0 hf0
        rw [hf] at hf'; cases hf'
        rw [Dict.get?_append] at hf0
        cases hgi : Dict.get? (sp.parents.flatMap (·.fields)) k with
        | some f1 =>
          simp only [hgi] at hf0; cases hf0
          obtain ⟨p, hpm, hpf⟩ := List.mem_flatMap.1 (Dict.get?_eq_some_mem _ _ _ hgi)
          exact absurd hown (hok.fresh p hpm (k, f0) hpf)
        | none =>
          simp only [hgi] at hf0
          obtain ⟨hh, hm, he⟩ := (ownFields_ok ho).2 k f0 (Dict.get?_eq_some_mem _ _ _ hf0)
          obtain ⟨n1, n2, n3, t, n4, n5, n6⟩ := fieldFromHint_some he
          have hl := hleg k hh ((hints_perm hok).mem_iff.1 hm)
          have hmk : ∃ f, makeFiller sp.style (sp.tokensFor k) t = .ok f := by
            cases hh <;> cases n4
            · exact hl
            · exact hl.2
          obtain ⟨g2, hg2⟩ := hmk
          simp only [makeFiller, n5, ← tokFor_eq, hg] at hg2
          exact ⟨g2, hg2⟩
      obtain ⟨all2, hall2⟩ := hbb
      have hne' : ¬ (sp.parents.flatMap (·.fields) ++ own).isEmpty = true := by
        intro he
        have hnil : sp.parents.flatMap (·.fields) ++ own = [] := List.isEmpty_iff.1 he
        rw [hnil] at hkeys
        have : ([] : List String).Perm (sp.inherited ++ sp.declared) := by
          have h2 : ([] : List String) = sp.inherited ++ own.keys := hkeys
          rw [h2]; exact hperm.append_left _
        exact hne this.nil_eq.symm
      refine ⟨?_, ?_⟩
      rotate_left
      · unfold mkClass
        simp only [ho, hi]
        rw [e1, if_neg hne']
        simp only [hall1, hall2]
        rfl
/-- C44: if a `RecordField` can be made from every own declaration, a name collision or the lack of fields makes class creation
raise ValueError. -/
theorem C44_collision {sp : ClassSpec W} (hok : sp.OK)
    (hl : ∀ n h, (n, h) ∈ sp.anns → h.resolvable sp.frozen)
    (hc : ¬ (sp.inherited ++ sp.declared).Nodup ∨ sp.inherited ++ sp.declared = []) :
    mkClass sp = .error .valueError := by
  obtain ⟨own, ho⟩ := ownFields_exists (sp := sp) (l := sp.hints) fun a ha =>
    fieldFromHint_ok_iff.2 (hl a.1 a.2 ((hints_perm hok).mem_iff.1 ha))
  obtain ⟨hperm, -⟩ := own_keys hok ho
  unfold mkClass
  simp only [ho]
  cases hi : inheritedFields own sp.parents [] with
  | error e => rw [(inheritedFields_error hi).1]
  | ok inh =>
    simp only
    obtain ⟨e1, e2, e3, e4⟩ := all_eq hok ho hi
    subst e3
    have hkeys : Dict.keys (sp.parents.flatMap (·.fields) ++ own) = sp.inherited ++ own.keys := by
      rw [Dict.keys_append, inherited_eq]
    rcases hc with hc | hc
    · refine absurd ((hperm.append_left _).nodup_iff.1 ?_) hc
      rw [← hkeys]; exact e2
    · have : sp.parents.flatMap (·.fields) ++ own = [] := by
        have h1 : (sp.inherited ++ own.keys).Perm [] := by rw [← hc]; exact hperm.append_left _
        have h2 := h1.eq_nil
        rw [← hkeys] at h2
        exact List.map_eq_nil_iff.1 h2
      rw [e1, this]
      rfl

/-- C44: if all own declarations are legal and `pre_bind` concerns own fields only, class creation raises ValueError exactly for
collisions and for classes without fields, and nothing else. -/
theorem C44_value_error_iff {sp : ClassSpec W} (hok : sp.OK) (hp : ∀ p ∈ sp.parents, Creatable p)
    (hl : ∀ n h, (n, h) ∈ sp.anns → sp.legal n h) (hpre : ∀ q ∈ sp.pre, q.1 ∈ sp.declared) (e : Exc) :
    mkClass sp = .error e ↔
      e = .valueError ∧ (¬ (sp.inherited ++ sp.declared).Nodup ∨ sp.inherited ++ sp.declared = []) := by
  have hl' : ∀ n h, (n, h) ∈ sp.anns → h.resolvable sp.frozen :=
    fun n h hm => fieldFromHint_ok_iff.1 (legal_field (hl n h hm))
  constructor
  · intro h
    have hc : ¬ (sp.inherited ++ sp.declared).Nodup ∨ sp.inherited ++ sp.declared = [] := by
      by_cases h1 : (sp.inherited ++ sp.declared).Nodup
      · by_cases h2 : sp.inherited ++ sp.declared = []
        · exact .inr h2
        · obtain ⟨C, hC⟩ := (C44_creatable_iff hok hp).2 ⟨hl, h1, h2, hpre⟩
          rw [hC] at h; cases h
      · exact .inl h1
    rw [C44_collision hok hl' hc] at h
    cases h
    exact ⟨rfl, hc⟩
  · rintro ⟨rfl, hc⟩
    exact C44_collision hok hl' hc

theorem Desc.mem {R C : RecClass W} (h : Desc R C) {k : String} (hk : k ∈ R.fields.map (·.1)) : k ∈ C.fields.map (·.1) := by
  induction h with
  | refl => exact hk
  | step sp C p hok _ hmk hp _ ih =>
    obtain ⟨own, -, hkeys⟩ := mkClass_keys hok hmk
    have : k ∈ C.fields.keys := by
      rw [hkeys]
      exact List.mem_append_left _ (List.mem_flatMap.2 ⟨p, hp, ih⟩)
    exact this

/-- C44: every diamond is rejected: no class has two direct parents which are, or derive from, the same record class. -/
theorem C44_diamond {sp : ClassSpec W} (hok : sp.OK) {R p q : RecClass W} (hR : Creatable R) {l₁ l₂ l₃ : List (RecClass W)}
    (hp : sp.parents = l₁ ++ p :: l₂ ++ q :: l₃) (h₁ : Desc R p) (h₂ : Desc R q) :
    (∀ C, mkClass sp ≠ .ok C) ∧
    ((∀ n h, (n, h) ∈ sp.anns → h.resolvable sp.frozen) →
      mkClass sp = .error .valueError) := by
  have hnd : ¬ (sp.inherited ++ sp.declared).Nodup := by
    intro hnd
    have hne := hR.wf.ne
    obtain ⟨⟨k, f⟩, l, hkl⟩ := List.exists_cons_of_ne_nil hne
    have hk : k ∈ R.fields.map (·.1) := by rw [hkl]; simp
    have h1 := h₁.mem hk
    have h2 := h₂.mem hk
    have h3 := (List.nodup_append.1 hnd).1
    simp only [ClassSpec.inherited, hp, List.flatMap_append, List.flatMap_cons, List.append_assoc] at h3
    have h4 := (List.nodup_append.1 (List.nodup_append.1 h3).2.1).2.2
    exact h4 k h1 k (List.mem_append_right _ (List.mem_append_left _ h2)) rfl
  refine ⟨fun C hC => hnd ?_, fun hl => C44_collision hok hl (.inl hnd)⟩
  obtain ⟨own, all1, ho, hown, hdis, hwf, -⟩ := mkClass_ok hok hC
  obtain ⟨hperm, -⟩ := own_keys hok ho
  refine (hperm.append_left _).nodup_iff.1 ?_
  rw [← inherited_eq]
  simpa [Dict.WF, Dict.keys] using hwf

/-! ### C45 -/

/-- C45: the options of a class are those of its own class statement. -/
theorem C45_options {sp : ClassSpec W} (hok : sp.OK) {C : RecClass W} (h : mkClass sp = .ok C) :
    C.frozen = sp.frozen ∧ C.ordered = sp.ordered ∧ C.style = sp.style ∧
      C.unary = (match sp.unary with | some b => b | none => decide (C.required.length ≠ 1)) := by
  obtain ⟨own, all1, -, -, -, -, -, -, -, -, -, -, -, h1, h2, h3, -, -, -, h4⟩ := mkClass_ok hok h
  exact ⟨h2, h3, h1, h4⟩

theorem mkClass_inherits {sp : ClassSpec W} (hok : sp.OK) {C : RecClass W} (h : mkClass sp = .ok C)
    (hb : ∀ p ∈ sp.parents, ∀ k f, p.fields.get? k = some f → f.filler.Bound) {p : RecClass W} (hp : p ∈ sp.parents)
    {k : String} {f : Field W} (hf : p.fields.get? k = some f) : C.fields.get? k = some f := by
  obtain ⟨own, all1, ho, hown, hdis, hwf, hne, hpre, hbind, -⟩ := mkClass_ok hok h
  have hm : (k, f) ∈ sp.parents.flatMap (·.fields) := List.mem_flatMap.2 ⟨p, hp, Dict.get?_eq_some_mem _ _ _ hf⟩
  have hk : k ∈ C.fields.keys := by
    rw [(bindFields_ok hbind).1, (preBind_ok hpre).1, Dict.keys_append]
    exact List.mem_append_left _ (Dict.keys_mem_of_mem hm)
  obtain ⟨fC, hfC⟩ := Option.isSome_iff_exists.1 ((Dict.get?_isSome_iff _ _).2 hk)
  have hwf' : Dict.WF (sp.parents.flatMap (·.fields)) := by
    simp only [Dict.WF, Dict.keys, List.map_append] at hwf ⊢
    exact (List.nodup_append.1 hwf).1
  rcases mkClass_field hok h hb hfC with ⟨p', hp', hm', -, -⟩ | ⟨hh, g, -, hni, -⟩
  · have h1 := Dict.mem_get? _ hwf' _ _ hm
    have h2 := Dict.mem_get? _ hwf' _ _ (List.mem_flatMap.2 ⟨p', hp', hm'⟩)
    rw [h1] at h2; cases h2
    exact hfC
  · exact absurd (inherited_eq sp ▸ Dict.keys_mem_of_mem hm) hni

/-- C45: in every descendant an inherited field is the field of the class that declared it: same filler, default and tags. -/
theorem C45_inherited_field {R C : RecClass W} (h : Desc R C) {k : String} {f : Field W} (hf : R.fields.get? k = some f) :
    C.fields.get? k = some f := by
  induction h with
  | refl => exact hf
  | step sp C p hok hc hmk hp hd ih => exact mkClass_inherits hok hmk (fun p hpm => (hc p hpm).wf.bound) hp ih

/-- C45: the filler of an own field is made from its type, the tokens of the own `pre_bind` and the own default type checking -
nothing of the parents enters. -/
theorem C45_own_field {sp : ClassSpec W} (hok : sp.OK) (hp : ∀ p ∈ sp.parents, Creatable p) {C : RecClass W}
    (h : mkClass sp = .ok C) {n : String} {hh : FHint W} {t : Hint W} (hm : (n, hh) ∈ sp.anns) (ht : hh.type? = some t) :
    ∃ f, C.fields.get? n = some f ∧ f.owner = sp.cid ∧ makeFiller sp.style (sp.tokensFor n) t = .ok f.filler ∧
      sp.defaultIs n f.default := by
  have hbp : ∀ p ∈ sp.parents, ∀ k f, p.fields.get? k = some f → f.filler.Bound := fun p hpm => (hp p hpm).wf.bound
  obtain ⟨own, ho, hk⟩ := mkClass_keys hok h
  have hd : n ∈ sp.declared :=
    List.mem_map.2 ⟨(n, hh), List.mem_filter.2 ⟨hm, FHint.declares_of_type ht⟩, rfl⟩
  have hk' : n ∈ C.fields.keys := by
    rw [hk]; exact List.mem_append_right _ ((own_keys hok ho).1.mem_iff.2 hd)
  have hni : n ∉ sp.inherited := by
    intro hi
    have := ((C44_creatable_iff hok hp).1 ⟨C, h⟩).2.1
    exact (List.nodup_append.1 this).2.2 n hi n hd rfl
  obtain ⟨f, hf⟩ := Option.isSome_iff_exists.1 ((Dict.get?_isSome_iff _ _).2 hk')
  refine ⟨f, hf, ?_⟩
  rcases mkClass_field hok h hbp hf with ⟨p, hpm, hpf, -, -⟩ | ⟨hh', g, hm2, -, he, hfg, t', ht', hmk⟩
  · exact absurd (List.mem_flatMap.2 ⟨p, hpm, List.mem_map.2 ⟨_, hpf, rfl⟩⟩) hni
  · have : hh' = hh := by
      have a := Dict.mem_get? _ (show Dict.WF sp.anns from hok.anns) _ _ hm
      have b := Dict.mem_get? _ (show Dict.WF sp.anns from hok.anns) _ _ hm2
      rw [a] at b; cases b; rfl
    subst this
    rw [ht] at ht'; cases ht'
    obtain ⟨-, n2, n3, -⟩ := fieldFromHint_some he
    refine ⟨by rw [hfg]; exact n3, hmk, ?_⟩
    have hdef : f.default = sp.defaultOf n := by rw [hfg]; exact n2
    unfold ClassSpec.defaultIs
    rw [hdef]
    unfold ClassSpec.defaultOf
    cases sp.attrs.get? n with
    | none => exact .inl ⟨rfl, rfl⟩
    | some v => exact .inr ⟨v, rfl, rfl⟩

/-! ### C46 -/

/-- C46: an explicit `unary_parse` is taken over; otherwise unary parsing is on iff the number of fields without default, own
and inherited, is not one. -/
theorem C46_unary_default {sp : ClassSpec W} (hok : sp.OK) (hp : ∀ p ∈ sp.parents, Creatable p) {C : RecClass W}
    (h : mkClass sp = .ok C) :
    (∀ b, sp.unary = some b → C.unary = b) ∧
    (sp.unary = none → (C.unary = true ↔ (C.fields.filter fun kf => kf.2.default.isNone).length ≠ 1)) := by
  have hu := (C45_options hok h).2.2.2
  have wf : C.WF := mkClass_wf hok h fun p hpm => (hp p hpm).wf
  have hlen : C.required.length = (C.fields.filter fun kf => kf.2.default.isNone).length := by
    rw [← List.length_map (as := C.fields.filter _) (·.1)]
    refine (perm_of_nodup wf.req_nodup ?_ ?_).length_eq
    · exact wf.nodup.sublist (List.filter_sublist.map _)
    · intro k
      rw [wf.req]
      simp only [List.mem_map, List.mem_filter, Option.isNone_iff_eq_none]
      constructor
      · rintro ⟨f, hf, hd⟩; exact ⟨(k, f), ⟨Dict.get?_eq_some_mem _ _ _ hf, hd⟩, rfl⟩
      · rintro ⟨⟨k', f⟩, ⟨hm, hd⟩, rfl⟩; exact ⟨f, Dict.mem_get? _ wf.nodup _ _ hm, hd⟩
  refine ⟨fun b hb => by rw [hu, hb], fun hn => ?_⟩
  rw [hu, hn, ← hlen]
  simp

/-! ### C47 -/

/-- C47: `filter_by_tag` works iff the class has no record parents; then it returns the fields with the tag, in field order. -/
theorem C47_filter_by_tag {sp : ClassSpec W} (hok : sp.OK) (hp : ∀ p ∈ sp.parents, Creatable p) {C : RecClass W}
    (h : mkClass sp = .ok C) (tag : Nat) :
    (sp.parents ≠ [] → C.filterByTag tag = .error .attributeError) ∧
    (sp.parents = [] → ∃ r, C.filterByTag tag = .ok r ∧ r.Sublist C.fields ∧
      ∀ k f, (k, f) ∈ r ↔ (k, f) ∈ C.fields ∧ tag ∈ f.tags) := by
  obtain ⟨own, all1, -, -, -, -, -, -, -, -, -, hfd, -⟩ := mkClass_ok hok h
  unfold RecClass.filterByTag
  rw [hfd]
  constructor
  · intro hne
    rw [if_neg]
    intro he
    obtain ⟨p, l, hpl⟩ := List.exists_cons_of_ne_nil hne
    have hpm : p ∈ sp.parents := by rw [hpl]; simp
    have := List.isEmpty_iff.1 he
    rw [List.flatMap_eq_nil_iff] at this
    exact (hp p hpm).wf.ne (this p hpm)
  · intro he
    rw [he]
    refine ⟨_, rfl, List.filter_sublist, ?_⟩
    intro k f
    simp [filterByTag, List.mem_filter]

/-- ... where the tags of a field are those listed in the `Annotated` of its declaration, wherever the class inherits it. -/
theorem C47_tags {sp : ClassSpec W} (hok : sp.OK) (hp : ∀ p ∈ sp.parents, Creatable p) {R C : RecClass W}
    (h : mkClass sp = .ok R) (hd : Desc R C) {n : String} {hh : FHint W} (hm : (n, hh) ∈ sp.anns) (hdec : hh.declares = true) :
    ∃ f, C.fields.get? n = some f ∧ ∀ tag, tag ∈ f.tags ↔ hh.ListsTag tag := by
  have hbp : ∀ p ∈ sp.parents, ∀ k f, p.fields.get? k = some f → f.filler.Bound := fun p hpm => (hp p hpm).wf.bound
  obtain ⟨own, ho, hk⟩ := mkClass_keys hok h
  have hdm : n ∈ sp.declared := List.mem_map.2 ⟨(n, hh), List.mem_filter.2 ⟨hm, hdec⟩, rfl⟩
  have hk' : n ∈ R.fields.keys := by
    rw [hk]; exact List.mem_append_right _ ((own_keys hok ho).1.mem_iff.2 hdm)
  have hni : n ∉ sp.inherited := by
    intro hi
    have := ((C44_creatable_iff hok hp).1 ⟨R, h⟩).2.1
    exact (List.nodup_append.1 this).2.2 n hi n hdm rfl
  obtain ⟨f, hf⟩ := Option.isSome_iff_exists.1 ((Dict.get?_isSome_iff _ _).2 hk')
  refine ⟨f, C45_inherited_field hd hf, ?_⟩
  rcases mkClass_field hok h hbp hf with ⟨p, hpm, hpf, -, -⟩ | ⟨hh', g, hm2, -, he, hfg, t', ht', hmk⟩
  · exact absurd (List.mem_flatMap.2 ⟨p, hpm, List.mem_map.2 ⟨_, hpf, rfl⟩⟩) hni
  · have : hh' = hh := by
      have a := Dict.mem_get? _ (show Dict.WF sp.anns from hok.anns) _ _ hm
      have b := Dict.mem_get? _ (show Dict.WF sp.anns from hok.anns) _ _ hm2
      rw [a] at b; cases b; rfl
    subst this
    have hft : f.tags = g.tags := by rw [hfg]
    have mt : ∀ (toks : List (Tok W)) tag, tag ∈ tagsOf toks ↔ .tag tag ∈ toks := by
      intro toks tag
      simp only [tagsOf, List.mem_filterMap]
      constructor
      · rintro ⟨t, ht, e⟩
        cases t <;> simp at e
        subst e; exact ht
      · exact fun ht => ⟨_, ht, rfl⟩
    have top : ∀ (t : Hint W) tag, tag ∈ tagsOf t.topToks ↔ ∃ h toks, t = .annotated h toks ∧ .tag tag ∈ toks := by
      intro t tag
      rw [mt]
      constructor
      · cases t with
        | annotated h toks => exact fun ht => ⟨h, toks, rfl, ht⟩
        | _ => intro ht; cases ht
      · rintro ⟨h, toks, rfl, ht⟩; exact ht
    intro tag
    rw [hft]
    cases hh' with
    | classVar => cases hdec
    | rawFinal => cases he
    | plain t =>
      simp only [fieldFromHint] at he
      cases hg : getFiller t with
      | error e => simp [hg] at he
      | ok x =>
        simp only [hg] at he
        cases he
        simp only [top]
        constructor
        · rintro ⟨h, toks, rfl, ht⟩; exact .annotated h toks ht
        · intro hl; cases hl with | annotated h toks ht => exact ⟨h, toks, rfl, ht⟩
    | final t toks =>
      simp only [fieldFromHint] at he
      split at he
      · cases he
      · cases hg : getFiller t with
        | error e => simp [hg] at he
        | ok x =>
          simp only [hg] at he
          cases he
          simp only [List.mem_append, top, mt]
          constructor
          · rintro (⟨h, toks, rfl, ht⟩ | ht)
            · exact .inFinal h toks _ ht
            · exact .final _ _ ht
          · intro hl
            cases hl with
            | final _ _ ht => exact .inr ht
            | inFinal h toks _ ht => exact .inl ⟨h, toks, rfl, ht⟩

/-! ### C48 -/

/-- C48: a raw `Final`, or a `Final` field of a non-frozen class, makes class creation fail, with TypeError if the other
declarations are in order. -/
theorem C48_final_needs_frozen {sp : ClassSpec W} (hok : sp.OK) {n : String} {h : FHint W} (hm : (n, h) ∈ sp.anns)
    (hbad : h.badFinal sp.frozen) :
    (∀ C, mkClass sp ≠ .ok C) ∧
    ((∀ n' h', (n', h') ∈ sp.anns → h'.resolvable sp.frozen ∨ h'.badFinal sp.frozen) → mkClass sp = .error .typeError) := by
  have hbe : ∀ n (h : FHint W), h.badFinal sp.frozen → fieldFromHint sp.cid sp.frozen n (sp.defaultOf n) h = .error .typeError := by
    rintro n h (rfl | ⟨hf, t, toks, rfl⟩)
    · rfl
    · simp [fieldFromHint, hf]
  have key : ∀ l : List (String × FHint W), (n, h) ∈ l →
      (∃ e, ownFields sp l = .error e) ∧
      ((∀ n' h', (n', h') ∈ l → h'.resolvable sp.frozen ∨ h'.badFinal sp.frozen) → ownFields sp l = .error .typeError) := by
    intro l hl
    induction l with
    | nil => cases hl
    | cons a l ih =>
      obtain ⟨n', h'⟩ := a
      simp only [ownFields]
      cases he : fieldFromHint sp.cid sp.frozen n' (sp.defaultOf n') h' with
      | error e =>
        refine ⟨⟨_, rfl⟩, fun hall => ?_⟩
        rcases hall n' h' (.head _) with hr | hb
        · obtain ⟨f, hf⟩ := fieldFromHint_ok_iff.2 hr
          rw [hf] at he; cases he
        · rw [hbe n' h' hb] at he
          cases he; rfl
      | ok f =>
        have hl' : (n, h) ∈ l := by
          cases hl with
          | head => rw [hbe _ _ hbad] at he; cases he
          | tail _ h => exact h
        obtain ⟨⟨e, ih1⟩, ih2⟩ := ih hl'
        simp only [ih1]
        refine ⟨⟨_, rfl⟩, fun hall => ?_⟩
        have := ih2 fun n' h hm => hall n' h (.tail _ hm)
        rw [ih1] at this
        exact this
  obtain ⟨⟨e, h1⟩, h2⟩ := key sp.hints ((hints_perm hok).mem_iff.2 hm)
  refine ⟨fun C hC => ?_, fun hall => ?_⟩
  · simp [mkClass, h1] at hC
  · have := h2 fun n' h hm => hall n' h ((hints_perm hok).mem_iff.1 hm)
    simp [mkClass, this]

theorem ownFields_congr {sp sp' : ClassSpec W} (hc : sp'.cid = sp.cid) (hf : sp'.frozen = sp.frozen)
    (hd : ∀ n, sp'.defaultOf n = sp.defaultOf n) (hfr : sp.frozen = true) (l : List (String × FHint W)) :
    ownFields sp' (l.map fun a => (a.1, a.2.noFinal)) = ownFields sp l := by
  induction l with
  | nil => rfl
  | cons a l ih =>
    obtain ⟨n, h⟩ := a
    have : fieldFromHint sp'.cid sp'.frozen n (sp'.defaultOf n) h.noFinal =
        fieldFromHint sp.cid sp.frozen n (sp.defaultOf n) h := by
      rw [hc, hf, hd]
      cases h with
      | final t toks =>
        cases toks with
        | nil => simp [FHint.noFinal, fieldFromHint, hfr, tagsOf]
        | cons _ _ => rfl
      | _ => rfl
    simp only [List.map_cons, ownFields, this, ih]

theorem Dict.get?_map {V V' : Type} (g : V → V') (d : Dict V) (k : String) :
    Dict.get? (List.map (fun a => (a.1, g a.2)) d) k = (d.get? k).map g := by
  induction d with
  | nil => rfl
  | cons a d ih =>
    obtain ⟨k', v⟩ := a
    simp only [List.map_cons, Dict.get?]
    by_cases h : k' = k
    · simp [h]
    · simp only [h, if_false]; exact ih

theorem hints_noFinal (sp : ClassSpec W) :
    ({ sp with anns := sp.anns.map fun a => (a.1, a.2.noFinal) } : ClassSpec W).hints =
      sp.hints.map fun a => (a.1, a.2.noFinal) := by
  unfold ClassSpec.hints
  simp only [List.map_append, List.map_filterMap, List.filter_map]
  refine congrArg (fun g => List.filterMap g sp.baseAnns ++ _) (funext fun n => ?_)
  rw [Dict.get?_map]
  cases Dict.get? sp.anns n <;> rfl

/-- C48: in a frozen class `Final[T]` and `T` declare the same field: replacing one by the other in any declarations gives the
same class (or the same error). -/
theorem C48_final_is_plain {sp : ClassSpec W} (hfr : sp.frozen = true) :
    mkClass { sp with anns := sp.anns.map fun a => (a.1, a.2.noFinal) } = mkClass sp := by
  unfold mkClass
  rw [hints_noFinal, ownFields_congr (sp := sp) (sp' := { sp with anns := sp.anns.map fun a => (a.1, a.2.noFinal) }) rfl rfl
    (fun _ => rfl) hfr]

/-- C48: around `Final`, `Annotated` contributes its tags, and nothing else: the field is that of `Final[T]` with the tags
added. -/
theorem C48_annotated_final (o : W.Cls) (n : String) (d : Option (Deflt W)) (t : Hint W) (toks : List (Tok W)) :
    fieldFromHint o true n d (.final t toks) =
      (fieldFromHint o true n d (.plain t)).map (Option.map fun f => { f with tags := f.tags ++ tagsOf toks }) := by
  simp only [fieldFromHint]
  cases getFiller t <;> rfl

/-! ### C87 -/

/-- C87: if `pre_bind` - own or inherited - adds a token to an inherited field, the class cannot be created. -/
theorem C87_inherited_pre_bind {sp : ClassSpec W} (hok : sp.OK) (hp : ∀ p ∈ sp.parents, Creatable p)
    {n : String} {key : Option Int} {t : Tok W} (hpre : (n, key, t) ∈ sp.pre) (hn : n ∈ sp.inherited) :
    ∀ C, mkClass sp ≠ .ok C := by
  intro C hC
  obtain ⟨-, hnd, -, h⟩ := (C44_creatable_iff hok hp).1 ⟨C, hC⟩
  exact (List.nodup_append.1 hnd).2.2 n hn n (h _ hpre) rfl

/-- C87: in particular, a class whose `pre_bind` adds a token to a field of its own cannot be subclassed, unless the subclass
overrides `pre_bind`. -/
theorem C87_no_subclass {sp sub : ClassSpec W} (hok : sp.OK) (hp : ∀ p ∈ sp.parents, Creatable p) {C : RecClass W}
    (h : mkClass sp = .ok C) (hne : sp.pre ≠ []) (hok' : sub.OK) (hp' : ∀ p ∈ sub.parents, Creatable p)
    (hC : C ∈ sub.parents) (hsame : sub.pre = sp.pre) : ∀ D, mkClass sub ≠ .ok D := by
  obtain ⟨⟨n, key, t⟩, l, hl⟩ := List.exists_cons_of_ne_nil hne
  have hm : (n, key, t) ∈ sp.pre := by rw [hl]; simp
  have hd := ((C44_creatable_iff hok hp).1 ⟨C, h⟩).2.2.2 _ hm
  obtain ⟨own, ho, hk⟩ := mkClass_keys hok h
  have hn : n ∈ sub.inherited :=
    List.mem_flatMap.2 ⟨C, hC, show n ∈ C.fields.keys by
      rw [hk]; exact List.mem_append_right _ ((own_keys hok ho).1.mem_iff.2 hd)⟩
  exact C87_inherited_pre_bind hok' hp' (hsame ▸ hm) hn

/-- C87: the error, when the token is the first one added: RuntimeError, or TypeError for an uninterpretable type. -/
theorem C87_error {sp : ClassSpec W} (hok : sp.OK) (hp : ∀ p ∈ sp.parents, Creatable p)
    (hl : ∀ n h, (n, h) ∈ sp.anns → h.resolvable sp.frozen) (hnd : (sp.inherited ++ sp.declared).Nodup)
    {n : String} {t : Tok W} {l : List (String × Option Int × Tok W)} (hpre : sp.pre = (n, none, t) :: l)
    {p : RecClass W} (hpm : p ∈ sp.parents) {f : Field W} (hf : p.fields.get? n = some f) :
    mkClass sp = .error (match f.filler with | .dumb _ => .typeError | _ => .runtimeError) := by
  obtain ⟨own, ho⟩ := ownFields_exists (sp := sp) (l := sp.hints) fun a ha =>
    fieldFromHint_ok_iff.2 (hl a.1 a.2 ((hints_perm hok).mem_iff.1 ha))
  obtain ⟨hperm, -⟩ := own_keys hok ho
  have hnd' : (sp.inherited ++ own.keys).Nodup := (hperm.append_left _).nodup_iff.2 hnd
  have hi1 : Dict.WF (sp.parents.flatMap (·.fields)) := by
    have := (List.nodup_append.1 hnd').1
    rw [← inherited_eq] at this
    exact this
  unfold mkClass
  simp only [ho]
  cases hi : inheritedFields own sp.parents [] with
  | error e =>
    exfalso
    obtain ⟨-, h2⟩ := inheritedFields_error hi
    rcases h2 .nil with ⟨k, hk, hko⟩ | h3
    · rw [inherited_eq] at hk
      exact (List.nodup_append.1 hnd').2.2 k hk k hko rfl
    · exact h3 hi1
  | ok inh =>
    simp only
    obtain ⟨e1, e2, e3, e4⟩ := all_eq hok ho hi
    subst e3
    have hm : (n, f) ∈ sp.parents.flatMap (·.fields) := List.mem_flatMap.2 ⟨p, hpm, Dict.get?_eq_some_mem _ _ _ hf⟩
    have hg : Dict.get? (sp.parents.flatMap (·.fields) ++ own) n = some f := by
      rw [Dict.get?_append, Dict.mem_get? _ hi1 _ _ hm]
    have hne : ¬ (sp.parents.flatMap (·.fields) ++ own).isEmpty = true := by
      intro he
      rw [List.isEmpty_iff.1 he] at hg; cases hg
    rw [e1, if_neg hne, hpre]
    have hb : f.filler.Bound := (hp p hpm).wf.bound n f hf
    have ha : f.filler.applySub none t = f.filler.apply t := rfl
    simp only [preBind, preStep, hg, ha, hb.apply t]
    cases f.filler <;> rfl

/-! ### C88 -/

/-- C88: an own field is required iff its class body assigns no value and no base class has an attribute of that name. -/
theorem C88_required_iff {sp : ClassSpec W} (hok : sp.OK) (hp : ∀ p ∈ sp.parents, Creatable p) {C : RecClass W}
    (h : mkClass sp = .ok C) {n : String} (hn : n ∈ sp.declared) :
    (n ∈ C.required ↔ sp.attrs.get? n = none ∧ sp.mroAttrs n = none) ∧
    (∀ d, sp.attrs.get? n = some d → ∃ f, C.fields.get? n = some f ∧ f.default = some d) ∧
    (∀ d, sp.attrs.get? n = none → sp.mroAttrs n = some d → ∃ f, C.fields.get? n = some f ∧ f.default = some d) := by
  have wf : C.WF := mkClass_wf hok h fun p hpm => (hp p hpm).wf
  obtain ⟨⟨n', hh⟩, hm, rfl⟩ := List.mem_map.1 hn
  obtain ⟨hm, hd⟩ := List.mem_filter.1 hm
  have ht : ∃ t, hh.type? = some t := by
    have hl := ((C44_creatable_iff hok hp).1 ⟨C, h⟩).1 n' hh hm
    cases hh with
    | classVar => cases hd
    | rawFinal => exact hl.elim
    | plain t => exact ⟨t, rfl⟩
    | final t _ => exact ⟨t, rfl⟩
  obtain ⟨t, ht⟩ := ht
  obtain ⟨f, hf, -, -, hdef⟩ := C45_own_field hok hp h hm ht
  simp only [ClassSpec.defaultIs] at hdef
  refine ⟨?_, ?_, ?_⟩
  · rw [wf.req]
    constructor
    · rintro ⟨f', hf', hn'⟩
      rw [hf] at hf'; cases hf'
      rcases hdef with ⟨h1, h2⟩ | ⟨v, h1, h2⟩
      · exact ⟨h1, by rw [← h2]; exact hn'⟩
      · rw [hn'] at h2; cases h2
    · rintro ⟨h1, h2⟩
      refine ⟨f, hf, ?_⟩
      rcases hdef with ⟨-, h3⟩ | ⟨v, h3, -⟩
      · rw [h3, h2]
      · rw [h1] at h3; cases h3
  · intro d hd
    refine ⟨f, hf, ?_⟩
    rcases hdef with ⟨h3, -⟩ | ⟨v, h3, h4⟩
    · rw [hd] at h3; cases h3
    · rw [hd] at h3; cases h3; exact h4
  · intro d h1 h2
    refine ⟨f, hf, ?_⟩
    rcases hdef with ⟨-, h3⟩ | ⟨v, h3, -⟩
    · rw [h3, h2]
    · rw [h1] at h3; cases h3

end Records

namespace Records.Toy
/-! ### concrete cases -/

/-- C43: inherited fields first -/
example : B.fields.map (·.1) = ["x", "y", "z"] ∧ B.required = ["x", "z"] ∧ B.optional = ["y"] := ⟨rfl, rfl, rfl⟩

example : (B.required ++ B.optional).Perm (B.fields.map (·.1)) := (C43_partition B_creatable).2.2.1

/-- C43: an own name that is also annotated in a base class (here in a class that is not a record) comes first -/
example : (clsOf { spA with baseAnns := ["y"] } noClass).fields.map (·.1) = ["y", "x"] := rfl

/-- C44: redeclaring `x` in a subclass of `A` -/
example : mkClass { spB with anns := [("x", .plain (.cls .int))] } = .error .valueError := rfl

/-- C44: `class D(B, A)` -/
example : mkClass ({ cid := .record 3, anns := [], parents := [B, A] } : ClassSpec W) = .error .valueError := by
  refine (C44_diamond (R := A) (p := B) (q := A) (l₁ := []) (l₂ := []) (l₃ := []) ?_ A_creatable rfl
    (.step spB B A spB_ok spB_parents B_mk (.head _) .refl) .refl).2 nofun
  refine ⟨by simp, by simp, ?_⟩
  intro p hp kf hkf
  have : ∀ C : RecClass W, (C = B ∨ C = A) → ∀ kf ∈ C.fields, kf.2.owner = .record 0 ∨ kf.2.owner = .record 1 := by
    rintro C (rfl | rfl) kf hkf
    · rcases kf with ⟨k, f⟩
      rcases hkf with _ | ⟨_, _ | ⟨_, _ | ⟨_, h⟩⟩⟩
      · exact .inl rfl
      · exact .inl rfl
      · exact .inr rfl
      · cases h
    · rcases kf with ⟨k, f⟩
      rcases hkf with _ | ⟨_, _ | ⟨_, h⟩⟩
      · exact .inl rfl
      · exact .inl rfl
      · cases h
  have hp' : p = B ∨ p = A := by simpa using hp
  rcases this p hp' kf hkf with h | h <;> rw [h] <;> nofun

/-- C44: a class without fields -/
example : mkClass ({ cid := .record 3, anns := [("k", .classVar)] } : ClassSpec W) = .error .valueError := rfl

/-- C45: `B` checks types and `A` does not; the inherited `x` is not checked in `B`, the own `z` is. -/
example : (match B.fields.get? "x" with | some f => f.filler.call (.str "no") s0 | none => (.error .keyError, s0)) = (.ok (.str "no"), s0) :=
  rfl
example : (match B.fields.get? "z" with | some f => f.filler.call (.int 1) s0 | none => (.error .keyError, s0)).1 = .error .typeError :=
  rfl
example : ∃ f, B.fields.get? "x" = some f ∧ A.fields.get? "x" = some f := by
  obtain ⟨f, hf⟩ : ∃ f, A.fields.get? "x" = some f := ⟨_, rfl⟩
  exact ⟨f, C45_inherited_field (.step spB B A spB_ok spB_parents B_mk (.head _) .refl) hf, hf⟩
/-- C45: a subclass of the frozen class `B` is not frozen by default -/
example : B.frozen = true ∧ (clsOf { cid := .record 3, anns := [], parents := [B] } noClass).frozen = false := ⟨rfl, rfl⟩

/-- C46: one required field: off; two: on -/
example : A.unary = false ∧ B.unary = true := ⟨rfl, rfl⟩

/-- a tagged field -/
def spT : ClassSpec W :=
  { cid := .record 4, anns := [("p", .plain (.cls .int)), ("q", .plain (.annotated (.cls .int) [.tag 7]))] }

/-- C47 -/
example : ((clsOf spT noClass).filterByTag 7).map (·.map (·.1)) = .ok ["q"] := rfl

example : ∃ f, (clsOf spT noClass).fields.get? "q" = some f ∧ f.tags = [7] := ⟨_, rfl, rfl⟩
example : FHint.ListsTag (W := W) 7 (.plain (.annotated (.cls .int) [.tag 7])) := .annotated _ _ (.head _)

/-- C48: `z: Final[str]` in a non-frozen class -/
example : mkClass { spB with frozen := false } = .error .typeError := rfl
example : mkClass { spB with anns := [("z", .plain (.cls .str)), ("k", .classVar)] } = mkClass spB :=
  C48_final_is_plain (sp := spB) rfl

/-- a validator that rejects everything -/
def never : Tok W := vtok (err 1 .valueError)

/-- C87: a class with a `pre_bind` validator on its own field `x`, and a subclass inheriting that `pre_bind` -/
def spV : ClassSpec W := { spA with cid := .record 6, pre := [("x", none, vtok (pass 1))] }

example : ∃ C, mkClass spV = .ok C := ⟨_, rfl⟩
example : mkClass (W := W) { spV with cid := .record 7, anns := [("w", .plain (.cls .int))], parents := [clsOf spV noClass] } =
    .error .runtimeError := rfl

end Records.Toy

namespace Records
open Toy

/-- C47: that `filter_by_tag` always works is refuted: the field mapping of a subclass lacks it. -/
theorem C47_refuted : ∃ (sp : ClassSpec W) (C : RecClass W), sp.OK ∧ (∀ p ∈ sp.parents, Creatable p) ∧ mkClass sp = .ok C ∧
    C.filterByTag 7 = .error .attributeError :=
  ⟨spB, B, spB_ok, spB_parents, B_mk, rfl⟩

/-- C48: that `Annotated[Final[T], tokens]` behaves like `Annotated[T, tokens]` is refuted: the validator is dropped. -/
theorem C48_refuted :
    ∃ f g : Field W,
      fieldFromHint (W := W) (.record 5) true "x" none (.plain (.annotated (.cls .int) [never])) = .ok (some f) ∧
      fieldFromHint (W := W) (.record 5) true "x" none (.final (.cls .int) [never]) = .ok (some g) ∧
      (∃ b, f.filler.bind .check = .ok b ∧ (b.call (.int 1) s0).1 = .error .valueError) ∧
      (∃ b, g.filler.bind .check = .ok b ∧ (b.call (.int 1) s0).1 = .ok (.int 1)) :=
  ⟨_, _, rfl, rfl, ⟨_, rfl, rfl⟩, ⟨_, rfl, rfl⟩⟩

/-- C88: a field called `parse` gets the class method of that name as its default, so it is not required. -/
theorem C88_refuted : ∃ (sp : ClassSpec W) (C : RecClass W), sp.OK ∧ mkClass sp = .ok C ∧ "parse" ∈ sp.declared ∧
    sp.attrs.get? "parse" = none ∧ "parse" ∉ C.required :=
  ⟨{ cid := .record 8, anns := [("parse", .plain (.cls .int))], mroAttrs := fun n => if n = "parse" then some (.value (.fn 0)) else none },
   _, ⟨by decide, by decide, nofun⟩, rfl, by decide, rfl, by decide⟩

end Records
