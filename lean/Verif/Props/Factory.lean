import Verif.Proofs.Factory
import Verif.Proofs.ClassMore
import Verif.Spec.ToyEnv
set_option linter.unusedSimpArgs false
/-
C63-C66: the factories `from_mapping` and `from_instance`.
-/
namespace Records
open Spec
variable {W : World}

/-! ### C63 -/

theorem clash_false {names : List String} {kw : Dict W.Obj} (h : ∀ k ∈ kw.map (·.1), k ∉ names) : clash names kw = false := by
  unfold clash
  rw [List.any_eq_false]
  intro n hn
  rw [Bool.not_eq_true, Dict.has_eq_false_iff]
  exact fun hk => h n hk hn

theorem clash_true {names : List String} {kw : Dict W.Obj} {k : String} (h : k ∈ kw.map (·.1)) (hk : k ∈ names) :
    clash names kw = true := by
  unfold clash
  rw [List.any_eq_true]
  exact ⟨k, hk, (Dict.has_iff _ _).2 h⟩

/-- C63: `from_mapping(*maps, **kw)` calls the constructor with the combined mapping: the value of a key comes from the first mapping that
contains it, and from the keyword arguments only if no mapping does. -/
theorem C63_from_mapping (call : Dict W.Obj → M W (Res W)) {maps : List (Dict W.Obj)} (hm : ∀ m ∈ maps, m.WF) {kw : Dict W.Obj}
    (hkw : kw.WF) (hk : ∀ k ∈ kw.map (·.1), k ∉ ["self", "cls"]) :
    ∃ m : Dict W.Obj, m.WF ∧ (∀ k, m.get? k = (maps ++ [kw]).findSome? (fun m => m.get? k)) ∧
      fromMapping call Sel.empty maps kw = call m := by
  refine ⟨chainItems (maps ++ [kw]), chainItems_wf _, chainItems_get? _ ?_, ?_⟩
  · intro m h
    rcases List.mem_append.1 h with h | h
    · exact hm m h
    · cases h with
      | head => exact hkw
      | tail _ h => cases h
  · unfold fromMapping
    rw [clash_false hk]
    rfl

/-- C63, with a select: it is applied to the combined mapping. -/
theorem C63_select (call : Dict W.Obj → M W (Res W)) {a : SelectArgs W.Obj} (ha : Reiterable a) {maps : List (Dict W.Obj)}
    (hm : ∀ m ∈ maps, m.WF) {kw : Dict W.Obj} (hkw : kw.WF) (hk : ∀ k ∈ kw.map (·.1), k ∉ ["self", "cls"]) :
    CallsWith call (runScript (argEdits a).script fun k => (maps ++ [kw]).findSome? (fun m => m.get? k))
      (fromMapping call a.mk' maps kw) := by
  have hget := chainItems_get? (maps ++ [kw]) (by
    intro m h
    rcases List.mem_append.1 h with h | h
    · exact hm m h
    · cases h with
      | head => exact hkw
      | tail _ h => cases h)
  have := buildFrom_spec (call := call) a.mk' (mk'_pure ha) (chainItems (maps ++ [kw])) (chainItems_wf _)
  rw [mk'_edits ha, funext hget] at this
  unfold fromMapping
  rw [clash_false hk]
  exact this

/-- C63: a field named `self` or `cls` cannot be given by keyword. -/
theorem C63_clash (call : Dict W.Obj → M W (Res W)) (sel : Sel W.Obj) (maps : List (Dict W.Obj)) {kw : Dict W.Obj} {k : String}
    (h : k ∈ kw.map (·.1)) (hk : k ∈ ["self", "cls"]) : fromMapping call sel maps kw = M.throw .typeError := by
  unfold fromMapping
  rw [clash_true h hk]
  rfl

/-- C63, C64: likewise for the parameters of `from_instance` and `from_json`: TypeError, and nothing is read or constructed. -/
theorem C64_clash (E : Env W) (C : RecClass W) (call : Dict W.Obj → M W (Res W)) (sel : Sel W.Obj) (v : Carrier W) (t : W.Obj)
    (maps : List (Dict W.Obj)) {kw : Dict W.Obj} {k : String} (h : k ∈ kw.map (·.1)) (s : LState W) :
    (k ∈ ["self", "cls", "v", "_select"] → fromInstance C call sel v maps kw s = (.error .typeError, s)) ∧
    (k ∈ ["self", "cls", "v"] → fromJson E call sel t kw s = (.error .typeError, s)) := by
  constructor
  · intro hk; unfold fromInstance; rw [clash_true h hk]; rfl
  · intro hk; unfold fromJson; rw [clash_true h hk]; rfl

/-! ### C64 -/

/-- the returned object is a construction result -/
def built (x : M W (Res W)) : M W (Option (Res W)) := M.bind x fun r => M.pure (some r)

theorem fromInstance_skip {C : RecClass W} {call : Dict W.Obj → M W (Res W)} {sel : Sel W.Obj} {v : Carrier W}
    {maps : List (Dict W.Obj)} {kw : Dict W.Obj} (hk : ∀ k ∈ kw.map (·.1), k ∉ ["self", "cls", "v", "_select"])
    (hsc : ¬ (sel.truth.1 = false ∧ C.frozen = true ∧ maps = [] ∧ kw = [] ∧ v.isInst C.cid = true)) :
    fromInstance C call sel v maps kw = M.bind (toDict C v {} sel) fun d =>
      match maps with
      | [] => built (buildFrom call sel (d.update kw))
      | [m] => built (buildFrom call sel ((d.update m).update kw))
      | _ => M.throw .typeError := by
  unfold fromInstance
  rw [clash_false hk]
  rw [if_neg (by simp), if_neg]
  · rfl
  · intro h
    simp only [Bool.and_eq_true, List.isEmpty_iff, Bool.not_eq_true'] at h
    exact hsc ⟨h.1.1.1.1, h.1.1.1.2, h.1.1.2, h.1.2, h.2⟩

/-- the entries of at most one mapping -/
def firstMap (maps : List (Dict W.Obj)) : AMap W.Obj := fun k => maps.findSome? fun m => m.get? k

/-- `from_instance` with any select, at most one mapping, and keyword arguments -/
theorem fromInstance_spec {C : RecClass W} (wf : C.WF) {call : Dict W.Obj → M W (Res W)} {sel : Sel W.Obj} (hs : sel.Pure)
    {v : Carrier W} {val : String → Option W.Obj} (hv : Reads v val) {maps : List (Dict W.Obj)} (hlen : maps.length ≤ 1)
    (hm : ∀ m ∈ maps, m.WF) {kw : Dict W.Obj} (hkw : kw.WF) (hk : ∀ k ∈ kw.map (·.1), k ∉ ["self", "cls", "v", "_select"])
    (hsc : ¬ (sel.truth.1 = false ∧ C.frozen = true ∧ maps = [] ∧ kw = [] ∧ v.isInst C.cid = true)) :
    ((∀ k, Wanted C sel.edits k → val k = none → MayMiss C sel.edits k) →
      ∀ s, ∃ x, CallsWith call (runScript sel.edits.script
          (AMap.orElse kw.get? (AMap.orElse (firstMap maps) (takenMap C sel.edits val)))) x ∧
        fromInstance C call sel v maps kw s = built x s) ∧
    ((∃ k, Wanted C sel.edits k ∧ val k = none ∧ ¬ MayMiss C sel.edits k) →
      ∀ s, ∃ e : Exc, e.kind = .attributeError ∧ fromInstance C call sel v maps kw s = (.error e, s)) := by
  rw [fromInstance_skip hk hsc]
  constructor
  · intro h s
    obtain ⟨d, hd, hdw, hdg⟩ := (toDict_reads wf hv sel hs s).1 h
    rw [M.bind_ok hd]
    match maps, hlen with
    | [], _ =>
      have := buildFrom_spec (call := call) sel hs (d.update kw) (hdw.update _)
      have hg : Dict.get? (d.update kw) = AMap.orElse kw.get? (AMap.orElse (firstMap []) (takenMap C sel.edits val)) := by
        funext k
        rw [Dict.get?_update _ _ hkw, hdg]
        simp only [AMap.orElse, firstMap, List.findSome?_nil]
        cases kw.get? k <;> rfl
      rw [hg] at this
      exact ⟨_, this, rfl⟩
    | [m], _ =>
      have := buildFrom_spec (call := call) sel hs ((d.update m).update kw) ((hdw.update _).update _)
      have hg : Dict.get? ((d.update m).update kw) =
          AMap.orElse kw.get? (AMap.orElse (firstMap [m]) (takenMap C sel.edits val)) := by
        funext k
        rw [Dict.get?_update _ _ hkw, Dict.get?_update _ _ (hm m (by simp)), hdg]
        simp only [AMap.orElse, firstMap, List.findSome?_cons, List.findSome?_nil]
        cases kw.get? k <;> cases m.get? k <;> rfl
      rw [hg] at this
      exact ⟨_, this, rfl⟩
  · intro h s
    obtain ⟨e, he, hd⟩ := (toDict_reads wf hv sel hs s).2 h
    exact ⟨e, he, by rw [M.bind_error hd]⟩

/-- the attribute value `x` of field `k` is passed on: it is not (equal to) the plain default -/
def PassedOn (C : RecClass W) (k : String) (x : W.Obj) : Prop := ∃ f, (k, f) ∈ C.fields ∧ ¬ f.isPlainDefault x

theorem taken_empty {C : RecClass W} (wf : C.WF) (k : String) (x : W.Obj) :
    Taken C (Sel.empty : Sel W.Obj).edits k x ↔ PassedOn C k x := by
  unfold Taken Wanted PassedOn
  show (k ∉ ([] : List String) ∧ (k ∈ C.fields.map (·.1) ∨ k ∈ ([] : List String) ∨ k ∈ ([] : List String) ∨
    k ∈ ([] : List String))) ∧ (k ∈ ([] : List String) ∨ k ∈ ([] : List String) ∨ _) ↔ _
  simp only [List.not_mem_nil, not_false_eq_true, true_and, or_false, false_or]
  constructor
  · rintro ⟨h1, h2⟩
    obtain ⟨⟨k', f⟩, hf, rfl⟩ := List.mem_map.1 h1
    exact ⟨f, hf, fun hp => h2 ⟨f, hf, hp⟩⟩
  · rintro ⟨f, hf, hn⟩
    refine ⟨List.mem_map.2 ⟨_, hf, rfl⟩, ?_⟩
    rintro ⟨g, hg, hp⟩
    have e1 := Dict.mem_get? _ wf.nodup _ _ hf
    have e2 := Dict.mem_get? _ wf.nodup _ _ hg
    rw [e1] at e2
    cases e2
    exact hn hp

theorem wanted_empty {C : RecClass W} (k : String) :
    Wanted C (Sel.empty : Sel W.Obj).edits k ↔ k ∈ C.fields.map (·.1) := by
  unfold Wanted
  show (k ∉ ([] : List String) ∧ (k ∈ C.fields.map (·.1) ∨ k ∈ ([] : List String) ∨ k ∈ ([] : List String) ∨
    k ∈ ([] : List String))) ↔ _
  simp

theorem mayMiss_empty {C : RecClass W} (k : String) : MayMiss C (Sel.empty : Sel W.Obj).edits k ↔ k ∈ C.optional := by
  unfold MayMiss
  show (k ∈ C.optional ∨ k ∈ ([] : List String) ∨ k ∈ ([] : List String) ∨ k ∈ ([] : List String)) ↔ _
  simp

/-- C64: `from_instance(v, m, **kw)` (the mapping `m` may be left out) calls the constructor with the combination in which keyword arguments
override the mapping, which overrides the attributes; attributes of optional fields may be missing and are left out if equal to the default. -/
theorem C64_precedence {C : RecClass W} (hC : Creatable C) (call : Dict W.Obj → M W (Res W))
    {v : Carrier W} {val : String → Option W.Obj} (hv : Reads v val) {maps : List (Dict W.Obj)} (hlen : maps.length ≤ 1)
    (hm : ∀ m ∈ maps, m.WF) {kw : Dict W.Obj} (hkw : kw.WF) (hk : ∀ k ∈ kw.map (·.1), k ∉ ["self", "cls", "v", "_select"])
    (hsc : ¬ (C.frozen = true ∧ maps = [] ∧ kw = [] ∧ v.isInst C.cid = true))
    (hreq : ∀ k ∈ C.required, val k ≠ none) (s : LState W) :
    ∃ m : Dict W.Obj, m.WF ∧
      (∀ k x, m.get? k = some x ↔ kw.get? k = some x ∨
        (kw.get? k = none ∧ maps.findSome? (·.get? k) = some x) ∨
        (kw.get? k = none ∧ maps.findSome? (·.get? k) = none ∧ val k = some x ∧ PassedOn C k x)) ∧
      fromInstance C call Sel.empty v maps kw s = built (call m) s := by
  have wf := hC.wf
  have hsc' : ¬ ((Sel.empty : Sel W.Obj).truth.1 = false ∧ C.frozen = true ∧ maps = [] ∧ kw = [] ∧ v.isInst C.cid = true) :=
    fun h => hsc h.2
  obtain ⟨x, hx, hr⟩ := (fromInstance_spec wf (call := call) empty_pure hv hlen hm hkw hk hsc').1 (by
    intro k hw hn
    rw [wanted_empty] at hw
    rw [mayMiss_empty]
    obtain ⟨⟨k', f⟩, hf, rfl⟩ := List.mem_map.1 hw
    have hg := Dict.mem_get? _ wf.nodup _ _ hf
    by_cases hq : k' ∈ C.required
    · exact absurd hn (hreq _ hq)
    · cases hd : f.default with
      | none => exact absurd ((wf.req k').2 ⟨f, hg, hd⟩) hq
      | some d => exact (wf.opt k').2 ⟨f, d, hg, hd⟩) s
  rw [empty_edits] at hx
  obtain ⟨m, h1, h2, rfl⟩ := hx
  refine ⟨m, h1, ?_, hr⟩
  intro k y
  rw [h2]
  unfold AMap.orElse firstMap takenMap
  cases kw.get? k with
  | some z => simp
  | none =>
    cases maps.findSome? (·.get? k) with
    | some z => simp
    | none =>
      cases val k with
      | none => simp
      | some z =>
        simp only [reduceCtorEq, Option.some.injEq, true_and, false_or, false_and]
        rw [taken_empty wf]
        by_cases hp : PassedOn C k z
        · simp only [hp, if_true, Option.some.injEq]
          constructor
          · rintro rfl; exact ⟨rfl, hp⟩
          · exact fun h => h.1
        · simp only [hp, if_false, reduceCtorEq, false_iff]
          rintro ⟨rfl, h⟩; exact hp h

/-- C64: a missing attribute of a required field raises AttributeError, even if the mapping or the keywords supply it. -/
theorem C64_missing {C : RecClass W} (hC : Creatable C) (call : Dict W.Obj → M W (Res W))
    {v : Carrier W} {val : String → Option W.Obj} (hv : Reads v val) {maps : List (Dict W.Obj)} (hlen : maps.length ≤ 1)
    (hm : ∀ m ∈ maps, m.WF) {kw : Dict W.Obj} (hkw : kw.WF) (hk : ∀ k ∈ kw.map (·.1), k ∉ ["self", "cls", "v", "_select"])
    (hsc : ¬ (C.frozen = true ∧ maps = [] ∧ kw = [] ∧ v.isInst C.cid = true))
    {k : String} (hreq : k ∈ C.required) (hn : val k = none) (s : LState W) :
    ∃ e : Exc, e.kind = .attributeError ∧ fromInstance C call Sel.empty v maps kw s = (.error e, s) := by
  have wf := hC.wf
  refine (fromInstance_spec wf (call := call) empty_pure hv hlen hm hkw hk (fun h => hsc h.2)).2 ⟨k, ?_, hn, ?_⟩ s
  · rw [wanted_empty]
    obtain ⟨f, hf, _⟩ := (wf.req k).1 hreq
    exact List.mem_map.2 ⟨_, Dict.get?_eq_some_mem _ _ _ hf, rfl⟩
  · rw [mayMiss_empty]
    intro ho
    obtain ⟨f, hf, hd⟩ := (wf.req k).1 hreq
    obtain ⟨g, d, hg, hd'⟩ := (wf.opt k).1 ho
    rw [hf] at hg
    cases hg
    rw [hd] at hd'
    cases hd'

/-- C64: with two or more mappings, which the signature allows, `from_instance` raises TypeError (if it can read the attributes at all). -/
theorem C64_two_mappings {C : RecClass W} (hC : Creatable C) (call : Dict W.Obj → M W (Res W)) {a : SelectArgs W.Obj}
    (ha : Reiterable a) {v : Carrier W} {val : String → Option W.Obj} (hv : Reads v val) {maps : List (Dict W.Obj)}
    (hlen : 2 ≤ maps.length) {kw : Dict W.Obj} (hk : ∀ k ∈ kw.map (·.1), k ∉ ["self", "cls", "v", "_select"]) (s : LState W) :
    ∃ e : Exc, (e = .typeError ∨ e.kind = .attributeError) ∧ fromInstance C call a.mk' v maps kw s = (.error e, s) ∧
      ((∀ k, Wanted C (argEdits a) k → val k ≠ none) → e = .typeError) := by
  have wf := hC.wf
  have hsel := mk'_pure ha
  rw [fromInstance_skip hk (by rintro ⟨_, _, h, _⟩; subst h; simp at hlen)]
  have htd := toDict_reads wf hv a.mk' hsel s
  rw [mk'_edits ha] at htd
  by_cases hall : ∀ k, Wanted C (argEdits a) k → val k = none → MayMiss C (argEdits a) k
  · obtain ⟨d, hd, _⟩ := htd.1 hall
    rw [M.bind_ok hd]
    match maps, hlen with
    | m1 :: m2 :: ms, _ => exact ⟨.typeError, .inl rfl, rfl, fun _ => rfl⟩
  · have hex : ∃ k, Wanted C (argEdits a) k ∧ val k = none ∧ ¬ MayMiss C (argEdits a) k :=
      Classical.byContradiction fun hno => hall fun k h1 h2 => Classical.byContradiction fun h3 => hno ⟨k, h1, h2, h3⟩
    obtain ⟨e, he, hd⟩ := htd.2 hex
    refine ⟨e, .inr he, by rw [M.bind_error hd], fun h => ?_⟩
    obtain ⟨k, h1, h2, _⟩ := hex
    exact absurd h2 (h k h1)

/-! ### C65 -/

/-- C65: without select, mappings and keywords, `from_instance` of a frozen class returns an instance of it (or of a subclass) as it is. -/
theorem C65_same_object {C : RecClass W} (hf : C.frozen = true) (call : Dict W.Obj → M W (Res W)) {a : SelectArgs W.Obj}
    (ha : Reiterable a) (he : (argEdits a).script = []) {v : Carrier W} (hi : v.isInst C.cid = true) :
    fromInstance C call a.mk' v [] [] = M.pure none := by
  have ht := (truth_pure a.mk' (mk'_pure ha)).1
  rw [mk'_edits ha, (isEmpty_iff_script _).2 he] at ht
  unfold fromInstance
  rw [clash_false (by simp), ht, hf, hi]
  rfl

/-- C65: in all other cases it constructs anew (or raises). -/
theorem C65_constructs {C : RecClass W} (call : Dict W.Obj → M W (Res W)) {a : SelectArgs W.Obj}
    (ha : Reiterable a) {v : Carrier W} {maps : List (Dict W.Obj)} {kw : Dict W.Obj}
    (h : C.frozen = false ∨ (argEdits a).script ≠ [] ∨ v.isInst C.cid = false ∨ maps ≠ [] ∨ kw ≠ []) (s : LState W) :
    ∀ r s', fromInstance C call a.mk' v maps kw s = (.ok r, s') → ∃ m s1, r ≠ none ∧ call m s1 = (.ok (r.getD (.new ⟨C.cid, [], none⟩)), s') := by
  intro r s' hr
  have ht := (truth_pure a.mk' (mk'_pure ha)).1
  rw [mk'_edits ha] at ht
  have hb : ∀ m s1, built (buildFrom call a.mk' m) s1 = (.ok r, s') →
      ∃ m s1, r ≠ none ∧ call m s1 = (.ok (r.getD (.new ⟨C.cid, [], none⟩)), s') := by
    intro m s1 hb
    obtain ⟨q, s2, h1, h2⟩ := M.bind_eq_ok hb
    cases h2
    unfold buildFrom at h1
    revert h1
    cases a.mk'.applyTo m with
    | error e => intro h1; cases h1
    | ok m' => intro h1; exact ⟨m', s1, by simp, h1⟩
  unfold fromInstance at hr
  split at hr
  · cases hr
  · split at hr
    · rename_i hc
      simp only [Bool.and_eq_true, List.isEmpty_iff, Bool.not_eq_true'] at hc
      obtain ⟨⟨⟨⟨h1, h2⟩, h3⟩, h4⟩, h5⟩ := hc
      rw [ht] at h1
      simp only [Bool.not_eq_false'] at h1
      rcases h with h | h | h | h | h
      · rw [h] at h2; cases h2
      · exact absurd ((isEmpty_iff_script _).1 h1) h
      · rw [h] at h5; cases h5
      · exact absurd h3 h
      · exact absurd h4 h
    · obtain ⟨d, s1, _, h2⟩ := M.bind_eq_ok hr
      split at h2
      · exact hb _ _ h2
      · exact hb _ _ h2
      · cases h2

/-! ### C66 -/

/-- C66, exactly: `from_instance.select(...)(v, m, **kw)` applies the select to the taken-over attributes overridden by mapping and keywords;
it raises AttributeError iff a wanted attribute is missing that must not be. -/
theorem C66_select {C : RecClass W} (hC : Creatable C) (call : Dict W.Obj → M W (Res W)) {a : SelectArgs W.Obj}
    (ha : Reiterable a) (hne : (argEdits a).script ≠ [])
    {v : Carrier W} {val : String → Option W.Obj} (hv : Reads v val) {maps : List (Dict W.Obj)} (hlen : maps.length ≤ 1)
    (hm : ∀ m ∈ maps, m.WF) {kw : Dict W.Obj} (hkw : kw.WF) (hk : ∀ k ∈ kw.map (·.1), k ∉ ["self", "cls", "v", "_select"])
    (s : LState W) :
    ((∀ k, Wanted C (argEdits a) k → val k = none → MayMiss C (argEdits a) k) →
      ∃ x, CallsWith call (runScript (argEdits a).script
          (AMap.orElse kw.get? (AMap.orElse (fun k => maps.findSome? (·.get? k)) (takenMap C (argEdits a) val)))) x ∧
        fromInstance C call a.mk' v maps kw s = built x s) ∧
    ((∃ k, Wanted C (argEdits a) k ∧ val k = none ∧ ¬ MayMiss C (argEdits a) k) →
      ∃ e : Exc, e.kind = .attributeError ∧ fromInstance C call a.mk' v maps kw s = (.error e, s)) := by
  have ht := (truth_pure a.mk' (mk'_pure ha)).1
  rw [mk'_edits ha] at ht
  have := fromInstance_spec hC.wf (call := call) (sel := a.mk') (mk'_pure ha) hv hlen hm hkw hk (by
    rintro ⟨h, _⟩
    rw [ht] at h
    simp only [Bool.not_eq_false'] at h
    exact hne ((isEmpty_iff_script _).1 h))
  rw [mk'_edits ha] at this
  exact ⟨fun h => this.1 h s, fun h => this.2 h s⟩

open Classical in
/-- the attributes of an object that are fields or that the select removes or renames, except the added ones -/
noncomputable def attrsFor (C : RecClass W) (e : Edits W.Obj) (val : String → Option W.Obj) : AMap W.Obj := fun k =>
  if Wanted C e k then val k else none

/-- C66: if no attribute equals the default of its field and only attributes that may miss are missing, the select behaves as on the mapping
of attributes. -/
theorem C66_like_mapping {C : RecClass W} (hC : Creatable C) (call : Dict W.Obj → M W (Res W)) {a : SelectArgs W.Obj}
    (ha : Reiterable a) (hne : (argEdits a).script ≠ []) {v : Carrier W} {val : String → Option W.Obj} (hv : Reads v val)
    (hd : ∀ k f x, (k, f) ∈ C.fields → val k = some x → ¬ f.isPlainDefault x)
    (hmiss : ∀ k, Wanted C (argEdits a) k → val k = none → MayMiss C (argEdits a) k)
    {m : Dict W.Obj} (hmw : m.WF) (hmg : m.get? = attrsFor C (argEdits a) val) (s : LState W) :
    ∃ r, CallsWith call r (fromMapping call a.mk' [m] []) ∧
      ∃ x, CallsWith call r x ∧ fromInstance C call a.mk' v [] [] s = built x s := by
  obtain ⟨x, hx, hr⟩ := (C66_select hC call ha hne hv (maps := []) (kw := []) (by simp) (by simp) List.nodup_nil (by simp) s).1 hmiss
  have h2 := C63_select call ha (maps := [m]) (kw := []) (by simpa using hmw) List.nodup_nil (by simp)
  refine ⟨_, h2, x, ?_, hr⟩
  have heq : (fun k => ([m] ++ [([] : Dict W.Obj)]).findSome? (fun m => m.get? k)) =
      AMap.orElse (Dict.get? ([] : Dict W.Obj)) (AMap.orElse (fun k => ([] : List (Dict W.Obj)).findSome? (·.get? k))
        (takenMap C (argEdits a) val)) := by
    funext k
    simp only [AMap.orElse, Dict.get?_nil, List.findSome?_nil, List.singleton_append, List.findSome?_cons]
    have : m.get? k = takenMap C (argEdits a) val k := by
      rw [hmg]
      unfold attrsFor takenMap
      cases hval : val k with
      | none => simp
      | some y =>
        simp only
        have : Wanted C (argEdits a) k ↔ Taken C (argEdits a) k y := by
          unfold Taken
          constructor
          · exact fun h => ⟨h, .inr (.inr (by rintro ⟨f, hf, hp⟩; exact hd k f y hf hval hp))⟩
          · exact fun h => h.1
        by_cases h : Wanted C (argEdits a) k
        · rw [if_pos h, if_pos (this.1 h)]
        · rw [if_neg h, if_neg fun h' => h (this.2 h')]
    rw [← this]
    cases m.get? k <;> rfl
  rw [heq]
  exact hx

end Records

/-! ### concrete cases -/
namespace Records.Toy
open Spec

instance {V : Type} (d : Dict V) : Decidable d.WF := inferInstanceAs (Decidable (d.keys.Nodup))

/-- `A(**m)`, with recursion depth 3 -/
def callA : Dict W.Obj → M W (Res W) := fun m => callN env A 3 none m

/-- C63: the first mapping wins for `x`, the second for `y`, although a keyword gives `y` too -/
example : fromMapping (W := W) callA Sel.empty [[("x", .int 1)], [("x", .int 2), ("y", .int 5)]] [("y", .int 7)] s0 =
    (.ok (.new ⟨.record 0, [("y", .int 5), ("x", .int 1)], none⟩), s0) := rfl
example := C63_from_mapping (W := W) callA (maps := [[("x", TObj.int 1)], [("x", .int 2), ("y", .int 5)]]) (by decide)
  (kw := [("y", TObj.int 7)]) (by decide) (by decide)

/-- `from_instance(r, v=1)` and `from_json(t, cls=1)` -/
example : fromInstance (W := W) A callA Sel.empty (.ofInst env ⟨.record 0, [], none⟩) [] [("v", .int 1)] s0 = (.error .typeError, s0) ∧
    fromJson (W := W) env callA Sel.empty (.str "{}") [("cls", .int 1)] s0 = (.error .typeError, s0) :=
  ⟨(C64_clash (W := W) env A callA Sel.empty _ (.str "") [] (k := "v") (by decide) s0).1 (by decide),
   (C64_clash (W := W) env A callA Sel.empty (.ofInst env ⟨.record 0, [], none⟩) _ [] (k := "cls") (by decide) s0).2 (by decide)⟩

/-- the select `remove={'q'}, rename={'z': 'x'}` -/
def selA : SelectArgs W.Obj := { remove := .str "q", rename := .mapping [("z", "x")] }

theorem selA_ok : Reiterable selA := ⟨trivial, trivial, trivial, trivial, trivial, trivial⟩

example : fromMapping (W := W) callA selA.mk' [[("z", .int 1)]] [("q", .int 7)] s0 =
    (.ok (.new ⟨.record 0, [("x", .int 1), ("y", .int 3)], none⟩), s0) := rfl
example := C63_select (W := W) callA selA_ok (maps := [[("z", TObj.int 1)]]) (by decide) (kw := [("q", TObj.int 7)]) (by decide) (by decide)
example : fromMapping (W := W) callA Sel.empty [] [("cls", .int 7)] s0 = (.error .typeError, s0) :=
  congrFun (C63_clash (W := W) callA Sel.empty [] (k := "cls") (by decide) (by decide)) s0

/-- reading the attributes of an instance has no effects -/
theorem reads_inst {n : Nat} {attrs : List (String × TObj)}
    (h : strEntries (pairs (unspine (spine (unpairs (attrs.map fun kv => (.str kv.1, kv.2)))))) = attrs) :
    Reads (W := W) (Carrier.ofObj env (inst n attrs)) (Dict.get? attrs) := by
  intro k
  have e : (Carrier.ofObj env (inst n attrs)).attr k =
      (match Dict.get? (strEntries (pairs (unspine (spine (unpairs (attrs.map fun kv => (.str kv.1, kv.2))))))) k with
      | some w => M.pure w
      | none => M.throw .attributeError) := rfl
  rw [h] at e
  cases hg : Dict.get? attrs k with
  | some x => rw [hg] at e; rw [show Dict.get? (V := W.Obj) attrs k = some x from hg]; exact fun s => congrFun e s
  | none =>
    rw [hg] at e
    rw [show Dict.get? (V := W.Obj) attrs k = Option.none from hg]
    exact ⟨.attributeError, rfl, fun s => congrFun e s⟩

/-- an object with attributes `x`, `y` (an instance of another class) -/
def obj1 : Carrier W := Carrier.ofObj env (inst 9 [("x", .int 5), ("y", .bool true)])

theorem obj1_reads : Reads (W := W) obj1 (Dict.get? [("x", TObj.int 5), ("y", .bool true)]) := reads_inst rfl

/-- C64: `from_instance(obj, {'x': 6, 'y': 7}, y=8)` -/
example : fromInstance (W := W) A callA Sel.empty obj1 [[("x", .int 6), ("y", .int 7)]] [("y", .int 8)] s0 =
    (.ok (some (.new ⟨.record 0, [("x", .int 6), ("y", .int 8)], none⟩)), s0) := rfl
example := C64_precedence (W := W) A_creatable callA obj1_reads (maps := [[("x", TObj.int 6), ("y", .int 7)]]) (by decide) (by decide)
  (kw := [("y", TObj.int 8)]) (by decide) (by decide) (by rintro ⟨h, _⟩; cases h) (by decide) s0

/-- an object without `x` -/
def obj2 : Carrier W := Carrier.ofObj env (inst 9 [("y", .int 3)])

theorem obj2_reads : Reads (W := W) obj2 (Dict.get? [("y", TObj.int 3)]) := reads_inst rfl

example : fromInstance (W := W) A callA Sel.empty obj2 [] [("x", .int 1)] s0 = (.error .attributeError, s0) := rfl
example := C64_missing (W := W) A_creatable callA obj2_reads (maps := []) (by decide) (by decide) (kw := [("x", TObj.int 1)]) (by decide)
  (by decide) (by rintro ⟨h, _⟩; cases h) (k := "x") (by decide) rfl s0
example : fromInstance (W := W) A callA Sel.empty obj1 [[], []] [] s0 = (.error .typeError, s0) := rfl
example := C64_two_mappings (W := W) A_creatable callA selA_ok obj1_reads (maps := [[], []]) (by decide) (kw := []) (by decide) s0

/-- C65: an instance of a subclass (which may be mutable) of the frozen class `B` is returned as it is -/
example : fromInstance (W := W) B (fun m => callN env B 3 none m) Sel.empty (Carrier.ofObj env (inst 2 [("x", .int 1)])) [] [] s0 =
    (.ok none, s0) := rfl
example := C65_same_object (W := W) (C := B) rfl (fun m => callN env B 3 none m) (a := {})
  ⟨trivial, trivial, trivial, trivial, trivial, trivial⟩ rfl (v := Carrier.ofObj env (inst 2 [])) rfl
example := C65_constructs (W := W) (C := A) callA (a := {}) ⟨trivial, trivial, trivial, trivial, trivial, trivial⟩ (v := obj1)
  (maps := []) (kw := []) (.inl rfl) s0

/-- C66: the attribute `z` becomes the field `x`, `q` is dropped -/
def obj3 : Carrier W := Carrier.ofObj env (inst 9 [("z", .int 5), ("q", .int 6)])

theorem obj3_reads : Reads (W := W) obj3 (Dict.get? [("z", TObj.int 5), ("q", .int 6)]) := reads_inst rfl

example : fromInstance (W := W) A callA selA.mk' obj3 [] [] s0 =
    (.ok (some (.new ⟨.record 0, [("x", .int 5), ("y", .int 3)], none⟩)), s0) := rfl
example := C66_select (W := W) A_creatable callA selA_ok (by simp [Edits.script, argEdits, selA, keyEntries]) obj3_reads (maps := []) (by decide)
  (by decide) (kw := []) (by decide) (by decide) s0

theorem wanted_selA {k : String} (h : Wanted A (argEdits selA) k) : k = "x" ∨ k = "y" ∨ k = "q" ∨ k = "z" := by
  rcases h.2 with h | h | h | h
  · have : k ∈ ["x", "y"] := h
    simp at this
    rcases this with rfl | rfl <;> simp
  · have : k ∈ ["q"] := h
    simp at this
    simp [this]
  · have : k ∈ ["z"] := h
    simp at this
    simp [this]
  · cases h

theorem obj3_nodefault : ∀ k f x, (k, f) ∈ A.fields → Dict.get? [("z", TObj.int 5), ("q", .int 6)] k = some x →
    ¬ f.isPlainDefault x := by
  intro k f x hf hx
  rcases hf with _ | ⟨_, _ | ⟨_, h⟩⟩
  · cases hx
  · cases hx
  · cases h

theorem obj3_may : ∀ k, Wanted A (argEdits selA) k → Dict.get? [("z", TObj.int 5), ("q", .int 6)] k = none →
    MayMiss A (argEdits selA) k := by
  intro k hw hn
  rcases wanted_selA hw with rfl | rfl | rfl | rfl
  · exact .inr (.inl (by decide))
  · exact .inl (by decide)
  · cases hn
  · cases hn

example : ∃ x, fromInstance (W := W) A callA selA.mk' obj3 [] [] s0 = built x s0 := by
  obtain ⟨r, _, x, _, h⟩ := C66_like_mapping (W := W) A_creatable callA selA_ok (by simp [Edits.script, argEdits, selA, keyEntries]) obj3_reads
    obj3_nodefault obj3_may (m := [("z", .int 5), ("q", .int 6)]) (by decide) (by
      funext k
      unfold attrsFor
      by_cases h : Wanted A (argEdits selA) k
      · rw [if_pos h]
      · rw [if_neg h]
        rw [Dict.get?_eq_none_iff]
        intro hk
        apply h
        have : k = "z" ∨ k = "q" := by simpa using hk
        rcases this with rfl | rfl
        · exact ⟨by decide, .inr (.inr (.inl (by decide)))⟩
        · exact ⟨by decide, .inr (.inl (by decide))⟩) s0
  exact ⟨x, h⟩

end Records.Toy

namespace Records
open Spec Toy

/-- the expectation about selecting on `from_instance`: it behaves as on the mapping of the attributes -/
def C66_claim : Prop :=
  ∀ (W : World) (C : RecClass W) (_ : Creatable C) (call : Dict W.Obj → M W (Res W)) (a : SelectArgs W.Obj) (_ : Reiterable a)
    (v : Carrier W) (val : String → Option W.Obj) (_ : Reads v val) (m : Dict W.Obj) (_ : m.WF)
    (_ : m.get? = attrsFor C (argEdits a) val) (s : LState W) (r : Res W) (s' : LState W),
    fromMapping call a.mk' [m] [] s = (.ok r, s') → ∃ r', fromInstance C call a.mk' v [] [] s = (.ok r', s')

theorem attrs_one {W : World} {k0 : String} {v0 : W.Obj} {C : RecClass W} {e : Edits W.Obj} (h : Wanted C e k0) :
    Dict.get? [(k0, v0)] = attrsFor C e (Dict.get? [(k0, v0)]) := by
  funext k
  unfold attrsFor
  by_cases h' : Wanted C e k
  · rw [if_pos h']
  · rw [if_neg h', Dict.get?_eq_none_iff]
    intro hk
    have : k = k0 := by simpa using hk
    subst this
    exact h' h

/-- C66 refuted: removing a field that equals its default raises KeyError. -/
theorem C66_refuted : ¬ C66_claim := by
  intro h
  obtain ⟨r', h⟩ := h Toy.W A A_creatable (fun _ => M.pure (.old (.int 0))) { remove := .str "y" , add := .mapping [("x", .int 1)] }
    ⟨trivial, trivial, trivial, trivial, trivial, trivial⟩ obj2 _ obj2_reads [("y", .int 3)] (by decide)
    (attrs_one (W := Toy.W) (e := { remove := ["y"], add := [("x", .int 1)] }) ⟨by decide, .inl (by decide)⟩) s0 (.old (.int 0)) s0 rfl
  cases h

/-- C66 refuted: adding a missing required attribute by maybe-add raises AttributeError. -/
theorem C66_refuted_maybe_add : ¬ C66_claim := by
  intro h
  obtain ⟨r', h⟩ := h Toy.W A A_creatable (fun _ => M.pure (.old (.int 0))) { maybeAdd := .mapping [("x", .int 1)] }
    ⟨trivial, trivial, trivial, trivial, trivial, trivial⟩ obj2 _ obj2_reads [("y", .int 3)] (by decide)
    (attrs_one (W := Toy.W) (e := { maybeAdd := [("x", .int 1)] }) ⟨by decide, .inl (by decide)⟩) s0 (.old (.int 0)) s0 rfl
  cases h

end Records
