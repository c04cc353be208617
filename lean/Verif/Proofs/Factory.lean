import Verif.Spec.Factory
import Verif.Proofs.Export
import Verif.Proofs.SelectMore
set_option linter.unusedSimpArgs false
/-
Helper lemmas about the factories.
-/
namespace Records
open Spec
variable {W : World}

theorem applyTo_spec {V : Type} (sel : Sel V) (hs : sel.Pure) (m : Dict V) (hm : m.WF) :
    match runScript sel.edits.script m.get? with
    | .error k => ∃ e : Exc, e.kind = k ∧ sel.applyTo m = .error e
    | .ok am => ∃ m' : Dict V, m'.WF ∧ m'.get? = am ∧ sel.applyTo m = .ok m' := by
  obtain ⟨h1, h2, h3⟩ := truth_pure sel hs
  unfold Sel.applyTo
  cases hE : sel.edits.isEmpty with
  | true =>
    rw [isEmpty_script hE, h1, hE]
    exact ⟨m, hm, rfl, rfl⟩
  | false =>
    rw [h1, hE]
    have := edit_sim sel.truth.2 m hm
    rw [h3] at this
    revert this
    cases runScript sel.edits.script m.get? with
    | error k =>
      intro h
      simp only [EditAgree] at h
      rw [h]
      exact ⟨_, rfl, rfl⟩
    | ok am =>
      rintro ⟨a, b, c⟩
      rw [a]
      exact ⟨_, b, c, rfl⟩

theorem buildFrom_spec {call : Dict W.Obj → M W (Res W)} (sel : Sel W.Obj) (hs : sel.Pure) (m : Dict W.Obj) (hm : m.WF) :
    CallsWith call (runScript sel.edits.script m.get?) (buildFrom call sel m) := by
  have := applyTo_spec sel hs m hm
  revert this
  unfold buildFrom CallsWith
  cases runScript sel.edits.script m.get? with
  | error k => rintro ⟨e, h1, h2⟩; rw [h2]; exact ⟨e, h1, rfl⟩
  | ok am => rintro ⟨m', h1, h2, h3⟩; rw [h3]; exact ⟨m', h1, h2, rfl⟩

theorem empty_pure : (Sel.empty : Sel W.Obj).Pure := by
  have := mk'_pure (V := W.Obj) (a := {}) ⟨trivial, trivial, trivial, trivial, trivial, trivial⟩
  exact this

theorem empty_edits : (Sel.empty : Sel W.Obj).edits.script = [] := rfl

theorem buildFrom_empty (call : Dict W.Obj → M W (Res W)) (m : Dict W.Obj) : buildFrom call Sel.empty m = call m := rfl

theorem foldl_update_get? (l : List (Dict W.Obj)) (hl : ∀ m ∈ l, m.WF) (d : Dict W.Obj) (k : String) :
    (l.reverse.foldl (fun d m => d.update m) d).get? k = (l.findSome? (·.get? k)).or (d.get? k) := by
  induction l with
  | nil => rfl
  | cons m l ih =>
    simp only [List.reverse_cons, List.foldl_append, List.foldl_cons, List.foldl_nil]
    rw [Dict.get?_update _ _ (hl m (by simp)), ih (fun m h => hl m (by simp [h]))]
    simp only [List.findSome?_cons]
    cases m.get? k <;> rfl

theorem chainItems_get? (l : List (Dict W.Obj)) (hl : ∀ m ∈ l, m.WF) (k : String) :
    (chainItems l).get? k = l.findSome? (·.get? k) := by
  unfold chainItems
  rw [foldl_update_get? l hl]
  simp

/-! ### extraction with a select -/

/-- what is looked up in the extraction dict -/
theorem foldl_set_mock {α : Type} (key : α → String) (l : List α) (x : Dict (XField W)) (k : String) :
    (l.foldl (fun x a => x.set (key a) (mockField (key a))) x).get? k =
      if k ∈ l.map key then some (mockField k) else x.get? k := by
  induction l generalizing x with
  | nil => rfl
  | cons a l ih =>
    simp only [List.foldl_cons, List.map_cons]
    rw [ih, Dict.get?_set]
    by_cases h1 : k = key a
    · subst h1; simp
    · simp [h1]

theorem foldl_remove_mock (fields : Dict (Field W)) (l : List String) (x : Dict (XField W)) (k : String) :
    (l.foldl (fun (x : Dict (XField W)) k => if fields.has k then x else x.set k (mockField k)) x).get? k =
      if k ∈ l ∧ fields.has k = false then some (mockField k) else x.get? k := by
  induction l generalizing x with
  | nil => simp
  | cons a l ih =>
    simp only [List.foldl_cons]
    rw [ih]
    by_cases h1 : k = a
    · subst h1
      cases h : fields.has k with
      | true => simp [h]
      | false => simp [h, Dict.get?_set]
    · cases h : fields.has a <;> simp [h, h1, Dict.get?_set]

theorem foldl_erase {α : Type} (key : α → String) (l : List α) (x : Dict (XField W)) (hx : x.WF) (k : String) :
    (l.foldl (fun x a => x.erase (key a)) x).get? k = if k ∈ l.map key then none else x.get? k := by
  induction l generalizing x with
  | nil => rfl
  | cons a l ih =>
    simp only [List.foldl_cons, List.map_cons]
    rw [ih _ (hx.erase _), Dict.get?_erase _ hx]
    by_cases h1 : k = key a
    · subst h1; simp
    · simp [h1]

theorem get?_map_x (fields : Dict (Field W)) (k : String) :
    Dict.get? (fields.map fun kf => (kf.1, kf.2.x)) k = (fields.get? k).map Field.x := by
  induction fields with
  | nil => rfl
  | cons kf l ih =>
    obtain ⟨k', f⟩ := kf
    simp only [List.map_cons, Dict.get?_cons, ih]
    split <;> rfl

/-- the field (or mock field) extracted under the name `k` -/
def wantedField (C : RecClass W) (e : Edits W.Obj) (k : String) : Option (XField W) :=
  if k ∈ e.add.map (·.1) then none
  else if k ∈ e.rename.map (·.1) ∨ k ∈ e.maybeRename.map (·.1) then some (mockField k)
  else match C.fields.get? k with
    | some f => some f.x
    | none => if k ∈ e.remove then some (mockField k) else none

theorem extraction_fields {C : RecClass W} (wf : C.WF) (sel : Sel W.Obj) (hs : sel.Pure) (k : String) :
    (extraction C sel).2.get? k = wantedField C sel.edits k := by
  obtain ⟨h1, _, _⟩ := truth_pure sel hs
  unfold extraction
  simp only
  rw [h1]
  cases hE : sel.edits.isEmpty with
  | true =>
    simp only [Edits.isEmpty, Bool.and_eq_true, List.isEmpty_iff] at hE
    obtain ⟨⟨⟨⟨⟨e1, e2⟩, e3⟩, e4⟩, e5⟩, e6⟩ := hE
    simp only [Bool.not_true, Bool.not_false, if_true, wantedField, e1, e3, e4, e5, List.map_nil, List.not_mem_nil, or_self, if_false]
    rw [get?_map_x]
    cases C.fields.get? k <;> rfl
  | false =>
    simp only [Bool.not_false, Bool.not_true, Bool.false_eq_true, if_false]
    rw [foldl_erase (fun kv : String × W.Obj => kv.1), foldl_set_mock (fun od : String × String => od.1),
      foldl_set_mock (fun od : String × String => od.1), foldl_remove_mock, get?_map_x]
    · unfold wantedField
      have hh : C.fields.has k = (C.fields.get? k).isSome := rfl
      show (if k ∈ sel.edits.add.map (·.1) then none else if k ∈ sel.edits.maybeRename.map (·.1) then _ else
        if k ∈ sel.edits.rename.map (·.1) then _ else if k ∈ sel.edits.remove ∧ _ then _ else _) = _
      by_cases a1 : k ∈ sel.edits.add.map (·.1)
      · simp only [a1, if_true]
      · simp only [a1, if_false]
        by_cases a2 : k ∈ sel.edits.maybeRename.map (·.1)
        · simp only [a2, if_true, or_true]
        · simp only [a2, if_false, or_false]
          by_cases a3 : k ∈ sel.edits.rename.map (·.1)
          · simp only [a3, if_true]
          · simp only [a3, if_false, hh]
            cases C.fields.get? k with
            | some f => simp
            | none => simp
    · have h0 := XOK.base wf
      exact (XOK.foldl (fun x a h => h.set _) _ (XOK.foldl (fun x a h => h.set _) _
        (XOK.foldl (fun x a h => by split; exact h; exact h.set _) _ h0))).1

theorem extraction_missing (C : RecClass W) (sel : Sel W.Obj) (hs : sel.Pure) (k : String) :
    k ∈ (extraction C sel).1 ↔ MayMiss C sel.edits k := by
  obtain ⟨h1, _, _⟩ := truth_pure sel hs
  unfold extraction MayMiss
  simp only
  rw [h1]
  cases hE : sel.edits.isEmpty with
  | true =>
    simp only [Edits.isEmpty, Bool.and_eq_true, List.isEmpty_iff] at hE
    obtain ⟨⟨⟨⟨⟨e1, e2⟩, e3⟩, e4⟩, e5⟩, e6⟩ := hE
    simp [e3, e4]
  | false =>
    simp only [Bool.not_false, Bool.not_true, Bool.false_eq_true, if_false, List.mem_append]
    unfold Sel.edits
    simp only [or_assoc]

/-- the value is the plain default -/
def XField.isPlainDefault (f : XField W) (v : W.Obj) : Prop := ∃ d, f.default = some (.value d) ∧ W.eq d v = true

theorem exportValue_x (f : XField W) (v : W.Obj) : exportValue {} f v = true ↔ ¬ f.isPlainDefault v := by
  unfold exportValue XField.isPlainDefault
  cases hd : f.default with
  | none => simp
  | some d => cases d with
    | value d => simp [Deflt.isDefault]
    | factory g => simp [Deflt.isDefault]

theorem exportTuples_reads {v : Carrier W} {val : String → Option W.Obj} (hv : Reads v val) (mok : List String)
    (fs : List (XField W)) (s : LState W) :
    ((∀ f ∈ fs, val f.name = none → f.name ∈ mok) →
      ∃ l, exportTuples v {} mok fs s = (.ok l, s) ∧
        ∀ k x, (k, x) ∈ l ↔ ∃ f ∈ fs, f.name = k ∧ val k = some x ∧ ¬ f.isPlainDefault x) ∧
    ((∃ f ∈ fs, val f.name = none ∧ f.name ∉ mok) →
      ∃ e : Exc, e.kind = .attributeError ∧ exportTuples v {} mok fs s = (.error e, s)) := by
  induction fs with
  | nil => exact ⟨fun _ => ⟨[], rfl, by simp⟩, by rintro ⟨f, hf, _⟩; cases hf⟩
  | cons f fs ih =>
    have he : exportField ({} : ExportOpts) f = .ok true := by simp [exportField]
    unfold exportTuples
    simp only [he]
    have hf := hv f.name
    cases hval : val f.name with
    | some x =>
      rw [hval] at hf
      simp only at hf
      rw [hf s]
      simp only
      constructor
      · intro h
        obtain ⟨l, hl, hm⟩ := ih.1 fun g hg => h g (by simp [hg])
        by_cases hx : exportValue {} f x = true
        · rw [if_pos hx, M.bind_ok hl]
          refine ⟨_, rfl, ?_⟩
          intro k y
          simp only [List.mem_cons, hm, Prod.mk.injEq]
          constructor
          · rintro (⟨rfl, rfl⟩ | ⟨g, hg, h⟩)
            · exact ⟨f, .inl rfl, rfl, hval, (exportValue_x _ _).1 hx⟩
            · exact ⟨g, .inr hg, h⟩
          · rintro ⟨g, rfl | hg, h1, h2, h3⟩
            · subst h1
              rw [hval] at h2
              cases h2
              exact .inl ⟨rfl, rfl⟩
            · exact .inr ⟨g, hg, h1, h2, h3⟩
        · rw [if_neg hx, hl]
          refine ⟨_, rfl, ?_⟩
          intro k y
          rw [hm]
          constructor
          · rintro ⟨g, hg, h⟩; exact ⟨g, by simp [hg], h⟩
          · rintro ⟨g, hg, h1, h2, h3⟩
            cases hg with
            | head =>
              subst h1
              rw [hval] at h2
              cases h2
              exact absurd ((exportValue_x _ _).2 h3) hx
            | tail _ hg => exact ⟨g, hg, h1, h2, h3⟩
      · rintro ⟨g, hg, h1, h2⟩
        have : ∃ f ∈ fs, val f.name = none ∧ f.name ∉ mok := by
          cases hg with
          | head => rw [hval] at h1; cases h1
          | tail _ hg => exact ⟨g, hg, h1, h2⟩
        obtain ⟨e, hk, hl⟩ := ih.2 this
        refine ⟨e, hk, ?_⟩
        split
        · rw [M.bind_error hl]
        · exact hl
    | none =>
      rw [hval] at hf
      obtain ⟨e, hk, hf⟩ := hf
      rw [hf s]
      simp only [hk, ne_eq, not_true, if_false]
      constructor
      · intro h
        have h0 := h f (by simp) hval
        rw [if_neg (by simpa using h0)]
        obtain ⟨l, hl, hm⟩ := ih.1 fun g hg => h g (by simp [hg])
        refine ⟨l, hl, ?_⟩
        intro k y
        rw [hm]
        constructor
        · rintro ⟨g, hg, h⟩; exact ⟨g, by simp [hg], h⟩
        · rintro ⟨g, hg, h1, h2, h3⟩
          cases hg with
          | head => subst h1; rw [hval] at h2; cases h2
          | tail _ hg => exact ⟨g, hg, h1, h2, h3⟩
      · rintro ⟨g, hg, h1, h2⟩
        by_cases h0 : f.name ∈ mok
        · rw [if_neg (by simpa using h0)]
          have : ∃ f ∈ fs, val f.name = none ∧ f.name ∉ mok := by
            cases hg with
            | head => exact absurd h0 h2
            | tail _ hg => exact ⟨g, hg, h1, h2⟩
          exact ih.2 this
        · rw [if_pos h0]
          exact ⟨e, hk, rfl⟩

theorem wantedField_some {C : RecClass W} (e : Edits W.Obj) (k : String) :
    (∃ f, wantedField C e k = some f) ↔ Wanted C e k := by
  unfold wantedField Wanted
  have hf : k ∈ C.fields.map (·.1) ↔ (C.fields.get? k).isSome = true := (Dict.get?_isSome_iff _ _).symm
  rw [hf]
  by_cases a1 : k ∈ e.add.map (·.1)
  · simp only [a1, if_true]; simp
  · by_cases a2 : k ∈ e.rename.map (·.1) ∨ k ∈ e.maybeRename.map (·.1)
    · simp only [a1, a2, if_true, if_false]
      rcases a2 with h | h <;> simp [h]
    · simp only [a1, a2, if_true, if_false]
      have b := not_or.1 a2
      cases C.fields.get? k with
      | some f => simp
      | none => by_cases a3 : k ∈ e.remove <;> simp [a3, b.1, b.2]

theorem wantedField_taken {C : RecClass W} (wf : C.WF) (e : Edits W.Obj) (k : String) (x : W.Obj) :
    (∃ f, wantedField C e k = some f ∧ ¬ f.isPlainDefault x) ↔ Taken C e k x := by
  have hmock : ¬ (mockField k : XField W).isPlainDefault x := by rintro ⟨d, h, _⟩; cases h
  unfold Taken
  rw [← wantedField_some]
  unfold wantedField
  by_cases a1 : k ∈ e.add.map (·.1)
  · simp only [a1, if_true]; simp
  · by_cases a2 : k ∈ e.rename.map (·.1) ∨ k ∈ e.maybeRename.map (·.1)
    · simp only [a1, a2, if_true, if_false]
      constructor
      · intro _
        refine ⟨⟨_, rfl⟩, ?_⟩
        rcases a2 with h | h
        · exact .inl h
        · exact .inr (.inl h)
      · intro _; exact ⟨_, rfl, hmock⟩
    · simp only [a1, a2, if_true, if_false]
      have b := not_or.1 a2
      have hmem : ∀ f, (k, f) ∈ C.fields ↔ C.fields.get? k = some f := fun f => (Dict.get?_iff_mem _ wf.nodup _ _).symm
      simp only [b.1, b.2, false_or, hmem]
      cases C.fields.get? k with
      | some f =>
        simp only [Option.some.injEq]
        constructor
        · rintro ⟨g, rfl, h⟩
          exact ⟨⟨_, rfl⟩, by rintro ⟨f', rfl, h'⟩; exact h h'⟩
        · rintro ⟨_, h⟩
          exact ⟨_, rfl, fun h' => h ⟨f, rfl, h'⟩⟩
      | none =>
        by_cases a3 : k ∈ e.remove
        · simp [a3, hmock]
        · simp [a3]

/-- `to_dict` of an object for `from_instance` -/
theorem toDict_reads {C : RecClass W} (wf : C.WF) {v : Carrier W} {val : String → Option W.Obj} (hv : Reads v val)
    (sel : Sel W.Obj) (hs : sel.Pure) (s : LState W) :
    ((∀ k, Wanted C sel.edits k → val k = none → MayMiss C sel.edits k) →
      ∃ d, toDict C v {} sel s = (.ok d, s) ∧ d.WF ∧ d.get? = takenMap C sel.edits val) ∧
    ((∃ k, Wanted C sel.edits k ∧ val k = none ∧ ¬ MayMiss C sel.edits k) →
      ∃ e : Exc, e.kind = .attributeError ∧ toDict C v {} sel s = (.error e, s)) := by
  have hx := extraction_ok wf sel
  have hmem : ∀ f, f ∈ (extraction C sel).2.values ↔ wantedField C sel.edits f.name = some f := by
    intro f
    rw [← extraction_fields wf sel hs]
    constructor
    · intro h
      obtain ⟨⟨k, f⟩, hm, rfl⟩ := List.mem_map.1 h
      have := hx.2 _ hm
      simp only at this ⊢
      rw [this]
      exact Dict.mem_get? _ hx.1 _ _ hm
    · intro h
      exact List.mem_map.2 ⟨_, Dict.get?_eq_some_mem _ _ _ h, rfl⟩
  have hname : ∀ k f, wantedField C sel.edits k = some f → f.name = k := by
    intro k f h
    rw [← extraction_fields wf sel hs] at h
    exact hx.2 _ (Dict.get?_eq_some_mem _ _ _ h)
  obtain ⟨h1, h2⟩ := exportTuples_reads hv (extraction C sel).1 (extraction C sel).2.values s
  constructor
  · intro h
    obtain ⟨l, hl, hm⟩ := h1 (by
      intro f hf hn
      rw [extraction_missing C sel hs]
      exact h _ ((wantedField_some _ _).1 ⟨f, (hmem f).1 hf⟩) hn)
    obtain ⟨t1, t2⟩ := (toDict_eq wf v {} sel s).1 l s hl
    refine ⟨_, t1, t2, ?_⟩
    funext k
    unfold takenMap
    have key : ∀ x, Dict.get? (sortEntries ({} : ExportOpts).sort l) k = some x ↔ val k = some x ∧ Taken C sel.edits k x := by
      intro x
      rw [Dict.get?_iff_mem _ t2, (sortEntries_perm _ l).mem_iff, hm]
      rw [← wantedField_taken wf]
      constructor
      · rintro ⟨f, hf, rfl, hvx, hd⟩; exact ⟨hvx, f, (hmem f).1 hf, hd⟩
      · rintro ⟨hvx, f, hf, hd⟩
        have := hname _ _ hf
        exact ⟨f, (hmem f).2 (by rw [this]; exact hf), this, hvx, hd⟩
    cases hg : Dict.get? (sortEntries ({} : ExportOpts).sort l) k with
    | some x =>
      obtain ⟨a, b⟩ := (key x).1 hg
      rw [a]
      simp only [b, if_true]
    | none =>
      cases hval : val k with
      | none => rfl
      | some x =>
        simp only
        rw [if_neg]
        intro ht
        have := (key x).2 ⟨hval, ht⟩
        rw [hg] at this
        cases this
  · rintro ⟨k, hk, hn, hmm⟩
    obtain ⟨f, hf⟩ := (wantedField_some _ _).2 hk
    have hfn := hname _ _ hf
    obtain ⟨e, he, hl⟩ := h2 ⟨f, (hmem f).2 (by rw [hfn]; exact hf), by rw [hfn]; exact hn, by
      rw [hfn, extraction_missing C sel hs]; exact hmm⟩
    exact ⟨e, he, by rw [(toDict_eq wf v {} sel s).2 e s hl, Exc.leaving_of_ne (by rw [he]; nofun)]⟩

end Records
