import Verif.Spec.Export
import Verif.Spec.Class
import Verif.Proofs.Class
import Verif.Proofs.Monad
set_option linter.unusedSimpArgs false
/-
Lemmas about exporting.
-/
namespace Records
variable {W : World}

/-- every entry of the extraction dictionary is named by its key -/
def XOK (x : Dict (XField W)) : Prop := x.WF ∧ ∀ kf ∈ x, kf.2.name = kf.1

theorem XOK.set {x : Dict (XField W)} (h : XOK x) (k : String) : XOK (x.set k (mockField k)) := by
  refine ⟨h.1.set _ _, ?_⟩
  rintro ⟨k', f⟩ hm
  have := Dict.mem_get? _ (h.1.set k (mockField k)) _ _ hm
  rw [Dict.get?_set] at this
  by_cases hk : k' = k
  · subst hk
    simp only [if_true, Option.some.injEq] at this
    rw [← this]; rfl
  · simp only [hk, if_false] at this
    exact h.2 _ (Dict.get?_eq_some_mem _ _ _ this)

theorem XOK.erase {x : Dict (XField W)} (h : XOK x) (k : String) : XOK (x.erase k) := by
  refine ⟨h.1.erase _, ?_⟩
  intro kf hm
  rw [Dict.erase_eq_filter _ h.1] at hm
  exact h.2 _ ((List.mem_filter.1 hm).1)

theorem XOK.foldl {α : Type} {step : Dict (XField W) → α → Dict (XField W)} (hs : ∀ x a, XOK x → XOK (step x a))
    (l : List α) {x : Dict (XField W)} (h : XOK x) : XOK (l.foldl step x) := by
  induction l generalizing x with
  | nil => exact h
  | cons a l ih => exact ih (hs x a h)

theorem XOK.base {C : RecClass W} (wf : C.WF) : XOK (C.fields.map fun kf => (kf.1, kf.2.x)) := by
  refine ⟨?_, ?_⟩
  · have : Dict.keys (C.fields.map fun kf => (kf.1, kf.2.x)) = C.fields.keys := by simp [Dict.keys]
    unfold Dict.WF
    rw [this]
    exact wf.nodup
  · intro kf hm
    obtain ⟨⟨k, f⟩, hf, rfl⟩ := List.mem_map.1 hm
    exact wf.named k f (Dict.mem_get? _ wf.nodup _ _ hf)

theorem extraction_ok {C : RecClass W} (wf : C.WF) (sel : Sel W.Obj) : XOK (extraction C sel).2 := by
  unfold extraction
  simp only
  split
  · exact XOK.base wf
  · refine XOK.foldl (fun x a h => h.erase _) _ (XOK.foldl (fun x a h => h.set _) _ (XOK.foldl (fun x a h => h.set _) _
      (XOK.foldl (fun x a h => ?_) _ (XOK.base wf))))
    split
    · exact h
    · exact h.set _

theorem exportTuples_names {obj : Carrier W} {o : ExportOpts} {mok : List String} {fs : List (XField W)} {s s' : LState W}
    {l : List (String × W.Obj)} (h : exportTuples obj o mok fs s = (.ok l, s')) :
    (l.map (·.1)).Sublist (fs.map (·.name)) := by
  induction fs generalizing s s' l with
  | nil => cases h; exact .slnil
  | cons f fs ih =>
    unfold exportTuples at h
    simp only [List.map_cons]
    split at h
    · cases h
    · exact (ih h).cons _
    · split at h
      · split at h
        · obtain ⟨l', s1, h1, h2⟩ := M.bind_eq_ok h
          cases h2
          exact (ih h1).cons_cons _
        · exact (ih h).cons _
      · split at h
        · cases h
        · split at h
          · cases h
          · split at h
            · obtain ⟨v, s1, h1, h2⟩ := M.bind_eq_ok h
              obtain ⟨l', s2, h3, h4⟩ := M.bind_eq_ok h2
              cases h4
              exact (ih h3).cons_cons _
            · exact (ih h).cons _

theorem XOK.names {x : Dict (XField W)} (h : XOK x) : x.values.map (·.name) = x.keys := by
  unfold Dict.values Dict.keys
  rw [List.map_map]
  apply List.map_congr_left
  intro kf hm
  exact h.2 kf hm

theorem sortEntries_perm (srt : SortArg) (l : List (String × W.Obj)) : (sortEntries srt l).Perm l := by
  cases srt with
  | no => exact .refl _
  | desc => exact List.mergeSort_perm _ _
  | key le => exact List.mergeSort_perm _ _
  | asc => exact List.mergeSort_perm _ _

theorem update_nil_eq {V : Type} {d : Dict V} (h : d.WF) : Dict.update [] d = d := by
  rw [Dict.update_of_disjoint _ _ h (by simp)]; rfl

/-- what `toDict` does: extract, then sort -/
theorem toDict_eq {C : RecClass W} (wf : C.WF) (obj : Carrier W) (o : ExportOpts) (sel : Sel W.Obj) (s : LState W) :
    (∀ l s', exportTuples obj o (extraction C sel).1 (extraction C sel).2.values s = (.ok l, s') →
      toDict C obj o sel s = (.ok (sortEntries o.sort l), s') ∧ Dict.WF (sortEntries o.sort l)) ∧
    (∀ e s', exportTuples obj o (extraction C sel).1 (extraction C sel).2.values s = (.error e, s') →
      toDict C obj o sel s = (.error e.leaving, s')) := by
  refine ⟨fun l s' h => ?_, fun e s' h => ?_⟩
  · have hx := extraction_ok wf sel
    have hwf : Dict.WF (sortEntries o.sort l) := by
      unfold Dict.WF
      have hs := exportTuples_names h
      rw [hx.names] at hs
      exact ((sortEntries_perm o.sort l).map _).nodup_iff.2 (hs.nodup hx.1)
    refine ⟨?_, hwf⟩
    unfold toDict
    simp only
    rw [M.bind_ok (M.generator_ok h), update_nil_eq hwf]
    rfl
  · unfold toDict
    simp only
    rw [M.bind_error (M.generator_error h)]

theorem exportField_tags {o : ExportOpts} {l : List Nat} (ho : o.blacklist = .tags l) (f : XField W) :
    exportField o f = .ok (decide (f.name ∈ o.whitelist ∨ ∀ t ∈ f.tags, t ∉ l)) := by
  unfold exportField
  rw [ho]
  by_cases h : f.name ∈ o.whitelist
  · simp [h]
  · simp only [h, if_false, false_or]
    congr 1
    rw [Bool.eq_iff_iff]
    simp [List.any_eq_true]

theorem exportValue_iff {o : ExportOpts} (f : Field W) (v : W.Obj) :
    exportValue o f.x v = true ↔ f.name ∈ o.whitelist ∨ o.includeDefaults = true ∨ ¬ f.isPlainDefault v := by
  unfold exportValue Field.x Field.isPlainDefault
  simp only [Bool.or_eq_true, decide_eq_true_eq, Bool.not_eq_true']
  rw [or_assoc]
  refine or_congr_right (or_congr_right ?_)
  cases hd : f.default with
  | none => simp
  | some d => cases d with
    | value d => simp [Deflt.isDefault]
    | factory g => simp [Deflt.isDefault]

/-- extraction from an object whose attributes can be read without effect -/
theorem exportTuples_pure {obj : Carrier W} {o : ExportOpts} {black : List Nat} (ho : o.blacklist = .tags black)
    {mok : List String} {fs : List (Field W)} {val : String → W.Obj} {s : LState W}
    (ha : ∀ f ∈ fs, obj.attr f.name s = (.ok (val f.name), s)) :
    ∃ l, exportTuples obj o mok (fs.map Field.x) s = (.ok l, s) ∧
      (∀ k v, (k, v) ∈ l ↔ ∃ f ∈ fs, f.name = k ∧ v = val k ∧ Exported o.includeDefaults black o.whitelist f v) := by
  induction fs with
  | nil => exact ⟨[], rfl, by simp⟩
  | cons f fs ih =>
    obtain ⟨l, hl, hm⟩ := ih fun g hg => ha g (by simp [hg])
    have hf := ha f (by simp)
    simp only [List.map_cons]
    have he := exportField_tags (W := W) ho f.x
    by_cases hx : Exported o.includeDefaults black o.whitelist f (val f.name)
    · refine ⟨(f.name, val f.name) :: l, ?_, ?_⟩
      · unfold exportTuples
        have h1 : decide (f.x.name ∈ o.whitelist ∨ ∀ t ∈ f.x.tags, t ∉ black) = true := by
          rw [decide_eq_true_eq]
          rcases hx with h | ⟨h, _⟩
          · exact .inl h
          · exact .inr h
        rw [he, h1]
        simp only
        have hf' : obj.attr f.x.name s = _ := hf
        rw [hf']
        simp only
        rw [if_pos]
        · rw [M.bind_ok hl]; rfl
        · rw [exportValue_iff]
          rcases hx with h | ⟨_, h⟩
          · exact .inl h
          · exact .inr h
      · intro k v
        simp only [List.mem_cons, hm, Prod.mk.injEq]
        constructor
        · rintro (⟨rfl, rfl⟩ | ⟨g, hg, h⟩)
          · exact ⟨f, .inl rfl, rfl, rfl, hx⟩
          · exact ⟨g, .inr hg, h⟩
        · rintro ⟨g, rfl | hg, h1, h2, h3⟩
          · subst h1; exact .inl ⟨rfl, h2⟩
          · exact .inr ⟨g, hg, h1, h2, h3⟩
    · refine ⟨l, ?_, ?_⟩
      · unfold exportTuples
        rw [he]
        by_cases h1 : f.x.name ∈ o.whitelist ∨ ∀ t ∈ f.x.tags, t ∉ black
        · rw [decide_eq_true h1]
          simp only
          have hf' : obj.attr f.x.name s = _ := hf
          rw [hf']
          simp only
          rw [if_neg]
          · exact hl
          · rw [exportValue_iff]
            rintro (h | h)
            · exact hx (.inl h)
            · rcases h1 with h1 | h1
              · exact hx (.inl h1)
              · exact hx (.inr ⟨h1, h⟩)
        · rw [decide_eq_false h1]
          exact hl
      · intro k v
        simp only [List.mem_cons, hm]
        constructor
        · rintro ⟨g, hg, h⟩; exact ⟨g, .inr hg, h⟩
        · rintro ⟨g, rfl | hg, h1, h2, h3⟩
          · subst h1 h2; exact absurd h3 hx
          · exact ⟨g, hg, h1, h2, h3⟩

theorem truth_empty : (Sel.empty : Sel W.Obj).truth.1 = false := rfl

theorem extraction_empty (C : RecClass W) :
    extraction C Sel.empty = (C.optional, C.fields.map fun kf => (kf.1, kf.2.x)) := rfl

theorem extraction_empty_values (C : RecClass W) :
    (extraction C Sel.empty).2.values = (C.fields.map (·.2)).map Field.x := by
  rw [extraction_empty]
  simp [Dict.values]

end Records
