import Verif.Proofs.Export
import Verif.Proofs.ClassMore
import Verif.Spec.ToyEnv
set_option linter.unusedSimpArgs false
/-
C75, C76: exporting.
-/
namespace Records
variable {W : World}

theorem toDict_pure {C : RecClass W} (wf : C.WF) {obj : Carrier W} {o : ExportOpts} {black : List Nat}
    (ho : o.blacklist = .tags black) {val : String → W.Obj} {s : LState W}
    (ha : ∀ k f, (k, f) ∈ C.fields → obj.attr k s = (.ok (val k), s)) :
    ∃ d, toDict C obj o Sel.empty s = (.ok d, s) ∧ (d.map (·.1)).Nodup ∧
      (∀ k v, (k, v) ∈ d ↔ ∃ f, (k, f) ∈ C.fields ∧ v = val k ∧ Exported o.includeDefaults black o.whitelist f v) ∧
      (o.sort = .no → (d.map (·.1)).Sublist (C.fields.map (·.1))) := by
  have hname : ∀ k f, (k, f) ∈ C.fields → f.name = k := fun k f h => wf.named k f (Dict.mem_get? _ wf.nodup _ _ h)
  obtain ⟨l, hl, hm⟩ := exportTuples_pure (W := W) ho (mok := C.optional) (fs := C.fields.map (·.2)) (val := val) (s := s)
    (obj := obj) (by
      intro f hf
      obtain ⟨⟨k, f⟩, hkf, rfl⟩ := List.mem_map.1 hf
      have := ha k f hkf
      rw [← hname k f hkf] at this
      exact this)
  have hl' : exportTuples obj o (extraction C Sel.empty).1 (extraction C Sel.empty).2.values s = (.ok l, s) := by
    rw [extraction_empty_values]; exact hl
  obtain ⟨h1, h2⟩ := (toDict_eq wf obj o Sel.empty s).1 l s hl'
  refine ⟨_, h1, h2, ?_, ?_⟩
  · intro k v
    rw [(sortEntries_perm o.sort l).mem_iff, hm]
    constructor
    · rintro ⟨f, hf, rfl, rfl, hx⟩
      obtain ⟨⟨k, f⟩, hkf, rfl⟩ := List.mem_map.1 hf
      exact ⟨f, by rw [hname k f hkf]; exact hkf, rfl, hx⟩
    · rintro ⟨f, hf, rfl, hx⟩
      exact ⟨f, List.mem_map.2 ⟨_, hf, rfl⟩, hname k f hf, rfl, hx⟩
  · intro hs
    rw [hs]
    have := exportTuples_names hl'
    rw [(extraction_ok wf Sel.empty).names, extraction_empty] at this
    have e : Dict.keys (C.fields.map fun kf => (kf.1, kf.2.x)) = C.fields.map (·.1) := by
      unfold Dict.keys; rw [List.map_map]; rfl
    rw [e] at this
    exact this

/-- the attributes of an instance that has all fields -/
theorem inst_attr {E : Env W} {i : Inst W} {k : String} {v : W.Obj} (h : i.dict.get? k = some v) (s : LState W) :
    (Carrier.ofInst E i).attr k s = (.ok v, s) := by
  show M.ofExcept (i.attr E k) s = _
  unfold Inst.attr
  rw [h]
  rfl

/-- C75: `to_dict` of a record (all of whose fields are set) contains exactly the fields that are whitelisted, or carry no blacklisted tag and
are not equal to a plain default (unless defaults are included); with their values; each once; in field order when unsorted. -/
theorem C75_to_dict {E : Env W} {C : RecClass W} (hC : Creatable C) {i : Inst W}
    (hi : ∀ k ∈ C.fields.map (·.1), k ∈ i.dict.map (·.1)) {o : ExportOpts} {black : List Nat} (ho : o.blacklist = .tags black)
    (s : LState W) :
    ∃ d, toDict C (.ofInst E i) o Sel.empty s = (.ok d, s) ∧ (d.map (·.1)).Nodup ∧
      (∀ k v, (k, v) ∈ d ↔ ∃ f, (k, f) ∈ C.fields ∧ i.dict.get? k = some v ∧
        Exported o.includeDefaults black o.whitelist f v) ∧
      (o.sort = .no → (d.map (·.1)).Sublist (C.fields.map (·.1))) := by
  have wf := hC.wf
  have hget : ∀ k f, (k, f) ∈ C.fields → ∃ v, i.dict.get? k = some v := fun k f h =>
    Option.isSome_iff_exists.1 ((Dict.get?_isSome_iff _ _).2 (hi k (List.mem_map.2 ⟨_, h, rfl⟩)))
  cases hne : C.fields with
  | nil => exact absurd hne wf.ne
  | cons kf0 rest =>
    obtain ⟨v0, hv0⟩ := hget kf0.1 kf0.2 (by rw [hne]; exact .head _)
    rw [← hne]
    have hval : ∀ k f, (k, f) ∈ C.fields → i.dict.get? k = some ((i.dict.get? k).getD v0) := by
      intro k f h
      obtain ⟨v, hv⟩ := hget k f h
      rw [hv]; rfl
    obtain ⟨d, h1, h2, h3, h4⟩ := toDict_pure wf ho (obj := .ofInst E i) (val := fun k => (i.dict.get? k).getD v0) (s := s)
      (fun k f h => inst_attr (hval k f h) s)
    refine ⟨d, h1, h2, ?_, h4⟩
    intro k v
    rw [h3]
    constructor
    · rintro ⟨f, hf, rfl, hx⟩; exact ⟨f, hf, hval k f hf, hx⟩
    · rintro ⟨f, hf, hv, hx⟩
      refine ⟨f, hf, ?_, hx⟩
      rw [hv]; rfl

theorem exportTuples_container {obj : Carrier W} {o : ExportOpts} (ho : o.blacklist = .otherContainer) {mok : List String}
    {fs : List (Field W)} {val : String → W.Obj} {s : LState W} (ha : ∀ f ∈ fs, obj.attr f.name s = (.ok (val f.name), s))
    (h : ∃ f ∈ fs, f.name ∉ o.whitelist) : exportTuples obj o mok (fs.map Field.x) s = (.error .typeError, s) := by
  induction fs with
  | nil => obtain ⟨_, h, _⟩ := h; cases h
  | cons f fs ih =>
    simp only [List.map_cons]
    unfold exportTuples
    by_cases hf : f.x.name ∈ o.whitelist
    · have he : exportField o f.x = .ok true := by unfold exportField; rw [if_pos hf]
      have hrec : ∃ f ∈ fs, f.name ∉ o.whitelist := by
        obtain ⟨g, hg, hn⟩ := h
        cases hg with
        | head => exact absurd hf hn
        | tail _ hg => exact ⟨g, hg, hn⟩
      have hfa : obj.attr f.x.name s = _ := ha f (by simp)
      have ihr := ih (fun g hg => ha g (by simp [hg])) hrec
      rw [he]
      simp only
      rw [hfa]
      simp only
      rw [if_pos ((exportValue_iff f _).2 (.inl hf)), M.bind_error ihr]
    · have he : exportField o f.x = .error .typeError := by unfold exportField; rw [if_neg hf, ho]
      rw [he]

/-- C75: a blacklist that is neither a tag nor a set of tags raises TypeError (unless every field is whitelisted), although any container is
documented. -/
theorem C75_blacklist_container {E : Env W} {C : RecClass W} (hC : Creatable C) {i : Inst W}
    (hi : ∀ k ∈ C.fields.map (·.1), k ∈ i.dict.map (·.1)) {o : ExportOpts} (ho : o.blacklist = .otherContainer)
    (hw : ∃ k ∈ C.fields.map (·.1), k ∉ o.whitelist) (s : LState W) :
    toDict C (.ofInst E i) o Sel.empty s = (.error .typeError, s) := by
  have wf := hC.wf
  have hname : ∀ k f, (k, f) ∈ C.fields → f.name = k := fun k f h => wf.named k f (Dict.mem_get? _ wf.nodup _ _ h)
  obtain ⟨k0, hk0, hn0⟩ := hw
  obtain ⟨v0, hv0⟩ := Option.isSome_iff_exists.1 ((Dict.get?_isSome_iff _ _).2 (hi k0 hk0))
  refine (toDict_eq wf _ o Sel.empty s).2 .typeError _ ?_
  rw [extraction_empty_values]
  refine exportTuples_container (val := fun k => (i.dict.get? k).getD v0) ho ?_ ?_
  · intro f hf
    obtain ⟨⟨k, f⟩, hkf, rfl⟩ := List.mem_map.1 hf
    obtain ⟨v, hv⟩ := Option.isSome_iff_exists.1 ((Dict.get?_isSome_iff _ _).2 (hi k (List.mem_map.2 ⟨_, hkf, rfl⟩)))
    rw [← hname k f hkf] at hv
    show (Carrier.ofInst E i).attr f.name s = (.ok ((i.dict.get? f.name).getD v0), s)
    rw [hv]
    exact inst_attr hv s
  · obtain ⟨⟨k, f⟩, hf, rfl⟩ := List.mem_map.1 hk0
    exact ⟨f, List.mem_map.2 ⟨_, hf, rfl⟩, by rw [hname k f hf]; exact hn0⟩

/-- exporting stops at the first attribute whose error is not forgiven -/
theorem exportTuples_raises {obj : Carrier W} {o : ExportOpts} {mok : List String} {pre post : List (Field W)} {f : Field W}
    {val : String → W.Obj} {s s' : LState W} {e : Exc} (ha : ∀ g ∈ pre, obj.attr g.name s = (.ok (val g.name), s))
    (hp : ∀ g ∈ pre, ∃ b, exportField o g.x = .ok b) (hf : exportField o f.x = .ok true) (he : obj.attr f.name s = (.error e, s'))
    (hk : e.kind ≠ .attributeError ∨ f.name ∉ mok) :
    exportTuples obj o mok ((pre ++ f :: post).map Field.x) s = (.error e, s') := by
  induction pre with
  | nil =>
    simp only [List.nil_append, List.map_cons]
    unfold exportTuples
    have he' : obj.attr f.x.name s = _ := he
    rw [hf]
    simp only
    rw [he']
    simp only
    by_cases h : e.kind = .attributeError
    · rcases hk with hk | hk
      · exact absurd h hk
      · have hk' : f.x.name ∉ mok := hk
        rw [if_neg (by simp [h]), if_pos hk']
    · rw [if_pos h]
  | cons g pre ih =>
    have ih' := ih (fun g hg => ha g (by simp [hg])) (fun g hg => hp g (by simp [hg]))
    have hg : obj.attr g.x.name s = _ := ha g (by simp)
    simp only [List.cons_append, List.map_cons]
    unfold exportTuples
    obtain ⟨b, hb⟩ := hp g (by simp)
    rw [hb]
    cases b with
    | false => exact ih'
    | true =>
      simp only
      rw [hg]
      simp only
      split
      · exact M.bind_error ih'
      · exact ih'

/-- C75: if reading the attribute of a field (that is not blacklisted) raises an exception that is not an AttributeError, or the field is
required, that exception leaves `to_dict` (RuntimeError if it is StopIteration). -/
theorem C75_attribute_error {C : RecClass W} (hC : Creatable C) {obj : Carrier W} {o : ExportOpts} {black : List Nat}
    (ho : o.blacklist = .tags black) {pre post : Dict (Field W)} {k : String} {f : Field W} (hsplit : C.fields = pre ++ (k, f) :: post)
    {val : String → W.Obj} {s s' : LState W} {e : Exc} (ha : ∀ j g, (j, g) ∈ pre → obj.attr j s = (.ok (val j), s))
    (hb : k ∈ o.whitelist ∨ ∀ t ∈ f.tags, t ∉ black) (he : obj.attr k s = (.error e, s'))
    (hk : e.kind ≠ .attributeError ∨ k ∈ C.required) :
    (e.kind ≠ .stopIteration → toDict C obj o Sel.empty s = (.error e, s')) ∧
    (e.kind = .stopIteration → toDict C obj o Sel.empty s = (.error .runtimeError, s')) := by
  have wf := hC.wf
  have hname : ∀ k f, (k, f) ∈ C.fields → f.name = k := fun k f h => wf.named k f (Dict.mem_get? _ wf.nodup _ _ h)
  have hf : f.name = k := hname k f (by rw [hsplit]; simp)
  suffices h : toDict C obj o Sel.empty s = (.error e.leaving, s') from
    ⟨fun hs => by rw [h, Exc.leaving_of_ne hs], fun hs => by rw [h, Exc.leaving_stop hs]⟩
  refine (toDict_eq wf _ o Sel.empty s).2 _ _ ?_
  rw [extraction_empty_values, hsplit, List.map_append, List.map_cons]
  refine exportTuples_raises (val := val) ?_ ?_ ?_ (by rw [hf]; exact he) ?_
  · intro g hg
    obtain ⟨⟨j, g⟩, hjg, rfl⟩ := List.mem_map.1 hg
    rw [hname j g (by rw [hsplit]; exact List.mem_append_left _ hjg)]
    exact ha j g hjg
  · intro g _; exact ⟨_, exportField_tags ho _⟩
  · rw [exportField_tags ho]
    have : f.x.name ∈ o.whitelist ∨ ∀ t ∈ f.x.tags, t ∉ black := by
      show f.name ∈ _ ∨ _
      rw [hf]; exact hb
    simp only [this, decide_true]
  · refine hk.imp id fun h => ?_
    rw [hf]
    show k ∉ C.optional
    rw [wf.req] at h
    rw [wf.opt]
    rintro ⟨f1, d, hf1, hd⟩
    obtain ⟨f2, hf2, hd2⟩ := h
    rw [hf1] at hf2; cases hf2; rw [hd] at hd2; cases hd2

/-! ### C76 -/

theorem exportTuples_sort (obj : Carrier W) (o : ExportOpts) (srt : SortArg) (mok : List String) (fs : List (XField W)) :
    exportTuples obj { o with sort := srt } mok fs = exportTuples obj o mok fs := by
  induction fs with
  | nil => rfl
  | cons f fs ih =>
    funext s
    simp only [exportTuples, ih]
    rfl

/-- C76: sorting permutes the entries of the export, whatever the exported object, the other options and the selection; errors are the
same. -/
theorem C76_sort_permutes {C : RecClass W} (hC : Creatable C) (obj : Carrier W) (o : ExportOpts) (sel : Sel W.Obj) (srt : SortArg)
    (s : LState W) :
    (∀ d s', toDict C obj { o with sort := .no } sel s = (.ok d, s') →
      ∃ d', toDict C obj { o with sort := srt } sel s = (.ok d', s') ∧ d'.Perm d ∧ (d'.map (·.1)).Nodup) ∧
    (∀ e s', toDict C obj { o with sort := .no } sel s = (.error e, s') →
      toDict C obj { o with sort := srt } sel s = (.error e, s')) := by
  have wf := hC.wf
  rcases hx : exportTuples obj o (extraction C sel).1 (extraction C sel).2.values s with ⟨r, s1⟩
  have h1 : ∀ t, exportTuples obj { o with sort := t } (extraction C sel).1 (extraction C sel).2.values s = (r, s1) := fun t => by
    rw [exportTuples_sort, hx]
  cases r with
  | error e =>
    have e1 := (toDict_eq wf obj { o with sort := .no } sel s).2 e s1 (h1 _)
    have e2 := (toDict_eq wf obj { o with sort := srt } sel s).2 e s1 (h1 _)
    refine ⟨fun d s' h => ?_, fun e' s' h => ?_⟩
    · rw [e1] at h; cases h
    · rw [e1] at h; rw [e2]; exact h
  | ok l =>
    have e1 := (toDict_eq wf obj { o with sort := .no } sel s).1 l s1 (h1 _)
    have e2 := (toDict_eq wf obj { o with sort := srt } sel s).1 l s1 (h1 _)
    refine ⟨fun d s' h => ?_, fun e' s' h => ?_⟩
    · rw [e1.1] at h
      cases h
      exact ⟨_, e2.1, sortEntries_perm srt l, e2.2⟩
    · rw [e1.1] at h; cases h

theorem toDict_sorted {C : RecClass W} (hC : Creatable C) {obj : Carrier W} {o : ExportOpts} {sel : Sel W.Obj}
    {s s' : LState W} {d d0 : Dict W.Obj} (h : toDict C obj o sel s = (.ok d, s'))
    (h0 : toDict C obj { o with sort := .no } sel s = (.ok d0, s')) : d = sortEntries o.sort d0 := by
  have wf := hC.wf
  rcases hx : exportTuples obj o (extraction C sel).1 (extraction C sel).2.values s with ⟨r, s1⟩
  cases r with
  | error e => rw [(toDict_eq wf obj o sel s).2 e s1 hx] at h; cases h
  | ok l =>
    rw [((toDict_eq wf obj o sel s).1 l s1 hx).1] at h
    have hx0 : exportTuples obj { o with sort := .no } (extraction C sel).1 (extraction C sel).2.values s = (.ok l, s1) := by
      rw [exportTuples_sort, hx]
    rw [((toDict_eq wf obj { o with sort := .no } sel s).1 l s1 hx0).1] at h0
    cases h0
    cases h
    rfl

theorem unsorted_exists {C : RecClass W} (hC : Creatable C) {obj : Carrier W} {o : ExportOpts} {sel : Sel W.Obj}
    {s s' : LState W} {d : Dict W.Obj} (h : toDict C obj o sel s = (.ok d, s')) :
    ∃ d0, toDict C obj { o with sort := .no } sel s = (.ok d0, s') := by
  have := (C76_sort_permutes hC obj { o with sort := o.sort } sel o.sort s)
  rcases hx : toDict C obj { o with sort := .no } sel s with ⟨r, s1⟩
  cases r with
  | error e =>
    have := this.2 e s1 hx
    rw [show toDict C obj { o with sort := o.sort } sel s = toDict C obj o sel s from rfl, h] at this
    cases this
  | ok d0 =>
    obtain ⟨d', h', _⟩ := this.1 d0 s1 hx
    rw [show toDict C obj { o with sort := o.sort } sel s = toDict C obj o sel s from rfl, h] at h'
    cases h'
    exact ⟨d0, rfl⟩

/-- C76: `sort=True` orders the keys lexicographically. -/
theorem C76_ascending {C : RecClass W} (hC : Creatable C) {obj : Carrier W} {o : ExportOpts} (ho : o.sort = .asc) {sel : Sel W.Obj}
    {s s' : LState W} {d : Dict W.Obj} (h : toDict C obj o sel s = (.ok d, s')) : (d.map (·.1)).Pairwise (· ≤ ·) := by
  obtain ⟨d0, h0⟩ := unsorted_exists hC h
  rw [toDict_sorted hC h h0, ho, List.pairwise_map]
  refine (List.pairwise_mergeSort ?_ ?_ d0).imp fun h => of_decide_eq_true h
  · intro a b c h1 h2
    exact decide_eq_true (String.le_trans (of_decide_eq_true h1) (of_decide_eq_true h2))
  · intro a b
    rcases String.le_total a.1 b.1 with h | h <;> simp [h]

/-- C76: `sort=-1` orders them in reverse. -/
theorem C76_descending {C : RecClass W} (hC : Creatable C) {obj : Carrier W} {o : ExportOpts} (ho : o.sort = .desc) {sel : Sel W.Obj}
    {s s' : LState W} {d : Dict W.Obj} (h : toDict C obj o sel s = (.ok d, s')) : (d.map (·.1)).Pairwise (fun a b => b ≤ a) := by
  obtain ⟨d0, h0⟩ := unsorted_exists hC h
  rw [toDict_sorted hC h h0, ho, List.pairwise_map]
  refine (List.pairwise_mergeSort ?_ ?_ d0).imp fun h => of_decide_eq_true h
  · intro a b c h1 h2
    exact decide_eq_true (String.le_trans (of_decide_eq_true h2) (of_decide_eq_true h1))
  · intro a b
    rcases String.le_total a.1 b.1 with h | h <;> simp [h]

/-- C76: a key function (its keys compared by the total preorder `le`) orders by it, stably: entries with equal keys keep their field order. -/
theorem C76_key {C : RecClass W} (hC : Creatable C) {obj : Carrier W} {o : ExportOpts} {le : String → String → Bool}
    (ho : o.sort = .key le) (trans : ∀ a b c, le a b → le b c → le a c) (total : ∀ a b, le a b ∨ le b a) {sel : Sel W.Obj}
    {s s' : LState W} {d d0 : Dict W.Obj} (h : toDict C obj o sel s = (.ok d, s'))
    (h0 : toDict C obj { o with sort := .no } sel s = (.ok d0, s')) :
    (d.map (·.1)).Pairwise (fun a b => le a b) ∧
    ∀ a b, Before d0 a b → le a.1 b.1 → Before d a b := by
  rw [toDict_sorted hC h h0, ho, List.pairwise_map]
  have tr : ∀ a b c : String × W.Obj, le a.1 b.1 = true → le b.1 c.1 = true → le a.1 c.1 = true := fun a b c => trans _ _ _
  have to : ∀ a b : String × W.Obj, (le a.1 b.1 || le b.1 a.1) = true := fun a b => by
    rcases total a.1 b.1 with h | h <;> simp [h]
  exact ⟨List.pairwise_mergeSort tr to d0, fun a b hb hl => List.pair_sublist_mergeSort tr to hl hb⟩

end Records

/-! ### concrete cases -/
namespace Records.Toy

/-- `class X(RecordBase): b: int = 1; a: Annotated[int, T7]; c: int = 2` -/
def spX : ClassSpec W :=
  { cid := .record 20,
    anns := [("b", .plain (.cls .int)), ("a", .plain (.annotated (.cls .int) [.tag 7])), ("c", .plain (.cls .int))],
    attrs := [("b", .value (.int 1)), ("c", .value (.int 2))] }

def X : RecClass W := clsOf spX noClass

theorem X_creatable : Creatable X := .intro spX X ⟨by decide, by decide, nofun⟩ nofun rfl

/-- `X(b=1, a=5, c=3)`; `True == 1` -/
def iX : Inst W := ⟨.record 20, [("b", .bool true), ("a", .int 5), ("c", .int 3)], none⟩

theorem iX_full : ∀ k ∈ X.fields.map (·.1), k ∈ iX.dict.map (·.1) := by decide

example : toDict X (.ofInst env iX) {} Sel.empty s0 = (.ok [("a", .int 5), ("c", .int 3)], s0) := rfl
example : toDict X (.ofInst env iX) { blacklist := .tags [7], includeDefaults := true } Sel.empty s0 =
    (.ok [("b", .bool true), ("c", .int 3)], s0) := rfl
example : toDict X (.ofInst env iX) { blacklist := .tags [7], whitelist := ["b"] } Sel.empty s0 =
    (.ok [("b", .bool true), ("c", .int 3)], s0) := rfl
example := C75_to_dict (E := env) X_creatable iX_full (o := { blacklist := .tags [7] }) rfl s0
example : toDict X (.ofInst env iX) { blacklist := .otherContainer } Sel.empty s0 = (.error .typeError, s0) :=
  C75_blacklist_container X_creatable iX_full rfl ⟨"a", by decide, by decide⟩ s0

/-- an object whose attribute `b` raises ValueError: exporting it raises ValueError although `b` is optional -/
def badCarrier : Carrier W := ⟨fun _ => M.throw .valueError, fun _ => false⟩
example : toDict X badCarrier {} Sel.empty s0 = (.error .valueError, s0) :=
  (C75_attribute_error X_creatable (o := {}) (black := []) rfl (pre := []) rfl (val := fun _ => .none) nofun (.inr nofun) rfl
    (.inl (by decide))).1 (by decide)
/-- … and StopIteration becomes RuntimeError -/
def endedCarrier : Carrier W := ⟨fun _ => M.throw .stopIteration, fun _ => false⟩
example : toDict X endedCarrier {} Sel.empty s0 = (.error .runtimeError, s0) :=
  (C75_attribute_error X_creatable (o := {}) (black := []) rfl (pre := []) rfl (val := fun _ => .none) nofun (.inr nofun) rfl
    (.inl (by decide))).2 rfl

/-- C76 -/
theorem X_unsorted : toDict X (.ofInst env iX) { includeDefaults := true } Sel.empty s0 =
    (.ok [("b", .bool true), ("a", .int 5), ("c", .int 3)], s0) := rfl

example : ∃ d, toDict X (.ofInst env iX) { includeDefaults := true, sort := .asc } Sel.empty s0 = (.ok d, s0) ∧
    d.Perm [("b", .bool true), ("a", .int 5), ("c", .int 3)] ∧ (d.map (·.1)).Pairwise (· ≤ ·) := by
  obtain ⟨d, h, hp, _⟩ := (C76_sort_permutes X_creatable (.ofInst env iX) { includeDefaults := true } Sel.empty .asc s0).1 _ _ X_unsorted
  exact ⟨d, h, hp, C76_ascending X_creatable rfl h⟩

end Records.Toy
