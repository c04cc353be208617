import Verif.Spec.Roundtrip
import Verif.Props.New
import Verif.Props.Equality
import Verif.Props.Factory
set_option linter.unusedSimpArgs false
/- Lemmas about re-building records. -/
namespace Records
variable {W : World}

/-- arguments that the fillers keep are filled -/
theorem fillArgs_keeps {fields : Dict (Field W)} (kw : Dict W.Obj)
    (h : ∀ k v, (k, v) ∈ kw → ∃ f, fields.get? k = some f ∧ Field.Keeps f v) (s : LState W) :
    ∃ s', FillArgs fields kw s kw s' := by
  induction kw generalizing s with
  | nil => exact ⟨s, .nil s⟩
  | cons a kw ih =>
    obtain ⟨k, v⟩ := a
    obtain ⟨f, hf, hk⟩ := h k v (by simp)
    obtain ⟨s1, h1⟩ := hk s
    obtain ⟨s2, h2⟩ := ih (fun k v hm => h k v (by simp [hm])) s1
    exact ⟨s2, .cons hf h1 h2⟩

/-- plain defaults are made -/
theorem defaultSeq_plain {fields : Dict (Field W)} (ks : List String)
    (h : ∀ k ∈ ks, ∃ f d, fields.get? k = some f ∧ f.default = some (.value d)) (s : LState W) :
    ∃ defs, DefaultSeq fields ks s defs s ∧
      ∀ k ∈ ks, ∃ f d, fields.get? k = some f ∧ f.default = some (.value d) ∧ defs.get? k = some d := by
  induction ks with
  | nil => exact ⟨[], .nil s, nofun⟩
  | cons k ks ih =>
    obtain ⟨f, d, hf, hd⟩ := h k (by simp)
    obtain ⟨defs, h1, h2⟩ := ih (fun k hk => h k (by simp [hk]))
    refine ⟨(k, d) :: defs, .cons hf hd (.value d s) h1, ?_⟩
    intro k' hk'
    by_cases e : k = k'
    · subst e; exact ⟨f, d, hf, hd, by simp [Dict.get?]⟩
    · cases hk' with
      | head => exact absurd rfl e
      | tail _ hk' =>
        obtain ⟨f', d', h3, h4, h5⟩ := h2 k' hk'
        exact ⟨f', d', h3, h4, by simp [Dict.get?, e, h5]⟩

/-- re-building by keywords: a new instance with the values of the mapping and the other plain defaults -/
theorem rebuild_new {E : Env W} {C : RecClass W} (wf : C.WF) (hpost : PlainPost C) {i : Inst W} (hi : Full C i)
    {m : Dict W.Obj} (hm : Describes C i m) (s : LState W) :
    ∃ j s', newFields E C none m s = (.ok (.new j), s') ∧ j.cid = C.cid ∧ (j.dict.map (·.1)).Perm (C.fields.map (·.1)) ∧
      (∀ k v, (k, v) ∈ m → j.dict.get? k = some v) ∧
      (∀ k f, (k, f) ∈ C.fields → k ∉ m.map (·.1) → ∃ d, f.default = some (.value d) ∧ j.dict.get? k = some d) ∧
      j.hash = if C.frozen then some none else none := by
  have hg : ∀ k, k ∈ C.fields.map (·.1) → ∃ f v, (k, f) ∈ C.fields ∧ i.dict.get? k = some v := by
    intro k hk
    obtain ⟨⟨k, f⟩, hkf, rfl⟩ := List.mem_map.1 hk
    obtain ⟨v, hv⟩ := hi.get hk
    exact ⟨f, v, hkf, hv⟩
  obtain ⟨s1, h1⟩ := fillArgs_keeps (fields := C.fields) m (by
    intro k w hkw
    have hk : k ∈ m.map (·.1) := List.mem_map.2 ⟨_, hkw, rfl⟩
    obtain ⟨f, v, hf, hv⟩ := hg k (hm.keys k hk)
    refine ⟨f, Dict.mem_get? _ wf.nodup _ _ hf, ?_⟩
    rcases hm.fields k f v hf hv with ⟨w', hw', _, hkeep⟩ | ⟨hn, _⟩
    · have e1 := Dict.mem_get? m hm.nodup _ _ hkw
      have e2 := Dict.mem_get? m hm.nodup _ _ hw'
      rw [e1] at e2; cases e2
      exact hkeep
    · exact absurd hk hn) s
  have hun : ∀ k f, (k, f) ∈ C.fields → k ∉ m.map (·.1) → ∃ d, f.default = some (.value d) := by
    intro k f hf hk
    obtain ⟨v, hv⟩ := hi.get (List.mem_map.2 ⟨_, hf, rfl⟩)
    rcases hm.fields k f v hf hv with ⟨w', hw', _⟩ | ⟨_, d, hd, _⟩
    · exact absurd (List.mem_map.2 ⟨_, hw', rfl⟩) hk
    · exact ⟨d, hd⟩
  have hr : ∀ k ∈ C.required, k ∈ m.keys := by
    intro k hk
    obtain ⟨f, hf, hd⟩ := (wf.req k).1 hk
    by_cases hkm : k ∈ m.map (·.1)
    · exact hkm
    · obtain ⟨d, hd'⟩ := hun k f (Dict.get?_eq_some_mem _ _ _ hf) hkm
      rw [hd] at hd'; cases hd'
  have hu := unsupplied_mem (E := E) wf (kw := m)
  obtain ⟨defs, h2, h2'⟩ := defaultSeq_plain (fields := C.fields) (C.unsupplied E m) (by
    intro k hk
    obtain ⟨ho, hn⟩ := (hu.2 k).1 hk
    obtain ⟨f, d, hf, _⟩ := (wf.opt k).1 ho
    obtain ⟨d', hd'⟩ := hun k f (Dict.get?_eq_some_mem _ _ _ hf) hn
    exact ⟨f, d', hf, hd'⟩) s1
  have hb : Build C m (C.unsupplied E m) s (.made (.new (C.fresh (m ++ defs)))) s1 :=
    .made h1 hr h2 (hpost _ _) .none
  refine ⟨C.fresh (m ++ defs), s1, newFields_spec wf hm.nodup none hb, rfl, values_keys wf hm.nodup h1 hr h2, ?_, ?_, rfl⟩
  · intro k v hkv
    show Dict.get? (m ++ defs) k = _
    rw [get?_append, Dict.mem_get? m hm.nodup _ _ hkv]
    rfl
  · intro k f hf hk
    have hf' := Dict.mem_get? _ wf.nodup _ _ hf
    obtain ⟨d0, hd0⟩ := hun k f hf hk
    have ho : k ∈ C.optional := (wf.opt k).2 ⟨f, _, hf', hd0⟩
    obtain ⟨f', d, h3, h4, h5⟩ := h2' k ((hu.2 k).2 ⟨ho, hk⟩)
    rw [hf'] at h3; cases h3
    refine ⟨d, h4, ?_⟩
    show Dict.get? (m ++ defs) k = _
    rw [get?_append, (Dict.get?_eq_none_iff m k).2 hk]
    exact h5

/-- `cls(**m)` for free names -/
theorem callN_free {E : Env W} {C : RecClass W} (hfree : FreeNames C) {m : Dict W.Obj}
    (hm : ∀ k ∈ m.map (·.1), k ∈ C.fields.map (·.1)) (n : Nat) : callN E C (n + 1) none m = newFields E C none m := by
  have hno : ∀ k ∈ ["self", "cls", "arg"], k ∉ m.keys := fun k hk hkm => hfree k (hm k hkm) hk
  unfold callN callCls
  rw [(Dict.has_eq_false_iff m "cls").2 (hno _ (by simp))]
  have ha : m.get? "arg" = none := (Dict.get?_eq_none_iff _ _).2 (hno _ (by simp))
  rw [ha]
  simp only [Bool.false_eq_true, if_false, construct_none]
  funext s
  unfold M.bind
  rcases newFields E C none m s with ⟨r, s'⟩
  cases r with
  | error e => rfl
  | ok r =>
    simp only [callCls.init]
    rw [(Dict.has_eq_false_iff m "self").2 (hno _ (by simp))]
    simp [M.pure]

/-- the re-built record is proper and equal -/
theorem rebuild_copied {E : Env W} {H : Hasher W} (hW : EqOK W) (hH : HashContract H) {C : RecClass W} (hC : Creatable C)
    {i j : Inst W} (hi : Proper H C i) {m : Dict W.Obj} (hm : Describes C i m) (hh : HashableIn C m)
    (h1 : j.cid = C.cid) (h2 : (j.dict.map (·.1)).Perm (C.fields.map (·.1)))
    (h3 : ∀ k v, (k, v) ∈ m → j.dict.get? k = some v)
    (h4 : ∀ k f, (k, f) ∈ C.fields → k ∉ m.map (·.1) → ∃ d, f.default = some (.value d) ∧ j.dict.get? k = some d)
    (h5 : j.hash = if C.frozen then some none else none) : Copied E H C i m j := by
  have hfull : Full C j := fun k hk => h2.mem_iff.2 hk
  have hp : Proper H C j := by
    refine ⟨h1, hfull, ?_, ?_⟩
    · intro hf kv hkv
      unfold shown at hkv
      obtain ⟨⟨k, f⟩, hkf, he⟩ := List.mem_filterMap.1 hkv
      cases hg : j.dict.get? k with
      | none => simp only [hg] at he; cases he
      | some w =>
        simp only [hg] at he
        cases hpd : f.plainDefault w with
        | true => simp [hpd] at he
        | false =>
          simp only [hpd, Bool.false_eq_true, if_false] at he
          cases he
          have hnd : ¬ f.isPlainDefault w := by rw [← plainDefault_iff, hpd]; simp
          by_cases hk : k ∈ m.map (·.1)
          · obtain ⟨⟨k', w'⟩, hkw, e⟩ := List.mem_map.1 hk
            cases e
            have := h3 k' w' hkw
            rw [hg] at this; cases this
            exact hh hf k' f w hkf hkw hnd
          · obtain ⟨d, hd, hd'⟩ := h4 k f hkf hk
            rw [hg] at hd'; cases hd'
            exact absurd ⟨w, hd, hW.refl w⟩ hnd
    · intro hf
      rw [hf] at h5
      exact .inl h5
  refine ⟨hp, fun s => (equal_iff hW hH hC hi hp s).2 ?_, h2, h3, h5⟩
  intro k hk
  obtain ⟨v, hv⟩ := hi.full.get hk
  obtain ⟨⟨k, f⟩, hkf, rfl⟩ := List.mem_map.1 hk
  rcases hm.fields k f v hkf hv with ⟨w, hw, he, _⟩ | ⟨hn, d0, hd0, he⟩
  · exact ⟨v, w, hv, h3 _ _ hw, he⟩
  · obtain ⟨d, hd, hd'⟩ := h4 k f hkf hn
    rw [hd0] at hd; cases hd
    exact ⟨v, _, hv, hd', hW.symm he⟩

/-- re-building by a call of the class -/
theorem rebuild {E : Env W} {H : Hasher W} (hW : EqOK W) (hH : HashContract H) {C : RecClass W} (hC : Creatable C)
    (hpost : PlainPost C) (hfree : FreeNames C) {i : Inst W} (hi : Proper H C i) {m : Dict W.Obj} (hm : Describes C i m)
    (hh : HashableIn C m) (n : Nat) (s : LState W) :
    ∃ j s', callN E C (n + 1) none m s = (.ok (.new j), s') ∧ Copied E H C i m j := by
  obtain ⟨j, s', h, h1, h2, h3, h4, h5⟩ := rebuild_new (E := E) hC.wf hpost hi.full hm s
  exact ⟨j, s', by rw [callN_free hfree hm.keys]; exact h, rebuild_copied hW hH hC hi hm hh h1 h2 h3 h4 h5⟩

/-- a mapping with the same entries describes the same record -/
theorem Describes.congr {C : RecClass W} {i : Inst W} {m m' : Dict W.Obj} (h : Describes C i m) (hn : (m'.map (·.1)).Nodup)
    (hg : ∀ k, m'.get? k = m.get? k) : Describes C i m' := by
  have hmem : ∀ k v, (k, v) ∈ m' ↔ (k, v) ∈ m := by
    intro k v
    rw [← Dict.get?_iff_mem m' hn, ← Dict.get?_iff_mem m h.nodup, hg]
  have hk : ∀ k, k ∈ m'.map (·.1) ↔ k ∈ m.map (·.1) := by
    intro k
    constructor <;> intro hx <;> obtain ⟨⟨k', v⟩, hkv, rfl⟩ := List.mem_map.1 hx
    · exact List.mem_map.2 ⟨_, (hmem _ _).1 hkv, rfl⟩
    · exact List.mem_map.2 ⟨_, (hmem _ _).2 hkv, rfl⟩
  refine ⟨hn, fun k hx => h.keys k ((hk k).1 hx), fun k f v hf hv => ?_⟩
  rcases h.fields k f v hf hv with ⟨w, hw, h1⟩ | ⟨hx, h1⟩
  · exact .inl ⟨w, (hmem _ _).2 hw, h1⟩
  · exact .inr ⟨fun hc => hx ((hk k).1 hc), h1⟩

/-- The entries are those of the record; fields that are left out have their defaults. -/
structure Covers (C : RecClass W) (i : Inst W) (d : Dict W.Obj) : Prop where
  nodup : (d.map (·.1)).Nodup
  own : ∀ k v, (k, v) ∈ d → k ∈ C.fields.map (·.1) ∧ i.dict.get? k = some v
  fields : ∀ k f v, (k, f) ∈ C.fields → i.dict.get? k = some v → (k, v) ∈ d ∨ (k ∉ d.map (·.1) ∧ f.isPlainDefault v)

/-- exported entries -/
theorem export_covers {E : Env W} {C : RecClass W} (hC : Creatable C) {i : Inst W} (hi : Full C i) {o : ExportOpts} {black : List Nat}
    (ho : o.blacklist = .tags black) (hdrop : DropsOnlyDefaults C i black o.whitelist) (s : LState W) :
    ∃ d, toDict C (.ofInst E i) o Sel.empty s = (.ok d, s) ∧ Covers C i d := by
  have wf := hC.wf
  obtain ⟨d, h1, hn, hd, _⟩ := C75_to_dict (E := E) hC hi ho s
  refine ⟨d, h1, hn, ?_, ?_⟩
  · intro k v hkv
    obtain ⟨f, hf, hv, _⟩ := (hd k v).1 hkv
    exact ⟨List.mem_map.2 ⟨_, hf, rfl⟩, hv⟩
  · intro k f v hf hv
    by_cases hk : k ∈ d.map (·.1)
    · obtain ⟨⟨k', w⟩, hkw, e⟩ := List.mem_map.1 hk
      cases e
      obtain ⟨_, _, hw, _⟩ := (hd k' w).1 hkw
      rw [hv] at hw; cases hw
      exact .inl hkw
    · refine .inr ⟨hk, ?_⟩
      by_cases hp : f.isPlainDefault v
      · exact hp
      · refine absurd (List.mem_map.2 ⟨(k, v), (hd k v).2 ⟨f, hf, hv, ?_⟩, rfl⟩) hk
        rcases hdrop k f v hf hv hp with h | h
        · exact .inl (by rw [wf.named k f (Dict.mem_get? _ wf.nodup _ _ hf)]; exact h)
        · exact .inr ⟨h, .inr hp⟩

theorem Restores.refl (hW : EqOK W) {d : Dict W.Obj} (hd : (d.map (·.1)).Nodup) : Restores d d :=
  ⟨hd, fun _ h => h, fun _ v h => ⟨v, h, hW.refl v⟩⟩

/-- restored entries describe the record, if the fillers keep them -/
theorem Covers.describes {C : RecClass W} {i : Inst W} {d d' : Dict W.Obj} (hd : Covers C i d) (hr : Restores d d')
    (hkeep : ∀ k f w, (k, f) ∈ C.fields → (k, w) ∈ d' → f.Keeps w) : Describes C i d' := by
  refine ⟨hr.nodup, ?_, ?_⟩
  · intro k hk
    obtain ⟨⟨k, v⟩, hkv, rfl⟩ := List.mem_map.1 (hr.back k hk)
    exact (hd.own k v hkv).1
  · intro k f v hf hv
    rcases hd.fields k f v hf hv with h | ⟨h, hp⟩
    · obtain ⟨w, hw, he⟩ := hr.values k v h
      exact .inl ⟨w, hw, he, hkeep k f w hf hw⟩
    · exact .inr ⟨fun hk => h (hr.back k hk), hp⟩

/-- the values of a proper record can be hashed again -/
theorem Covers.hashable {H : Hasher W} {C : RecClass W} {i : Inst W} (hi : Proper H C i) {d : Dict W.Obj} (hd : Covers C i d) :
    HashableIn C d := by
  intro hf k f w hkf hkw hnd
  have hw := (hd.own k w hkw).2
  refine hi.hashable hf (k, w) ?_
  unfold shown
  refine List.mem_filterMap.2 ⟨(k, f), hkf, ?_⟩
  have : f.plainDefault w = false := by
    cases hx : f.plainDefault w with
    | false => rfl
    | true => exact absurd ((plainDefault_iff f w).1 hx) hnd
  simp [hw, this]

/-- `from_mapping(d)` re-builds the record -/
theorem rebuild_mapping {E : Env W} {H : Hasher W} (hW : EqOK W) (hH : HashContract H) {C : RecClass W} (hC : Creatable C)
    (hpost : PlainPost C) (hfree : FreeNames C) {i : Inst W} (hi : Proper H C i) {d : Dict W.Obj} (hd : Describes C i d)
    (hh : HashableIn C d) (n : Nat) (s : LState W) :
    ∃ j s', fromMapping (fun m => callN E C (n + 1) none m) Sel.empty [d] [] s = (.ok (.new j), s') ∧ Copied E H C i d j := by
  obtain ⟨m, hmw, hmg, hmc⟩ := C63_from_mapping (fun m => callN E C (n + 1) none m) (maps := [d]) (by
    intro m hm; rcases hm with _ | ⟨_, hm⟩
    · exact hd.nodup
    · cases hm) (kw := []) List.nodup_nil (by simp)
  have hg : ∀ k, m.get? k = d.get? k := by
    intro k; rw [hmg]; simp only [List.cons_append, List.nil_append, List.findSome?_cons]
    cases d.get? k <;> rfl
  have hmem : ∀ k v, (k, v) ∈ m ↔ (k, v) ∈ d := by
    intro k v; rw [← Dict.get?_iff_mem m hmw, ← Dict.get?_iff_mem d hd.nodup, hg]
  obtain ⟨j, s', hj, hcop⟩ := rebuild (E := E) hW hH hC hpost hfree hi (hd.congr hmw hg)
    (fun hf k f w hkf hkw hnd => hh hf k f w hkf ((hmem k w).1 hkw) hnd) n s
  exact ⟨j, s', by rw [hmc]; exact hj, hcop.proper, hcop.equal, hcop.keys, fun k v hkv => hcop.values k v ((hmem k v).2 hkv),
    hcop.hash⟩

end Records
