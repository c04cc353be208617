import Verif.Proofs.Roundtrip
set_option linter.unusedSimpArgs false
/-
C77-C80: export and import, JSON, copying.
-/
namespace Records
variable {W : World}

/-! ### C77 -/

/-- C77: a record (all of whose fields are kept by their fillers) is exported, with any options that drop nothing but defaults, to a mapping
from which `from_mapping` makes an equal record of the same class, holding the same objects. -/
theorem C77_round_trip {E : Env W} {H : Hasher W} (hW : EqOK W) (hH : HashContract H) {C : RecClass W} (hC : Creatable C)
    (hpost : PlainPost C) (hfree : FreeNames C) {i : Inst W} (hi : Proper H C i)
    (hkeep : ∀ k f v, (k, f) ∈ C.fields → i.dict.get? k = some v → f.Keeps v)
    {o : ExportOpts} {black : List Nat} (ho : o.blacklist = .tags black) (hdrop : DropsOnlyDefaults C i black o.whitelist)
    (n : Nat) (s t : LState W) :
    ∃ d j t', toDict C (.ofInst E i) o Sel.empty s = (.ok d, s) ∧
      fromMapping (fun m => callN E C (n + 1) none m) Sel.empty [d] [] t = (.ok (.new j), t') ∧ Copied E H C i d j := by
  obtain ⟨d, h1, hd⟩ := export_covers (E := E) hC hi.full ho hdrop s
  have hdesc := hd.describes (.refl hW hd.nodup) fun k f w hkf hkw => hkeep k f w hkf (hd.own k w hkw).2
  obtain ⟨j, t', hj, hc⟩ := rebuild_mapping (E := E) hW hH hC hpost hfree hi hdesc (hd.hashable hi) n t
  exact ⟨d, j, t', h1, hj, hc⟩

/-! ### C78 -/

/-- `dumps` turns `d` into a text from which `json.loads` makes a mapping with the entries `d'` -/
def JsonRestores (E : Env W) (dumps : Dict W.Obj → M W W.Obj) (d d' : Dict W.Obj) : Prop :=
  ∃ text obj, (∀ s, ∃ s', dumps d s = (.ok text, s')) ∧ (∀ s, ∃ s', E.jsonLoads text [] s = (.ok obj, s')) ∧
    ∀ s, ∃ s', E.starView obj s = (.ok d', s')

/-- C78: if the JSON codec restores the exported mapping up to equality of values, and the fillers keep the restored values, then
`C.from_json(r.to_json())` is a record equal to `r`. -/
theorem C78_json_round_trip {E : Env W} {H : Hasher W} (hW : EqOK W) (hH : HashContract H) {C : RecClass W} (hC : Creatable C)
    (hpost : PlainPost C) (hfree : FreeNames C) {i : Inst W} (hi : Proper H C i) {o : ExportOpts} {black : List Nat}
    (ho : o.blacklist = .tags black) (hdrop : DropsOnlyDefaults C i black o.whitelist) {dumps : Dict W.Obj → M W W.Obj}
    {d d' : Dict W.Obj} (hd : ∀ s, toDict C (.ofInst E i) o Sel.empty s = (.ok d, s)) (hj : JsonRestores E dumps d d')
    (hr : Restores d d') (hkeep : ∀ k f w, (k, f) ∈ C.fields → (k, w) ∈ d' → f.Keeps w) (hh : HashableIn C d')
    (n : Nat) (s : LState W) :
    ∃ text s1, toJson E dumps C o i s = (.ok text, s1) ∧
      ∀ t, ∃ j t', fromJson E (fun m => callN E C (n + 1) none m) Sel.empty text [] t = (.ok (.new j), t') ∧
        Copied E H C i d' j := by
  obtain ⟨d0, h1, hcov⟩ := export_covers (E := E) hC hi.full ho hdrop s
  rw [hd] at h1; cases h1
  obtain ⟨text, obj, hdump, hload, hview⟩ := hj
  obtain ⟨s1, hs1⟩ := hdump s
  refine ⟨text, s1, by unfold toJson; simp only [M.bind, hd, hs1], fun t => ?_⟩
  obtain ⟨t1, ht1⟩ := hload t
  obtain ⟨t2, ht2⟩ := hview t1
  obtain ⟨j, t3, hj, hc⟩ := rebuild (E := E) hW hH hC hpost hfree hi (hcov.describes hr hkeep) hh n t2
  refine ⟨j, t3, ?_, hc⟩
  show (M.bind (E.jsonLoads text []) fun j => M.bind (E.starView j) fun m => callN E C (n + 1) none m) t = _
  simp only [M.bind, ht1, ht2, hj]

/-! ### C79 -/

/-- C79: the copy of a frozen record is the record. -/
theorem C79_frozen (E : Env W) {C : RecClass W} (hf : C.frozen = true) (n : Nat) (i : Inst W) : copyInst E C n i = M.pure none := by
  unfold copyInst; rw [if_pos hf]

/-- C79: the copy of a non-frozen record (all of whose fields are kept by their fillers) is a new record of the same class, equal to it,
without the attributes that are no fields. -/
theorem C79_not_frozen {E : Env W} {H : Hasher W} (hW : EqOK W) (hH : HashContract H) {C : RecClass W} (hC : Creatable C)
    (hf : C.frozen = false) (hpost : PlainPost C) (hfree : FreeNames C) {i : Inst W} (hi : Full C i) (hc : i.cid = C.cid)
    (hkeep : ∀ k f v, (k, f) ∈ C.fields → i.dict.get? k = some v → f.Keeps v) (n : Nat) (s : LState W) :
    ∃ j s', copyInst E C (n + 1) i s = (.ok (some (.new j)), s') ∧ Copied E H C i (shown C i) j := by
  have hp : Proper H C i := ⟨hc, hi, by simp [hf], by simp [hf]⟩
  obtain ⟨d, h1, hcov⟩ := export_covers (E := E) hC hi (o := {}) (black := []) rfl (by intro k f v _ _ _; exact .inr (by simp)) s
  rw [toDict_shown hC.wf hi] at h1; cases h1
  obtain ⟨j, s', hj, hc⟩ := rebuild (E := E) hW hH hC hpost hfree hp
    (hcov.describes (.refl hW hcov.nodup) fun k f w hkf hkw => hkeep k f w hkf (hcov.own k w hkw).2) (hcov.hashable hp) n s
  refine ⟨j, s', ?_, hc⟩
  unfold copyInst fromInstance
  rw [hf]
  simp only [Bool.false_eq_true, if_false, Bool.and_false, Bool.false_and]
  rw [clash_false (by simp)]
  simp only [Bool.false_eq_true, if_false, M.bind, toDict_shown hC.wf hi]
  have e : (shown C i).update [] = shown C i := rfl
  rw [e, buildFrom_empty]
  simp only [hj, M.pure]

/-! ### C80 -/

/-- C80: if `deepcopy` of the exported mapping has equal values, and the fillers keep them, then `deepcopy` of a record is a record equal
to it. -/
theorem C80_deepcopy {E : Env W} {H : Hasher W} (hW : EqOK W) (hH : HashContract H) {C : RecClass W} (hC : Creatable C)
    (hpost : PlainPost C) (hfree : FreeNames C) {i : Inst W} (hi : Proper H C i) {deep : Dict W.Obj → M W (Dict W.Obj)}
    {d' : Dict W.Obj} (hdeep : ∀ s, ∃ s', deep (shown C i) s = (.ok d', s')) (hr : Restores (shown C i) d')
    (hkeep : ∀ k f w, (k, f) ∈ C.fields → (k, w) ∈ d' → f.Keeps w) (hh : HashableIn C d') (n : Nat) (s : LState W) :
    ∃ j s', deepcopyInst E C (n + 1) deep i s = (.ok (.new j), s') ∧ Copied E H C i d' j := by
  obtain ⟨d, h1, hcov⟩ := export_covers (E := E) hC hi.full (o := {}) (black := []) rfl
    (by intro k f v _ _ _; exact .inr (by simp)) s
  rw [toDict_shown hC.wf hi.full] at h1; cases h1
  obtain ⟨s1, hs1⟩ := hdeep s
  obtain ⟨j, s', hj, hc⟩ := rebuild_mapping (E := E) hW hH hC hpost hfree hi (hcov.describes hr hkeep) hh n s1
  refine ⟨j, s', ?_, hc⟩
  unfold deepcopyInst
  simp only [M.bind, toDict_shown hC.wf hi.full, hs1, hj]

end Records

namespace Records
variable {W : World}

/-- the filler of the field keeps what it returns -/
def Field.Idempotent (f : Field W) : Prop := ∀ v s w s', f.filler.call v s = (.ok w, s') → f.Keeps w

/-- C77: in a class with idempotent fillers (and factories whose values they keep), exporting a record made by keywords and importing it
again gives an equal record. -/
theorem C77_constructed {E : Env W} {H : Hasher W} (hW : EqOK W) (hH : HashContract H) {C : RecClass W} (hC : Creatable C)
    (hpost : PlainPost C) (hfree : FreeNames C) (hidem : ∀ kf ∈ C.fields, kf.2.Idempotent)
    (hfact : ∀ kf ∈ C.fields, ∀ g, kf.2.default = some (.factory g) → ∀ s v s', g s = (.ok v, s') → kf.2.Keeps v)
    {kw : Dict W.Obj} (hkw : (kw.map (·.1)).Nodup) (hkeys : ∀ k ∈ kw.map (·.1), k ∈ C.fields.map (·.1)) {n : Nat} {s s' : LState W} {r : Res W}
    (hr : callN E C (n + 1) none kw s = (.ok r, s')) (hu : C.frozen = true → ∀ i, r = .new i → ∀ kv ∈ i.dict, W.hashable kv.2 = true)
    (t u : LState W) :
    ∃ i d j u', r = .new i ∧ toDict C (.ofInst E i) {} Sel.empty t = (.ok d, t) ∧
      fromMapping (fun m => callN E C (n + 1) none m) Sel.empty [d] [] u = (.ok (.new j), u') ∧ Copied E H C i d j := by
  have wf := hC.wf
  rw [callN_free hfree hkeys] at hr
  obtain ⟨i, h0, h1, h2, h3, h4, h5⟩ := C49_keyword_construction (E := E) (parse := fun _ => M.throw .parseFailure) hC hkw hpost hr
  have hnd : (i.dict.map (·.1)).Nodup := h2.nodup_iff.2 wf.nodup
  have hfull : Full C i := fun k hk => h2.mem_iff.2 hk
  obtain ⟨d, e1, hcov⟩ := export_covers (E := E) hC hfull (o := {}) (black := []) rfl
    (by intro k f v _ _ _; exact .inr (by simp)) t
  rw [toDict_shown wf hfull] at e1; cases e1
  have hp : Proper H C i := ⟨h1, hfull, fun hf kv hkv => hu hf i h0 kv (Dict.get?_eq_some_mem _ _ _ (hcov.own kv.1 kv.2 hkv).2),
    fun hf => .inl (by rw [h5, hf]; rfl)⟩
  have hdesc := hcov.describes (.refl hW hcov.nodup) (by
    intro k f w hkf hkw'
    have hw := (hcov.own k w hkw').2
    by_cases hk : k ∈ kw.map (·.1)
    · obtain ⟨⟨k', v⟩, hkv, e⟩ := List.mem_map.1 hk
      cases e
      obtain ⟨f', w', s1, s2, hf', hc, hm⟩ := h3 k' v hkv
      have e1 := Dict.mem_get? _ wf.nodup _ _ hkf
      have e2 := Dict.mem_get? _ wf.nodup _ _ hf'
      rw [e1] at e2; cases e2
      have e3 := Dict.mem_get? _ hnd _ _ hm
      rw [hw] at e3; cases e3
      exact hidem _ hkf v s1 w s2 hc
    · obtain ⟨dd, w', s1, s2, hd, hmk, hm⟩ := h4 k f hkf hk
      have e3 := Dict.mem_get? _ hnd _ _ hm
      rw [hw] at e3; cases e3
      cases hmk with
      | factory hg => exact hfact _ hkf _ hd _ _ _ hg
      | value =>
        -- a plain default is not exported
        exfalso
        unfold shown at hkw'
        obtain ⟨⟨k', f'⟩, hkf', he⟩ := List.mem_filterMap.1 hkw'
        cases hg : i.dict.get? k' with
        | none => simp only [hg] at he; cases he
        | some x =>
          simp only [hg] at he
          cases hpd : f'.plainDefault x with
          | true => simp [hpd] at he
          | false =>
            simp only [hpd, Bool.false_eq_true, if_false] at he
            cases he
            have e1 := Dict.mem_get? _ wf.nodup _ _ hkf
            have e2 := Dict.mem_get? _ wf.nodup _ _ hkf'
            rw [e1] at e2; cases e2
            have : f.plainDefault w = true := (plainDefault_iff f w).2 ⟨w, hd, hW.refl w⟩
            rw [this] at hpd; cases hpd)
  obtain ⟨j, u', hj, hc⟩ := rebuild_mapping (E := E) hW hH hC hpost hfree hp hdesc (hcov.hashable hp) n u
  exact ⟨i, shown C i, j, u', h0, toDict_shown wf hp.full t, hj, hc⟩

end Records

/-! ### examples -/
namespace Records.Toy.Trip
open Toy

def H : Hasher W := hasher 0

theorem A_post : PlainPost A := fun _ _ => rfl
theorem B_post : PlainPost B := fun _ _ => rfl
theorem A_names : FreeNames A := by unfold FreeNames; decide
theorem B_names : FreeNames B := by unfold FreeNames; decide

theorem A_keeps {k : String} {f : Field W} {v : TObj} (h : (k, f) ∈ A.fields) : f.Keeps v := by
  rcases h with _ | ⟨_, _ | ⟨_, h⟩⟩
  · exact fun s => ⟨s, rfl⟩
  · exact fun s => ⟨s, rfl⟩
  · cases h


theorem B_keeps (i j : Int) (z : String) {k : String} {f : Field W} {v : TObj} (h : (k, f) ∈ B.fields)
    (hv : (mkB (.int i) (.int j) z).dict.get? k = some v) : f.Keeps v := by
  rcases h with _ | ⟨_, _ | ⟨_, _ | ⟨_, h⟩⟩⟩
  · exact fun s => ⟨s, rfl⟩
  · exact fun s => ⟨s, rfl⟩
  · cases hv; exact fun s => ⟨s, rfl⟩
  · cases h

/-- nothing is blacklisted -/
theorem drops_none (C : RecClass W) (i : Inst W) (white : List String) : DropsOnlyDefaults C i [] white :=
  fun _ _ _ _ _ _ => .inr (by simp)

/-- `C77`: the default of `y` is left out -/
example : toDict B (.ofInst env (mkB (.int 1) (.int 3) "a")) {} Sel.empty s0 =
    (.ok [("x", .int 1), ("z", .str "a")], s0) := rfl
example : (fromMapping (W := W) (fun m => callN env B 1 none m) Sel.empty [[("z", .str "a"), ("x", .int 1)]] [] s0).1 =
    .ok (.new ⟨.record 1, [("z", .str "a"), ("x", .int 1), ("y", .int 3)], some none⟩) := rfl
example := C77_round_trip (E := env) eqOK (contract 0) B_creatable B_post B_names (mkB_proper H 1 3 "a") (fun _ _ _ => B_keeps 1 3 "a")
  (o := { sort := .desc }) (black := []) rfl (drops_none _ _ _) 0 s0 s0
example := C77_round_trip (E := env) eqOK (contract 0) B_creatable B_post B_names (mkB_proper H 1 3 "a") (fun _ _ _ => B_keeps 1 3 "a")
  (o := { includeDefaults := true }) (black := []) rfl (drops_none _ _ _) 0 s0 s0
example := C77_constructed (E := env) (H := H) eqOK (contract 0) A_creatable A_post A_names
  (fun kf h _ _ _ _ _ => A_keeps (k := kf.1) (f := kf.2) h) (fun kf h _ _ _ _ _ _ => A_keeps (k := kf.1) (f := kf.2) h)
  (kw := [("x", TObj.int 1)]) (by decide) (by decide) (n := 0) (s := s0) rfl nofun s0 s0

/-- a JSON codec for `A`: 1 comes back as `True` (an equal value) -/
def dumps (d : Dict TObj) : M W TObj := match d with
  | [("x", .int 1)] => M.pure (.str "{'x': 1}")
  | _ => M.throw .typeError

def envJ : Env W := { env with jsonLoads := fun v _ => match v with
  | .str "{'x': 1}" => M.pure (dict1 "x" (.bool true))
  | _ => M.throw .valueError }

/-- `C78` -/
example : toJson envJ dumps A {} (mkA (.int 1) (.int 3)) s0 = (.ok (.str "{'x': 1}"), s0) := rfl
theorem restores1 : Restores (W := W) [("x", .int 1)] [("x", .bool true)] := by
  refine ⟨by decide, by decide, ?_⟩
  intro k v h
  rcases h with _ | ⟨_, h⟩
  · exact ⟨.bool true, .head _, rfl⟩
  · cases h
example := C78_json_round_trip (E := envJ) (H := H) eqOK (contract 0) A_creatable A_post A_names (mkA_proper H (.int 1) (.int 3))
  (o := {}) (black := []) rfl (drops_none _ _ _) (dumps := dumps) (d := [("x", .int 1)]) (d' := [("x", .bool true)]) (fun _ => rfl)
  ⟨.str "{'x': 1}", dict1 "x" (.bool true), fun s => ⟨s, rfl⟩, fun s => ⟨s, rfl⟩, fun s => ⟨s, rfl⟩⟩ restores1
  (fun _ _ _ h _ => A_keeps h) nofun 0 s0
example : fromJson envJ (fun m => callN envJ A 1 none m) Sel.empty (.str "{'x': 1}") [] s0 =
    (.ok (.new ⟨.record 0, [("x", .bool true), ("y", .int 3)], none⟩), s0) := rfl

/-- `C79`: the extra attribute is not copied -/
def extra : Inst W := { mkA (.int 1) (.int 3) with dict := [("x", .int 1), ("q", .int 5), ("y", .int 4)] }
example : copyInst env A 1 extra s0 = (.ok (some (.new ⟨.record 0, [("x", .int 1), ("y", .int 4)], none⟩)), s0) := rfl
example := C79_not_frozen (E := env) (H := H) eqOK (contract 0) A_creatable rfl A_post A_names (i := extra)
  (by unfold Full; decide) rfl (fun _ _ _ h _ => A_keeps h) 0 s0
example : copyInst env B 1 (mkB (.int 1) (.int 3) "a") = M.pure none := C79_frozen env (C := B) rfl 1 _

/-- `C80` -/
def deep (d : Dict TObj) : M W (Dict TObj) := M.pure (mapValues (fun v => match v with | .int 1 => .bool true | v => v) d)
example : deepcopyInst env A 1 deep extra s0 = (.ok (.new ⟨.record 0, [("x", .bool true), ("y", .int 4)], none⟩), s0) := rfl
example := C80_deepcopy (E := env) (H := H) eqOK (contract 0) A_creatable A_post A_names (mkA_proper H (.int 1) (.int 3)) (deep := deep)
  (d' := [("x", TObj.bool true)]) (fun s => ⟨s, rfl⟩) restores1 (fun _ _ _ h _ => A_keeps h) nofun 0 s0

/-- `class S(RecordBase): x: int; self: int = 3` -/
def spS : ClassSpec W :=
  { cid := .record 0, anns := [("x", .plain (.cls .int)), ("self", .plain (.cls .int))], attrs := [("self", .value (.int 3))] }
def S : RecClass W := clsOf spS noClass
theorem S_creatable : Creatable S := .intro spS S ⟨by decide, by decide, nofun⟩ nofun rfl
/-- it can be constructed, and the field can be assigned -/
example : callN env S 1 none [("x", .int 1)] s0 = (.ok (.new ⟨.record 0, [("x", .int 1), ("self", .int 3)], none⟩), s0) := rfl
def instS : Inst W := ⟨.record 0, [("x", .int 1), ("self", .int 4)], none⟩
theorem S_proper : Proper H S instS := ⟨rfl, fun _ h => h, nofun, nofun⟩

end Records.Toy.Trip

/-! ### refuted claims -/
namespace Records
open Toy Toy.Trip

/-- The round trip without the condition on the names of the fields. -/
def C77_claim : Prop := ∀ (W : World) (E : Env W) (H : Hasher W) (C : RecClass W), EqOK W → HashContract H → Creatable C → PlainPost C →
  ∀ (i : Inst W), Proper H C i → (∀ k f v, (k, f) ∈ C.fields → i.dict.get? k = some v → f.Keeps v) → ∀ (n : Nat) (s : LState W),
    ∃ d s1 r s2, toDict C (.ofInst E i) {} Sel.empty s = (.ok d, s1) ∧
      fromMapping (fun m => callN E C (n + 1) none m) Sel.empty [d] [] s1 = (.ok r, s2)

/-- C77: it does not hold: a record with a field named `self` that does not have its default cannot be imported. -/
theorem C77_refuted_names : ¬ C77_claim := by
  intro h
  obtain ⟨d, s1, r, s2, h1, h2⟩ := h W env H S eqOK (contract 0) S_creatable (fun _ _ => rfl) instS S_proper (by
    intro k f v hf hv
    rcases hf with _ | ⟨_, _ | ⟨_, hf⟩⟩
    · exact fun s => ⟨s, rfl⟩
    · exact fun s => ⟨s, rfl⟩
    · cases hf) 0 s0
  cases h1
  cases h2

end Records
