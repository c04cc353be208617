import Verif.Spec.Override
import Verif.Props.Pickle
/-
C120: classes that override `to_dict`.
-/
namespace Records
variable {W : World} {E : Env W} {H : Hasher W} {D : ToDict W} {C : RecClass W}

theorem eqFieldsD (E : Env W) {a b : Inst W} (ha : Full C a) (hb : Full C b) :
    ∃ r, eqFields E a b C.fields.keys = .ok r ∧ (r = true ↔ SameFields C a b) :=
  eqFields_spec (E := E) (fun _ hk => ha.get hk) (fun _ hk => hb.get hk)

theorem hashD_cached (hf : C.frozen = true) {i : Inst W} {n : Int} (h : i.hash = some (some n)) (s : LState W) :
    hashD H D C i s = (.ok n, i, s) := by
  unfold hashD
  rw [hf, h]
  rfl

/-- **C120, hash.** Whatever `to_dict` does: a hash that has been returned is kept; `to_dict` is not called again, and the fields are
those from before. -/
theorem C120_hash (hf : C.frozen = true) {i i' : Inst W} {s s' : LState W} {n : Int} (h : hashD H D C i s = (.ok n, i', s')) :
    i'.dict = i.dict ∧ i'.cid = i.cid ∧ ∀ t, hashD H D C i' t = (.ok n, i', t) := by
  have key : i'.dict = i.dict ∧ i'.cid = i.cid ∧ i'.hash = some (some n) := by
    unfold hashD at h
    rw [hf] at h
    simp only [Bool.not_true, Bool.false_eq_true, if_false] at h
    cases hh : i.hash with
    | none => rw [hh] at h; cases h
    | some o =>
      rw [hh] at h
      cases o with
      | some m => cases h; exact ⟨rfl, rfl, hh⟩
      | none =>
        simp only at h
        rcases hD : D i {} s with ⟨e | d, s1⟩
        · rw [hD] at h; cases h
        · rw [hD] at h
          simp only at h
          cases ht : hashTuple H d.values with
          | error e => rw [ht] at h; cases h
          | ok m => rw [ht] at h; cases h; exact ⟨rfl, rfl, rfl⟩
  exact ⟨key.1, key.2.1, hashD_cached hf key.2.2⟩

/-- **C120, equal records.** Whatever `to_dict` does: if `a == b` answers True for frozen records, all fields are equal, and the records
have the same hash from then on. -/
theorem C120_true (hf : C.frozen = true) {a b a' b' : Inst W} (ha : Full C a) (hb : Full C b) {s s' : LState W}
    (h : eqD E H D C a b s = (.ok true, a', b', s')) :
    a.cid = b.cid ∧ SameFields C a b ∧ ∃ n, ∀ t, hashD H D C a' t = (.ok n, a', t) ∧ hashD H D C b' t = (.ok n, b', t) := by
  unfold eqD at h
  split at h
  · cases h
  · next hc =>
    try rw [if_pos hf] at h
    rcases h1 : hashD H D C a s with ⟨e | m, a1, s1⟩
    · rw [h1] at h; cases h
    · rw [h1] at h
      simp only at h
      rcases h2 : hashD H D C b s1 with ⟨e | n, b1, s2⟩
      · rw [h2] at h; cases h
      · rw [h2] at h
        simp only at h
        by_cases hmn : m = n
        · rw [if_neg (by simpa using hmn)] at h
          obtain ⟨r, hr, hiff⟩ := eqFieldsD E ha hb
          rw [hr] at h
          cases h
          subst hmn
          exact ⟨by simpa using hc, hiff.1 rfl, m, fun t => ⟨(C120_hash hf h1).2.2 t, (C120_hash hf h2).2.2 t⟩⟩
        · rw [if_pos hmn] at h; cases h

/-- **C120, non-frozen classes.** There `to_dict` plays no part in `==`, and no record is hashable. -/
theorem C120_mutable (E : Env W) (H : Hasher W) (D : ToDict W) (hf : C.frozen = false) {a b : Inst W} (ha : Full C a) (hb : Full C b) :
    (∀ s, hashD H D C a s = (.error .typeError, a, s)) ∧
      ∃ r, (∀ s, eqD E H D C a b s = (.ok r, a, b, s)) ∧ (r = true ↔ a.cid = b.cid ∧ SameFields C a b) := by
  refine ⟨fun s => by unfold hashD; rw [hf]; rfl, ?_⟩
  obtain ⟨r, hr, hiff⟩ := eqFieldsD E ha hb
  by_cases hc : a.cid = b.cid
  · exact ⟨r, fun s => by unfold eqD; rw [if_neg (by simpa using hc), hf, hr]; rfl, by simp [hc, hiff]⟩
  · exact ⟨false, fun s => by unfold eqD; rw [if_pos hc], by simp [hc]⟩

/-- **C120, hashed records.** Frozen records that have been hashed are equal iff their hashes and all their fields are; comparing them
calls no user `to_dict`. -/
theorem C120_hashed (E : Env W) (H : Hasher W) (D : ToDict W) (hf : C.frozen = true) {a b : Inst W} {m n : Int} (ha : Hashed C m a)
    (hb : Hashed C n b) : ∃ r, (∀ s, eqD E H D C a b s = (.ok r, a, b, s)) ∧ (r = true ↔ m = n ∧ SameFields C a b) := by
  obtain ⟨r, hr, hiff⟩ := eqFieldsD E ha.full hb.full
  have key : ∀ s, eqD E H D C a b s = (if m ≠ n then .ok false else .ok r, a, b, s) := by
    intro s
    unfold eqD
    rw [if_neg (by rw [ha.cls, hb.cls]; simp), if_pos hf, hashD_cached hf ha.hash]
    simp only
    rw [hashD_cached hf hb.hash]
    simp only [hr]
  by_cases hmn : m = n
  · exact ⟨r, fun s => by rw [key, if_neg (by simpa using hmn)], by simp [hmn, hiff]⟩
  · exact ⟨false, fun s => by rw [key, if_pos hmn], by simp [hmn]⟩

/-- **C120, hashed records.** `==` is an equivalence on them, and equal records have equal hashes. -/
theorem C120_equivalence (E : Env W) (H : Hasher W) (D : ToDict W) (hW : EqOK W) (hf : C.frozen = true) {a b c : Inst W} {l m n : Int}
    (ha : Hashed C l a) (hb : Hashed C m b) (hc : Hashed C n c) (s t u : LState W) :
    EqualD E H D C s a a ∧ (EqualD E H D C s a b → l = m) ∧ (EqualD E H D C s a b → EqualD E H D C t b a) ∧
      (EqualD E H D C s a b → EqualD E H D C t b c → EqualD E H D C u a c) := by
  have key : ∀ {a b : Inst W} {m n : Int}, Hashed C m a → Hashed C n b → ∀ s, (EqualD E H D C s a b ↔ m = n ∧ SameFields C a b) := by
    intro a b m n ha hb s
    obtain ⟨r, h1, h2⟩ := C120_hashed E H D hf ha hb
    rw [← h2]
    unfold EqualD
    rw [h1]
    constructor
    · intro h
      cases h
      rfl
    · intro h
      rw [h]
  rw [key ha ha, key ha hb, key hb ha, key hb hc, key ha hc]
  refine ⟨⟨rfl, fun k hk => ?_⟩, fun h => h.1, fun ⟨h1, h2⟩ => ⟨h1.symm, fun k hk => ?_⟩,
    fun ⟨h1, h2⟩ ⟨h3, h4⟩ => ⟨h1.trans h3, fun k hk => ?_⟩⟩
  · obtain ⟨v, hv⟩ := ha.full.get hk
    exact ⟨v, v, hv, hv, hW.refl v⟩
  · obtain ⟨v, w, hv, hw, e⟩ := h2 k hk
    exact ⟨w, v, hw, hv, hW.symm e⟩
  · obtain ⟨v, w, hv, hw, e⟩ := h2 k hk
    obtain ⟨w', x, hw', hx, e'⟩ := h4 k hk
    rw [hw] at hw'
    cases hw'
    exact ⟨v, x, hv, hx, hW.trans e e'⟩

theorem pairwise_hash (hH : HashContract H) : ∀ {vs ws : List W.Obj}, PairwiseEqual W vs ws →
    ∃ n, hashTuple H vs = .ok n ∧ hashTuple H ws = .ok n := by
  have key : ∀ vs ws : List W.Obj, PairwiseEqual W vs ws →
      (∀ v ∈ vs, W.hashable v = true) ∧ (∀ w ∈ ws, W.hashable w = true) ∧ vs.map H.obj = ws.map H.obj := by
    intro vs
    induction vs with
    | nil => intro ws h; cases ws with | nil => simp | cons => exact h.elim
    | cons v vs ih =>
      intro ws h
      cases ws with
      | nil => exact h.elim
      | cons w ws =>
        obtain ⟨⟨h1, h2, h3⟩, h4⟩ := h
        obtain ⟨h5, h6, h7⟩ := ih ws h4
        exact ⟨by simp [h2]; exact h5, by simp [h3]; exact h6, by simp [h7, hH v w h1 h2 h3]⟩
  intro vs ws h
  obtain ⟨h1, h2, h3⟩ := key vs ws h
  exact ⟨_, hashTuple_ok h1, by rw [hashTuple_ok h2, h3]⟩

/-- **C120, an override that respects equality.** If `to_dict` returns, for records with equal fields, mappings with pairwise equal and
hashable values, then new frozen records are equal iff all their fields are. -/
theorem C120_respects (hH : HashContract H) (hf : C.frozen = true) {a b : Inst W} (hc : a.cid = b.cid) (ha : Full C a) (hb : Full C b)
    (ha0 : a.hash = some none) (hb0 : b.hash = some none) {da db : Dict W.Obj} (hda : ∀ s, ∃ s', D a {} s = (.ok da, s'))
    (hdb : ∀ s, ∃ s', D b {} s = (.ok db, s')) (hha : ∀ v ∈ da.values, W.hashable v = true) (hhb : ∀ v ∈ db.values, W.hashable v = true)
    (hr : SameFields C a b → PairwiseEqual W da.values db.values) (s : LState W) :
    ∃ r, (eqD E H D C a b s).1 = .ok r ∧ (r = true ↔ SameFields C a b) := by
  have h1 : ∀ s, ∃ s', hashD H D C a s = (.ok (H.tuple (da.values.map H.obj)),
      { a with hash := some (some (H.tuple (da.values.map H.obj))) }, s') := by
    intro s
    obtain ⟨s', h⟩ := hda s
    exact ⟨s', by unfold hashD; rw [hf, ha0]; simp only [Bool.not_true, Bool.false_eq_true, if_false]; rw [h]; simp only [hashTuple_ok hha]⟩
  have h2 : ∀ s, ∃ s', hashD H D C b s = (.ok (H.tuple (db.values.map H.obj)),
      { b with hash := some (some (H.tuple (db.values.map H.obj))) }, s') := by
    intro s
    obtain ⟨s', h⟩ := hdb s
    exact ⟨s', by unfold hashD; rw [hf, hb0]; simp only [Bool.not_true, Bool.false_eq_true, if_false]; rw [h]; simp only [hashTuple_ok hhb]⟩
  obtain ⟨s1, e1⟩ := h1 s
  obtain ⟨s2, e2⟩ := h2 s1
  obtain ⟨r, hr', hiff⟩ := eqFieldsD E ha hb
  have key : (eqD E H D C a b s).1 = if H.tuple (da.values.map H.obj) ≠ H.tuple (db.values.map H.obj) then .ok false else .ok r := by
    unfold eqD
    rw [if_neg (by simpa using hc), if_pos hf, e1]
    simp only
    rw [e2]
    simp only [hr']
  by_cases hs : SameFields C a b
  · obtain ⟨n, h3, h4⟩ := pairwise_hash hH (hr hs)
    rw [hashTuple_ok hha] at h3
    rw [hashTuple_ok hhb] at h4
    have e := Except.ok.inj (h3.trans h4.symm)
    exact ⟨r, by rw [key, if_neg (by simp [e])], hiff⟩
  · split at key
    · exact ⟨false, key, by simp [hs]⟩
    · exact ⟨r, key, hiff⟩

/-- **C120, no override.** With the `to_dict` of the library the methods are those of the other properties. -/
theorem C120_library (E : Env W) (H : Hasher W) (C : RecClass W) (i j : Inst W) (s : LState W) (o : ExportOpts) (n : Nat)
    (qual : W.Cls → String) (rep : W.Obj → String) (deep : Dict W.Obj → M W (Dict W.Obj)) :
    hashD H (.lib E C) C i s = hashInst E H C i s ∧ eqD E H (.lib E C) C i j s = eqInst E H C i j s ∧
      reprD qual rep (.lib E C) o i = reprInst E qual rep C o i ∧ deepcopyD E (.lib E C) C n deep i = deepcopyInst E C n deep i ∧
      reduceD (.lib E C) i = reduceInst E C i := ⟨rfl, rfl, rfl, rfl, rfl⟩

/-! ### copies -/

theorem callN_freeKeys {m : Dict W.Obj} (hm : FreeKeys m) (n : Nat) : callN E C (n + 1) none m = newFields E C none m := by
  have hno : ∀ k ∈ ["self", "cls", "arg"], k ∉ m.keys := fun k hk hkm => hm k hkm hk
  unfold callN callCls
  rw [(Dict.has_eq_false_iff m "cls").2 (hno _ (by simp))]
  have ha : m.get? "arg" = none := (Dict.get?_eq_none_iff _ _).2 (hno _ (by simp))
  rw [ha]
  simp only [Bool.false_eq_true, if_false, construct_none]
  funext s
  unfold M.bind
  rcases newFields E C none m s with ⟨r, s'⟩
  cases r with
  | error e => rfl
  | ok r =>
    simp only [callCls.init]
    rw [(Dict.has_eq_false_iff m "self").2 (hno _ (by simp))]
    simp [M.pure]

theorem deepcopyD_eq {i : Inst W} {s s1 s2 : LState W} {d d' : Dict W.Obj} {deep : Dict W.Obj → M W (Dict W.Obj)}
    (hd : D i {} s = (.ok d, s1)) (hd' : deep d s1 = (.ok d', s2)) (hn : (d'.map (·.1)).Nodup) (hk : FreeKeys d') (n : Nat) :
    ∃ m : Dict W.Obj, m.WF ∧ (∀ k, m.get? k = d'.get? k) ∧ deepcopyD E D C (n + 1) deep i s = newFields E C none m s2 := by
  obtain ⟨m, hmw, hmg, hmc⟩ := C63_from_mapping (fun m => callN E C (n + 1) none m) (maps := [d']) (by
    intro m hm; rcases hm with _ | ⟨_, hm⟩
    · exact hn
    · cases hm) (kw := []) List.nodup_nil (by simp)
  have hg : ∀ k, m.get? k = d'.get? k := by
    intro k; rw [hmg]; simp only [List.cons_append, List.nil_append, List.findSome?_cons]
    cases d'.get? k <;> rfl
  have hmk : FreeKeys m := by
    intro k h
    refine hk k ?_
    have h' := (Dict.get?_isSome_iff _ _).2 h
    rw [hg] at h'
    exact (Dict.get?_isSome_iff _ _).1 h'
  refine ⟨m, hmw, hg, ?_⟩
  unfold deepcopyD
  rw [M.bind_ok hd, M.bind_ok hd', hmc, callN_freeKeys hmk]

theorem keys_congr {m d : Dict W.Obj} (h : ∀ k, m.get? k = d.get? k) (k : String) : k ∈ m.map (·.1) ↔ k ∈ d.map (·.1) := by
  have h1 := Dict.get?_isSome_iff m k
  have h2 := Dict.get?_isSome_iff d k
  rw [h] at h1
  exact h1.symm.trans h2

/-- **C120, deep copies.** `copy.deepcopy` makes the copy from what the override returns: a key that is no field raises TypeError; a
required field that is missing makes it raise; a field with a default that is left out gets its default in the copy. -/
theorem C120_deepcopy (hC : Creatable C) {i : Inst W} {s s1 s2 : LState W} {d d' : Dict W.Obj}
    {deep : Dict W.Obj → M W (Dict W.Obj)} (hd : D i {} s = (.ok d, s1)) (hd' : deep d s1 = (.ok d', s2)) (hn : (d'.map (·.1)).Nodup)
    (hk : FreeKeys d') (n : Nat) :
    (∀ k ∈ d'.map (·.1), k ∉ C.fields.map (·.1) → deepcopyD E D C (n + 1) deep i s = (.error .typeError, s2)) ∧
    (∀ k ∈ C.required, k ∉ d'.map (·.1) → ∃ e s3, deepcopyD E D C (n + 1) deep i s = (.error e, s3)) ∧
    (PlainPost C → ∀ r s3, deepcopyD E D C (n + 1) deep i s = (.ok r, s3) → ∃ j, r = .new j ∧ j.cid = C.cid ∧
      ∀ k f v, (k, f) ∈ C.fields → k ∉ d'.map (·.1) → f.default = some (.value v) → (k, v) ∈ j.dict) := by
  obtain ⟨m, hmw, hg, he⟩ := deepcopyD_eq (E := E) (C := C) hd hd' hn hk n
  rw [he]
  have hkeys := keys_congr hg
  refine ⟨fun k h1 h2 => ?_, fun k h1 h2 => ?_, fun hp r s3 hr => ?_⟩
  · exact newFields_unknown ((hkeys k).2 h1) h2 s2
  · obtain ⟨h, _⟩ := C51_missing_required (E := E) hC (fun _ => M.throw .parseFailure) hmw h1 (fun h => h2 ((hkeys k).1 h)) s2
    exact h
  · obtain ⟨j, h1, h2, _, _, h5, _⟩ := C49_keyword_construction (E := E) (parse := fun _ => M.throw .parseFailure) hC hmw hp hr
    refine ⟨j, h1, h2, fun k f v hf hk' hv => ?_⟩
    obtain ⟨dd, w, t1, t2, e1, e2, e3⟩ := h5 k f hf fun h => hk' ((hkeys k).1 h)
    rw [hv] at e1
    cases e1
    cases e2
    exact e3

/-- **C120, pickling.** Unpickling calls the class with what the override returned when the record was pickled, so a required field that
the override leaves out makes it raise; but if it succeeds, the record has all attributes of the original, whatever the override returned. -/
theorem C120_pickle (hC : Creatable C) {i : Inst W} (hi : (i.dict.map (·.1)).Nodup) {s s1 : LState W} {d : Dict W.Obj}
    (hd : D i {} s = (.ok d, s1)) (hn : (d.map (·.1)).Nodup) (hk : FreeKeys d) (codec : W.Obj → W.Obj) (n : Nat) (t : LState W) :
    ∃ p, reduceD D i s = (.ok p, s1) ∧
      (∀ k ∈ C.required, k ∉ d.map (·.1) → ∃ e t', unpickleInst E C n codec p t = (.error e, t')) ∧
      (∀ j t', unpickleInst E C n codec p t = (.ok (.new j), t') → ∀ k v, i.dict.get? k = some v → j.dict.get? k = some (codec v)) := by
  refine ⟨⟨d, i.dict, i.hash⟩, by unfold reduceD; rw [M.bind_ok hd]; rfl, fun k h1 h2 => ?_, fun j t' h k v hv => ?_⟩
  · have hk' : FreeKeys (mapValues codec d) := by
      intro k h
      rw [keys_mapValues] at h
      exact hk k h
    obtain ⟨⟨e, t', h⟩, _⟩ := C51_missing_required (E := E) hC (parseN E C n) (kw := mapValues codec d) (by rw [keys_mapValues]; exact hn) h1
      (by rw [keys_mapValues]; exact h2) t
    refine ⟨e, t', ?_⟩
    unfold unpickleInst
    refine M.bind_error ?_
    have hno : ∀ k ∈ ["self", "cls", "arg"], k ∉ (mapValues codec d).keys := fun k hk1 hkm => hk' k hkm hk1
    unfold newKw
    rw [(Dict.has_eq_false_iff _ "cls").2 (hno _ (by simp)), (Dict.get?_eq_none_iff _ "arg").2 (hno _ (by simp))]
    exact h
  · have hwf : Dict.WF (mapValues codec i.dict) := by unfold Dict.WF Dict.keys; rw [keys_mapValues]; exact hi
    unfold unpickleInst M.bind at h
    simp only at h
    rcases hD : newKw (construct E C (parseN E C n)) (mapValues codec d) t with ⟨e | r, t1⟩
    · rw [hD] at h; cases h
    · rw [hD] at h
      cases r with
      | old w => cases h
      | new j1 =>
        cases h
        simp only
        rw [Dict.get?_update _ _ hwf, get?_mapValues, hv]
        rfl

end Records

namespace Records.Toy.Ovr
open Toy

/-- an override that returns something new each time -/
def fresh : ToDict W := fun _ _ s => (.ok [("n", .int (show List Nat from s.user).length)], ((log 0) s).2)

/-- an override that hides `z` -/
def hideZ : ToDict W := fun i o => M.bind (ToDict.lib env B i o) fun d => M.pure (d.erase "z")

/-- an override that hides `y` -/
def hideY : ToDict W := fun i o => M.bind (ToDict.lib env B i o) fun d => M.pure (d.erase "y")

def b1 : Inst W := mkB (.int 1) (.int 4) "a"
def b2 : Inst W := mkB (.int 1) (.int 4) "b"
def b3 : Inst W := mkB (.int 1) (.int 4) "a"
def deep : Dict TObj → M W (Dict TObj) := fun d => M.pure d

theorem hashed (n : Int) : Hashed B n (mkB (.int 1) (.int 4) "a" (some n)) := ⟨rfl, mkB_full _ _ _ _, rfl⟩

example := C120_hash (W := Toy.W) (H := hasher 0) (D := fresh) (C := B) rfl (i := b1) (s := s0) (n := 0) rfl
example := C120_true (W := Toy.W) (E := env) (H := hasher 0) (D := hideZ) (C := B) rfl (a := b1) (b := b1) (mkB_full _ _ _ _) (mkB_full _ _ _ _)
  (s := s0) rfl
example := C120_mutable (W := Toy.W) env (hasher 0) fresh (C := A) rfl (a := mkA (.int 1) (.int 4)) (b := mkA (.int 1) (.int 4))
  (mkA_proper (hasher 0) _ _).full (mkA_proper (hasher 0) _ _).full
example := C120_hashed (W := Toy.W) env (hasher 0) fresh (C := B) rfl (hashed 3) (hashed 4)
example := C120_equivalence (W := Toy.W) env (hasher 0) fresh eqOK (C := B) rfl (hashed 3) (hashed 3) (hashed 3) s0 s0 s0
example := C120_respects (W := Toy.W) (E := env) (H := hasher 0) (D := hideZ) (contract 0) (C := B) rfl (a := b1) (b := b2) rfl
  (mkB_full _ _ _ _) (mkB_full _ _ _ _) rfl rfl (da := [("x", .int 1), ("y", .int 4)]) (db := [("x", .int 1), ("y", .int 4)])
  (fun s => ⟨s, rfl⟩) (fun s => ⟨s, rfl⟩) (by decide) (by decide) (fun _ => by simp [PairwiseEqual]; decide) s0
/-- the hidden field counts for `==`, not for the hash -/
example : (eqD env (hasher 0) hideZ B b1 b2 s0).1 = .ok false := rfl
example : (hashD (hasher 0) hideZ B b1 s0).1 = (hashD (hasher 0) hideZ B b2 s0).1 := rfl
example := C120_deepcopy (E := env) (W := Toy.W) (D := hideY) B_creatable (i := b1) (s := s0) (d := [("x", .int 1), ("z", .str "a")])
  (deep := deep) rfl rfl (by decide) (by simp [FreeKeys]) 0
example : deepcopyD env hideY B 1 deep b1 s0 =
    (.ok (.new { b1 with dict := [("x", TObj.int 1), ("z", .str "a"), ("y", .int 3)] }), s0) := rfl
example : (deepcopyD env hideZ B 1 deep b1 s0).1 = .error .typeError := rfl
example := C120_pickle (E := env) (W := Toy.W) (D := hideY) B_creatable (i := b1) (by decide) (s := s0) (d := [("x", .int 1), ("z", .str "a")])
  rfl (by decide) (by simp [FreeKeys]) id 0 s0
example : (unpickleInst env B 0 id ⟨[("x", .int 1), ("z", .str "a")], b1.dict, b1.hash⟩ s0).1 =
    .ok (.new { b1 with dict := [("x", TObj.int 1), ("z", .str "a"), ("y", .int 4)] }) := rfl

end Records.Toy.Ovr

namespace Records
open Toy.Ovr

/-- **C120, counterexample.** With an override that returns something new each time, two frozen records with the same fields differ;
without the override they are equal. -/
theorem C120_refuted : SameFields Toy.B b1 b3 ∧ (eqD Toy.env (Toy.hasher 0) fresh Toy.B b1 b3 Toy.s0).1 = .ok false ∧
    (eqInst Toy.env (Toy.hasher 0) Toy.B b1 b3 Toy.s0).1 = .ok true := by
  refine ⟨?_, rfl, rfl⟩
  intro k hk
  rcases hk with _ | ⟨_, _ | ⟨_, _ | ⟨_, hk⟩⟩⟩
  · exact ⟨Toy.TObj.int 1, .int 1, rfl, rfl, rfl⟩
  · exact ⟨Toy.TObj.int 4, .int 4, rfl, rfl, rfl⟩
  · exact ⟨Toy.TObj.str "a", .str "a", rfl, rfl, rfl⟩
  · cases hk

end Records
