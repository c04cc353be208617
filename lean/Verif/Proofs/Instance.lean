import Verif.Spec.Instance
import Verif.Props.Export
set_option linter.unusedSimpArgs false
/- Lemmas about hashing, equality and ordering of records. -/
namespace Records
variable {W : World}

theorem plainDefault_iff (f : Field W) (v : W.Obj) : f.plainDefault v = true ↔ f.isPlainDefault v := by
  unfold Field.plainDefault Field.isPlainDefault
  cases f.default with
  | none => simp
  | some d => cases d <;> simp

theorem Full.get {C : RecClass W} {i : Inst W} (h : Full C i) {k : String} (hk : k ∈ C.fields.map (·.1)) :
    ∃ v, i.dict.get? k = some v := Option.isSome_iff_exists.1 ((Dict.get?_isSome_iff _ _).2 (h k hk))

theorem exportTuples_shown {E : Env W} {i : Inst W} {mok : List String} (fs : Dict (Field W)) (hn : ∀ kf ∈ fs, kf.2.name = kf.1)
    (hf : ∀ kf ∈ fs, ∃ v, i.dict.get? kf.1 = some v) (s : LState W) :
    exportTuples (.ofInst E i) {} mok (fs.map fun kf => kf.2.x) s =
      (.ok (fs.filterMap fun kf => match i.dict.get? kf.1 with
        | none => none
        | some v => if kf.2.plainDefault v then none else some (kf.1, v)), s) := by
  induction fs with
  | nil => rfl
  | cons kf fs ih =>
    obtain ⟨k, f⟩ := kf
    obtain ⟨v, hv⟩ := hf (k, f) (by simp)
    have hname : f.name = k := hn (k, f) (by simp)
    have ih' := ih (fun x hx => hn x (by simp [hx])) (fun x hx => hf x (by simp [hx]))
    simp only [List.map_cons, List.filterMap_cons]
    simp only at hv
    rw [hv]
    unfold exportTuples
    have he : exportField {} f.x = .ok true := by
      unfold exportField; simp [List.any_eq_true]
    rw [he]
    simp only
    have ha : (Carrier.ofInst E i).attr f.x.name s = (.ok v, s) := inst_attr (by show i.dict.get? f.name = _; rw [hname]; exact hv) s
    rw [ha]
    simp only
    have hx : exportValue {} f.x v = !f.plainDefault v := by
      unfold exportValue Field.plainDefault Field.x
      cases f.default with
      | none => simp
      | some d => cases d <;> simp [Deflt.isDefault]
    rw [hx]
    cases f.plainDefault v with
    | true => simp [ih']
    | false =>
      have hx' : f.x.name = k := hname
      simp [M.bind, ih', M.pure, hx']

/-- the export of a record that has all its fields -/
theorem toDict_shown {E : Env W} {C : RecClass W} (wf : C.WF) {i : Inst W} (hi : Full C i) (s : LState W) :
    toDict C (.ofInst E i) {} Sel.empty s = (.ok (shown C i), s) := by
  have h := exportTuples_shown (E := E) (i := i) (mok := C.optional) C.fields
    (fun kf hkf => wf.named kf.1 kf.2 (Dict.mem_get? _ wf.nodup _ _ hkf))
    (fun kf hkf => hi.get (List.mem_map.2 ⟨kf, hkf, rfl⟩)) s
  have hl' : exportTuples (.ofInst E i) {} (extraction C Sel.empty).1 (extraction C Sel.empty).2.values s = (.ok (shown C i), s) := by
    rw [extraction_empty_values, List.map_map]
    exact h
  exact ((toDict_eq wf (.ofInst E i) {} Sel.empty s).1 _ s hl').1

theorem hashTuple_ok {H : Hasher W} {vs : List W.Obj} (h : ∀ v ∈ vs, W.hashable v = true) :
    hashTuple H vs = .ok (H.tuple (vs.map H.obj)) := by
  unfold hashTuple
  rw [if_pos (by simpa [List.all_eq_true] using h)]

theorem hashTuple_error {H : Hasher W} {vs : List W.Obj} {v : W.Obj} (hv : v ∈ vs) (h : W.hashable v = false) :
    hashTuple H vs = .error .typeError := by
  unfold hashTuple
  rw [if_neg]
  intro hc
  have := List.all_eq_true.1 hc v hv
  rw [h] at this
  cases this

/-- the hash of a proper frozen record -/
theorem hashInst_proper {E : Env W} {H : Hasher W} {C : RecClass W} (wf : C.WF) (hf : C.frozen = true) {i : Inst W}
    (hi : Proper H C i) (s : LState W) :
    hashInst E H C i s = (.ok (recordHash H C i), { i with hash := some (some (recordHash H C i)) }, s) := by
  unfold hashInst
  rw [hf]
  rcases hi.cache hf with h | h
  · simp only [h, toDict_shown wf hi.full]
    rw [hashTuple_ok]
    · simp [recordHash, Dict.values, List.map_map, Function.comp_def]
    · intro v hv
      obtain ⟨kv, hkv, rfl⟩ := List.mem_map.1 hv
      exact hi.hashable hf kv hkv
  · generalize recordHash H C i = n at h ⊢
    obtain ⟨c, d, hh⟩ := i
    simp only at h
    subst h
    rfl

theorem shown_congr {C : RecClass W} {i j : Inst W} (h : i.dict = j.dict) : shown C i = shown C j := by
  unfold shown; rw [h]

theorem recordHash_congr {H : Hasher W} {C : RecClass W} {i j : Inst W} (h : i.dict = j.dict) :
    recordHash H C i = recordHash H C j := by unfold recordHash; rw [shown_congr h]

theorem Proper.cached {H : Hasher W} {C : RecClass W} {i : Inst W} (h : Proper H C i) :
    Proper H C { i with hash := some (some (recordHash H C i)) } := by
  refine ⟨h.cls, h.full, h.hashable, fun _ => .inr ?_⟩
  exact congrArg (fun n => some (some n)) (recordHash_congr rfl)

theorem eqFields_spec {E : Env W} {a b : Inst W} {ks : List String} (ha : ∀ k ∈ ks, ∃ v, a.dict.get? k = some v)
    (hb : ∀ k ∈ ks, ∃ v, b.dict.get? k = some v) :
    ∃ r, eqFields E a b ks = .ok r ∧ (r = true ↔ ∀ k ∈ ks, SameField a b k) := by
  induction ks with
  | nil => exact ⟨true, rfl, by simp⟩
  | cons k ks ih =>
    obtain ⟨v, hv⟩ := ha k (by simp)
    obtain ⟨w, hw⟩ := hb k (by simp)
    obtain ⟨r, hr, hr'⟩ := ih (fun k hk => ha k (by simp [hk])) (fun k hk => hb k (by simp [hk]))
    have e1 : a.attr E k = .ok v := by unfold Inst.attr; rw [hv]
    have e2 : b.attr E k = .ok w := by unfold Inst.attr; rw [hw]
    cases he : W.eq v w with
    | true =>
      refine ⟨r, by unfold eqFields; simp [e1, e2, he, hr], ?_⟩
      rw [hr']
      constructor
      · intro h k' hk'
        cases hk' with
        | head => exact ⟨v, w, hv, hw, he⟩
        | tail _ hk' => exact h k' hk'
      · intro h k' hk'; exact h k' (by simp [hk'])
    | false =>
      refine ⟨false, by unfold eqFields; simp [e1, e2, he], ?_⟩
      constructor
      · intro h; cases h
      · intro h
        obtain ⟨v', w', h1, h2, h3⟩ := h k (by simp)
        rw [hv] at h1; rw [hw] at h2; cases h1; cases h2
        rw [he] at h3; cases h3

/-- records that agree in all fields have the same hash -/
theorem recordHash_same {H : Hasher W} (hW : EqOK W) (hH : HashContract H) {C : RecClass W}
    {a b : Inst W} (hab : SameFields C a b) (ha : ∀ kv ∈ shown C a, W.hashable kv.2 = true)
    (hb : ∀ kv ∈ shown C b, W.hashable kv.2 = true) : recordHash H C a = recordHash H C b := by
  unfold recordHash
  congr 1
  unfold shown at *
  unfold SameFields at hab
  revert ha hb hab
  generalize C.fields = fs
  intro hab ha hb
  induction fs with
  | nil => rfl
  | cons kf fs ih =>
    obtain ⟨k, f⟩ := kf
    obtain ⟨v, w, hv, hw, he⟩ := hab k (by simp)
    simp only [List.filterMap_cons] at ha hb ⊢
    rw [hv] at ha ⊢
    rw [hw] at hb ⊢
    have hd : f.plainDefault v = f.plainDefault w := by
      unfold Field.plainDefault
      cases f.default with
      | none => rfl
      | some d => cases d with
        | factory g => rfl
        | value d =>
          simp only
          cases h1 : W.eq d v with
          | true => rw [hW.trans h1 he]
          | false =>
            cases h2 : W.eq d w with
            | false => rfl
            | true => rw [hW.trans h2 (hW.symm he)] at h1; cases h1
    simp only at ha hb ⊢
    rw [← hd] at hb ⊢
    cases hp : f.plainDefault v with
    | true =>
      simp only [hp, if_true] at ha hb ⊢
      exact ih (fun k hk => hab k (by simp [hk])) ha hb
    | false =>
      simp only [hp, Bool.false_eq_true, if_false] at ha hb ⊢
      simp only [List.map_cons]
      rw [ih (fun k hk => hab k (by simp [hk])) (fun kv hkv => ha kv (by simp [hkv])) (fun kv hkv => hb kv (by simp [hkv]))]
      rw [hH v w he (ha (k, v) (by simp)) (hb (k, w) (by simp))]

end Records
