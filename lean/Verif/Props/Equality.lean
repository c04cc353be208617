import Verif.Proofs.Instance
import Verif.Spec.ToyHash
set_option linter.unusedSimpArgs false
/-
C67-C71: equality, hashing and frozenness of records.
-/
namespace Records
variable {W : World}

/-! ### C67 -/

/-- C67: `a == b` on records does not raise, is true iff the classes are the same and all fields are equal, and changes nothing but the
hash caches (to the hashes). -/
theorem C67_eq_iff {E : Env W} {H : Hasher W} (hW : EqOK W) (hH : HashContract H) {C : RecClass W} (hC : Creatable C)
    {a b : Inst W} (ha : Proper H C a) (hb : b.cid = C.cid → Proper H C b) (s : LState W) :
    ∃ r a' b', eqInst E H C a b s = (.ok r, a', b', s) ∧ (r = true ↔ b.cid = a.cid ∧ SameFields C a b) ∧
      Proper H C a' ∧ a'.dict = a.dict ∧ (b.cid = C.cid → Proper H C b') ∧ b'.cid = b.cid ∧ b'.dict = b.dict := by
  have wf := hC.wf
  unfold eqInst
  by_cases hc : a.cid = b.cid
  · have hb := hb (by rw [← hc, ha.cls])
    obtain ⟨r, hr, hr'⟩ := eqFields_spec (E := E) (a := a) (b := b) (ks := C.fields.keys) (fun k hk => ha.full.get hk)
      (fun k hk => hb.full.get hk)
    rw [if_neg (by simp [hc])]
    cases hf : C.frozen with
    | false =>
      refine ⟨r, a, b, by simp [hr], ?_, ha, rfl, fun _ => hb, rfl, rfl⟩
      rw [hr']
      exact ⟨fun h => ⟨hc.symm, h⟩, fun h => h.2⟩
    | true =>
      simp only [if_true, hashInst_proper wf hf ha, hashInst_proper wf hf hb]
      by_cases hh : recordHash H C a = recordHash H C b
      · refine ⟨r, _, _, by simp [hh, hr], ?_, ha.cached, rfl, fun _ => hb.cached, rfl, rfl⟩
        rw [hr']
        exact ⟨fun h => ⟨hc.symm, h⟩, fun h => h.2⟩
      · refine ⟨false, _, _, by simp [hh], ?_, ha.cached, rfl, fun _ => hb.cached, rfl, rfl⟩
        constructor
        · intro h; cases h
        · rintro ⟨_, h⟩
          exact absurd (recordHash_same hW hH h (ha.hashable hf) (hb.hashable hf)) hh
  · rw [if_pos hc]
    refine ⟨false, a, b, rfl, ?_, ha, rfl, hb, rfl, rfl⟩
    constructor
    · intro h; cases h
    · rintro ⟨h, _⟩; exact absurd h.symm hc

theorem equal_iff {E : Env W} {H : Hasher W} (hW : EqOK W) (hH : HashContract H) {C : RecClass W} (hC : Creatable C)
    {a b : Inst W} (ha : Proper H C a) (hb : Proper H C b) (s : LState W) :
    (eqInst E H C a b s).1 = .ok true ↔ SameFields C a b := by
  obtain ⟨r, a', b', h1, h2, _⟩ := C67_eq_iff (E := E) hW hH hC ha (fun _ => hb) s
  rw [h1]
  constructor
  · intro h; cases h; exact (h2.1 rfl).2
  · intro h; rw [h2.2 ⟨by rw [ha.cls, hb.cls], h⟩]

/-- C67: a record equals itself. -/
theorem C67_refl {E : Env W} {H : Hasher W} (hW : EqOK W) (hH : HashContract H) {C : RecClass W} (hC : Creatable C)
    {a : Inst W} (ha : Proper H C a) : Equal E H C a a := by
  intro s
  rw [equal_iff hW hH hC ha ha]
  intro k hk
  obtain ⟨v, hv⟩ := ha.full.get hk
  exact ⟨v, v, hv, hv, hW.refl v⟩

/-- C67: equality is symmetric. -/
theorem C67_symm {E : Env W} {H : Hasher W} (hW : EqOK W) (hH : HashContract H) {C : RecClass W} (hC : Creatable C)
    {a b : Inst W} (ha : Proper H C a) (hb : Proper H C b) (h : Equal E H C a b) : Equal E H C b a := by
  intro s
  rw [equal_iff hW hH hC hb ha]
  have h := (equal_iff hW hH hC ha hb s).1 (h s)
  intro k hk
  obtain ⟨v, w, h1, h2, h3⟩ := h k hk
  exact ⟨w, v, h2, h1, hW.symm h3⟩

/-- C67: equality is transitive. -/
theorem C67_trans {E : Env W} {H : Hasher W} (hW : EqOK W) (hH : HashContract H) {C : RecClass W} (hC : Creatable C)
    {a b c : Inst W} (ha : Proper H C a) (hb : Proper H C b) (hc : Proper H C c) (h : Equal E H C a b) (h' : Equal E H C b c) :
    Equal E H C a c := by
  intro s
  rw [equal_iff hW hH hC ha hc]
  have h := (equal_iff hW hH hC ha hb s).1 (h s)
  have h' := (equal_iff hW hH hC hb hc s).1 (h' s)
  intro k hk
  obtain ⟨v, w, h1, h2, h3⟩ := h k hk
  obtain ⟨w', x, h4, h5, h6⟩ := h' k hk
  rw [h2] at h4; cases h4
  exact ⟨v, x, h1, h5, hW.trans h3 h6⟩

/-- C67: records of different classes are not equal (whatever they contain). -/
theorem C67_other_class (E : Env W) (H : Hasher W) (C : RecClass W) {a b : Inst W} (h : a.cid ≠ b.cid) (s : LState W) :
    eqInst E H C a b s = (.ok false, a, b, s) := by unfold eqInst; rw [if_pos h]

/-! ### C68 -/

/-- C68: frozen records with equal fields have equal hashes, whether cached or not. -/
theorem C68_equal_hash {E : Env W} {H : Hasher W} (hW : EqOK W) (hH : HashContract H) {C : RecClass W} (hC : Creatable C)
    (hf : C.frozen = true) {a b : Inst W} (ha : Proper H C a) (hb : Proper H C b) (h : SameFields C a b) (s t : LState W) :
    ∃ n, (hashInst E H C a s).1 = .ok n ∧ (hashInst E H C b t).1 = .ok n := by
  rw [hashInst_proper hC.wf hf ha, hashInst_proper hC.wf hf hb]
  exact ⟨_, rfl, congrArg _ (recordHash_same hW hH h (ha.hashable hf) (hb.hashable hf)).symm⟩

/-- C68: the hash is that of the tuple of the field values other than defaults, in field order; it is cached. -/
theorem C68_hash {E : Env W} {H : Hasher W} {C : RecClass W} (hC : Creatable C) (hf : C.frozen = true) {a : Inst W}
    (ha : Proper H C a) (s : LState W) :
    hashInst E H C a s =
      (.ok (H.tuple ((shown C a).map fun kv => H.obj kv.2)), { a with hash := some (some (recordHash H C a)) }, s) :=
  hashInst_proper hC.wf hf ha s

/-! ### C69 -/

/-- exporting an instance without including defaults neither reads nor changes the state -/
theorem exportTuples_const {E : Env W} {i : Inst W} {mok : List String} (fs : List (XField W)) :
    ∃ r, ∀ s, exportTuples (.ofInst E i) {} mok fs s = (r, s) := by
  induction fs with
  | nil => exact ⟨.ok [], fun _ => rfl⟩
  | cons f fs ih =>
    obtain ⟨r, hr⟩ := ih
    have he : exportField {} f = .ok true := by unfold exportField; simp
    cases ha : i.attr E f.name with
    | ok v =>
      have ha' : ∀ s, (Carrier.ofInst E i).attr f.name s = (.ok v, s) := by
        intro s; show M.ofExcept (i.attr E f.name) s = _; rw [ha]; rfl
      cases hx : exportValue {} f v with
      | false =>
        refine ⟨r, fun s => ?_⟩
        unfold exportTuples
        simp [he, ha', hx, hr]
      | true =>
        refine ⟨r.map ((f.name, v) :: ·), fun s => ?_⟩
        unfold exportTuples
        simp only [he, ha', hx, if_true, M.bind, hr]
        cases r <;> rfl
    | error e =>
      have ha' : ∀ s, (Carrier.ofInst E i).attr f.name s = (.error e, s) := by
        intro s; show M.ofExcept (i.attr E f.name) s = _; rw [ha]; rfl
      by_cases hk : e.kind = .attributeError
      · by_cases hm : f.name ∈ mok
        · refine ⟨r, fun s => ?_⟩
          unfold exportTuples
          simp [he, ha', hk, hm, hr]
        · refine ⟨.error e, fun s => ?_⟩
          unfold exportTuples
          simp [he, ha', hk, hm]
      · refine ⟨.error e, fun s => ?_⟩
        unfold exportTuples
        simp [he, ha', hk]

theorem toDict_const (E : Env W) (C : RecClass W) (i : Inst W) : ∃ r, ∀ s, toDict C (.ofInst E i) {} Sel.empty s = (r, s) := by
  obtain ⟨r, hr⟩ := exportTuples_const (E := E) (i := i) (mok := (extraction C Sel.empty).1) (extraction C Sel.empty).2.values
  cases r with
  | error e => exact ⟨.error e.leaving, fun s => by unfold toDict; simp only [M.bind, M.generator, hr]⟩
  | ok l => exact ⟨.ok (Dict.update [] (sortEntries .no l)), fun s => by unfold toDict; simp only [M.bind, M.generator, hr]; rfl⟩

/-- hashing does not depend on the state, keeps the attributes, and leaves an instance with the same hash -/
theorem hashInst_stable (E : Env W) (H : Hasher W) (C : RecClass W) (i : Inst W) :
    ∃ r i', (∀ s, hashInst E H C i s = (r, i', s)) ∧ i'.dict = i.dict ∧ i'.cid = i.cid ∧
      ∀ s, (hashInst E H C i' s).1 = r := by
  obtain ⟨rd, hrd⟩ := toDict_const E C i
  unfold hashInst
  cases hf : C.frozen with
  | false => exact ⟨.error .typeError, i, fun _ => rfl, rfl, rfl, fun _ => rfl⟩
  | true =>
    simp only [Bool.not_true, Bool.false_eq_true, if_false]
    cases hh : i.hash with
    | none => exact ⟨.error .attributeError, i, fun _ => rfl, rfl, rfl, fun _ => by rw [hh]⟩
    | some h => cases h with
      | some n => exact ⟨.ok n, i, fun _ => rfl, rfl, rfl, fun _ => by rw [hh]⟩
      | none =>
        simp only [hrd]
        cases rd with
        | error e => exact ⟨.error e, i, fun _ => rfl, rfl, rfl, fun _ => by rw [hh]; simp only [hrd]⟩
        | ok d =>
          simp only
          cases ht : hashTuple H d.values with
          | error e => exact ⟨.error e, i, fun _ => rfl, rfl, rfl, fun _ => by rw [hh]; simp only [hrd, ht]⟩
          | ok n => exact ⟨.ok n, _, fun _ => rfl, rfl, rfl, fun _ => rfl⟩

/-- the attributes and the hash of two instances are the same -/
structure Alike (E : Env W) (H : Hasher W) (C : RecClass W) (i j : Inst W) : Prop where
  dict : j.dict = i.dict
  cid : j.cid = i.cid
  hash : ∀ s t, (hashInst E H C j s).1 = (hashInst E H C i t).1

theorem Alike.refl (E : Env W) (H : Hasher W) (C : RecClass W) (i : Inst W) : Alike E H C i i := by
  obtain ⟨r, i', h, _⟩ := hashInst_stable E H C i
  exact ⟨rfl, rfl, fun s t => by rw [h, h]⟩

theorem Alike.trans {E : Env W} {H : Hasher W} {C : RecClass W} {i j k : Inst W} (h : Alike E H C i j) (h' : Alike E H C j k) :
    Alike E H C i k :=
  ⟨h'.dict.trans h.dict, h'.cid.trans h.cid, fun s t => (h'.hash s s).trans (h.hash s t)⟩

theorem alike_hash (E : Env W) (H : Hasher W) (C : RecClass W) (i : Inst W) (s : LState W) :
    Alike E H C i (hashInst E H C i s).2.1 := by
  obtain ⟨r, i', h, h1, h2, h3⟩ := hashInst_stable E H C i
  rw [h]
  exact ⟨h1, h2, fun s t => by rw [h, h3]⟩

theorem alike_eq_left (E : Env W) (H : Hasher W) (C : RecClass W) (i b : Inst W) (s : LState W) :
    Alike E H C i (eqInst E H C i b s).2.1 := by
  unfold eqInst
  by_cases hc : i.cid = b.cid
  · rw [if_neg (by simp [hc])]
    cases hf : C.frozen with
    | false => exact .refl E H C i
    | true =>
      simp only [if_true]
      have := alike_hash E H C i s
      rcases hx : hashInst E H C i s with ⟨r, i', s1⟩
      rw [hx] at this
      cases r with
      | error e => exact this
      | ok m =>
        simp only
        rcases hy : hashInst E H C b s1 with ⟨r, b', s2⟩
        cases r <;> exact this
  · rw [if_pos hc]; exact .refl E H C i

theorem alike_eq_right (E : Env W) (H : Hasher W) (C : RecClass W) (b i : Inst W) (s : LState W) :
    Alike E H C i (eqInst E H C b i s).2.2.1 := by
  unfold eqInst
  by_cases hc : b.cid = i.cid
  · rw [if_neg (by simp [hc])]
    cases hf : C.frozen with
    | false => exact .refl E H C i
    | true =>
      simp only [if_true]
      rcases hx : hashInst E H C b s with ⟨r, b', s1⟩
      cases r with
      | error e => exact .refl E H C i
      | ok m =>
        simp only
        have := alike_hash E H C i s1
        rcases hy : hashInst E H C i s1 with ⟨r, i', s2⟩
        rw [hy] at this
        cases r <;> exact this
  · rw [if_pos hc]; exact .refl E H C i

/-- the operations the library lets through on a frozen record: everything but deletion and writing the private slot -/
def Op.public : Op W → Prop
  | .del _ => False
  | .setHash _ => False
  | _ => True

theorem alike_op (E : Env W) (H : Hasher W) {C : RecClass W} (hf : C.frozen = true) (i : Inst W) (s : LState W) {op : Op W}
    (hop : op.public) : Alike E H C i (op.run E H C i s).2.1 := by
  cases op with
  | set k v =>
    show Alike E H C i (setInst C i k v).2
    unfold setInst
    rw [hf]
    exact .refl E H C i
  | del k => exact hop.elim
  | setHash h => exact hop.elim
  | hash => exact alike_hash E H C i s
  | eq b => exact alike_eq_left E H C i b s
  | eqBy b => exact alike_eq_right E H C b i s
  | «export» o => exact .refl E H C i

theorem alike_history (E : Env W) (H : Hasher W) {C : RecClass W} (hf : C.frozen = true) (ops : List (Op W))
    (hops : ∀ op ∈ ops, op.public) (i : Inst W) (s : LState W) : Alike E H C i (history E H C ops i s).1 := by
  induction ops generalizing i s with
  | nil => exact .refl E H C i
  | cons op ops ih =>
    exact (alike_op E H hf i s (hops op (by simp))).trans (ih (fun o ho => hops o (by simp [ho])) _ _)

/-- C69: after any history of assignments, hashings, comparisons (on either side) and exports, `hash` of a frozen record answers as it
would have at first. -/
theorem C69_stable_hash (E : Env W) (H : Hasher W) {C : RecClass W} (hf : C.frozen = true) (ops : List (Op W))
    (hops : ∀ op ∈ ops, op.public) (i : Inst W) (s t : LState W) :
    (hashInst E H C (history E H C ops i s).1 t).1 = (hashInst E H C i s).1 :=
  (alike_history E H hf ops hops i s).hash t s

/-- C69: hashing twice gives the same answer, and comparing with a record in between does not change it. -/
theorem C69_hash_twice (E : Env W) (H : Hasher W) (C : RecClass W) (i b : Inst W) (s t u : LState W) :
    (hashInst E H C (hashInst E H C i s).2.1 t).1 = (hashInst E H C i s).1 ∧
      (hashInst E H C (eqInst E H C i b s).2.1 t).1 = (hashInst E H C i u).1 ∧
      (hashInst E H C (eqInst E H C b i s).2.2.1 t).1 = (hashInst E H C i u).1 :=
  ⟨(alike_hash E H C i s).hash t s, (alike_eq_left E H C i b s).hash t u, (alike_eq_right E H C b i s).hash t u⟩

/-! ### C70 -/

/-- C70: assigning an attribute of a frozen record raises TypeError and leaves the record as it is. -/
theorem C70_assignment {C : RecClass W} (hf : C.frozen = true) (i : Inst W) (k : String) (v : W.Obj) :
    setInst C i k v = (.error .typeError, i) := by unfold setInst; rw [if_pos hf]

/-- C70: no history without deletions changes the attributes of a frozen record (not even one that writes the private slot). -/
theorem C70_history (E : Env W) (H : Hasher W) {C : RecClass W} (hf : C.frozen = true) (ops : List (Op W))
    (hops : ∀ k, Op.del k ∉ ops) (i : Inst W) (s : LState W) : (history E H C ops i s).1.dict = i.dict := by
  induction ops generalizing i s with
  | nil => rfl
  | cons op ops ih =>
    refine (ih (fun k hk => hops k (List.mem_cons_of_mem _ hk)) _ _).trans ?_
    cases op with
    | del k => exact absurd (List.mem_cons_self ..) (hops k)
    | setHash h => rfl
    | set k v => exact (alike_op E H hf i s (op := .set k v) trivial).dict
    | hash => exact (alike_op E H hf i s (op := .hash) trivial).dict
    | eq b => exact (alike_op E H hf i s (op := .eq b) trivial).dict
    | eqBy b => exact (alike_op E H hf i s (op := .eqBy b) trivial).dict
    | «export» o => rfl

/-- C70: deletion is not blocked: the attribute is removed, frozen or not, and reading it gives what the class has under the name. -/
theorem C70_deletion (E : Env W) {i : Inst W} (hi : (i.dict.map (·.1)).Nodup) {k : String} (hk : k ∈ i.dict.map (·.1)) :
    (delInst i k).1 = .ok () ∧ (delInst i k).2.dict = i.dict.filter (fun kv => kv.1 ≠ k) ∧
      (delInst i k).2.attr E k = match E.clsAttr i.cid k with | some v => .ok v | none => .error .attributeError := by
  have hh : i.dict.has k = true := (Dict.has_iff _ _).2 hk
  unfold delInst
  rw [if_pos hh]
  refine ⟨rfl, Dict.erase_eq_filter _ hi k, ?_⟩
  have : Dict.get? (i.dict.erase k) k = none := by
    rw [Dict.get?_eq_none_iff, Dict.erase_eq_filter _ hi k]
    intro h
    obtain ⟨kv, hkv, e⟩ := List.mem_map.1 h
    have := (List.mem_filter.1 hkv).2
    simp at this
    exact this e
  unfold Inst.attr
  simp only [this]
  rfl

/-- C70: deleting an attribute that the record does not have (any more) raises AttributeError and changes nothing. -/
theorem C70_absent {i : Inst W} {k : String} (hk : k ∉ i.dict.map (·.1)) : delInst i k = (.error .attributeError, i) := by
  have hh : i.dict.has k = false := by
    cases h : i.dict.has k with
    | false => rfl
    | true => exact absurd ((Dict.has_iff _ _).1 h) hk
  unfold delInst
  rw [hh]
  rfl

/-- C70: in a non-frozen class the assigned attribute reads as the assigned value, the others stay. -/
theorem C70_not_frozen {C : RecClass W} (hf : C.frozen = false) (i : Inst W) (k : String) (v : W.Obj) :
    (setInst C i k v).1 = .ok () ∧ ∀ k', (setInst C i k v).2.dict.get? k' = if k' = k then some v else i.dict.get? k' := by
  unfold setInst
  rw [hf]
  exact ⟨rfl, fun k' => Dict.get?_set ..⟩

/-! ### C71 -/

/-- C71: a non-frozen record has no hash. -/
theorem C71_unhashable (E : Env W) (H : Hasher W) {C : RecClass W} (hf : C.frozen = false) (i : Inst W) (s : LState W) :
    hashInst E H C i s = (.error .typeError, i, s) := by unfold hashInst; rw [hf]; rfl

/-- C71: a frozen record with a (non-default) unhashable value and no cached hash cannot be hashed. -/
theorem C71_unhashable_value (E : Env W) (H : Hasher W) {C : RecClass W} (hC : Creatable C) (hf : C.frozen = true) {i : Inst W}
    (hi : Full C i) (hh : i.hash = some none) {k : String} {v : W.Obj} (hv : (k, v) ∈ shown C i) (hu : W.hashable v = false)
    (s : LState W) : hashInst E H C i s = (.error .typeError, i, s) := by
  unfold hashInst
  rw [hf, hh]
  simp only [toDict_shown hC.wf hi]
  have : hashTuple H (shown C i).values = .error .typeError := hashTuple_error (List.mem_map.2 ⟨(k, v), hv, rfl⟩) hu
  rw [this]
  rfl

/-- C71: nor can it be compared with a record of its class, not even with itself. -/
theorem C71_incomparable (E : Env W) (H : Hasher W) {C : RecClass W} (hC : Creatable C) (hf : C.frozen = true) {a : Inst W}
    (ha : Full C a) (hh : a.hash = some none) {k : String} {v : W.Obj} (hv : (k, v) ∈ shown C a) (hu : W.hashable v = false)
    (b : Inst W) (hb : b.cid = a.cid) (s : LState W) : (eqInst E H C a b s).1 = .error .typeError := by
  unfold eqInst
  rw [if_neg (by simp [hb]), if_pos hf, C71_unhashable_value E H hC hf ha hh hv hu]

/-- C71: a comparison of frozen records with such a right operand raises TypeError too, if the left operand can be hashed. -/
theorem C71_incomparable_right (E : Env W) (H : Hasher W) {C : RecClass W} (hC : Creatable C) (hf : C.frozen = true) {b : Inst W}
    (hb : Full C b) (hh : b.hash = some none) {k : String} {v : W.Obj} (hv : (k, v) ∈ shown C b) (hu : W.hashable v = false)
    {a : Inst W} (ha : Proper H C a) (hc : b.cid = a.cid) (s : LState W) : (eqInst E H C a b s).1 = .error .typeError := by
  unfold eqInst
  rw [if_neg (by simp [hc]), if_pos hf, hashInst_proper hC.wf hf ha]
  simp only
  rw [C71_unhashable_value E H hC hf hb hh hv hu]

/-- C71: non-frozen records are compared without hashing, whatever their values. -/
theorem C71_not_frozen (E : Env W) (H : Hasher W) {C : RecClass W} (hf : C.frozen = false) {a b : Inst W}
    (ha : Full C a) (hb : Full C b) (hc : b.cid = a.cid) (s : LState W) :
    ∃ r, eqInst E H C a b s = (.ok r, a, b, s) ∧ (r = true ↔ SameFields C a b) := by
  obtain ⟨r, hr, hr'⟩ := eqFields_spec (E := E) (a := a) (b := b) (ks := C.fields.keys) (fun k hk => ha.get hk)
    (fun k hk => hb.get hk)
  refine ⟨r, ?_, hr'⟩
  unfold eqInst
  rw [if_neg (by simp [hc]), hf]
  simp [hr]

end Records

/-! ### examples -/
namespace Records.Toy.Eq
open Toy

def H : Hasher W := hasher 0

/-- `C67`: 1 and `True` are equal -/
example : Equal env H A (mkA (.int 1) (.int 3)) (mkA (.bool true) (.int 3)) :=
  fun s => (equal_iff eqOK (contract 0) A_creatable (mkA_proper _ _ _) (mkA_proper _ _ _) s).2 (by
    intro k hk
    rcases hk with _ | ⟨_, _ | ⟨_, hk⟩⟩
    · exact ⟨_, _, rfl, rfl, rfl⟩
    · exact ⟨_, _, rfl, rfl, rfl⟩
    · cases hk)
example : (eqInst env H A (mkA (.int 1) (.int 3)) (mkA (.bool true) (.int 3)) s0).1 = .ok true := rfl
example : (eqInst env H A (mkA (.int 1) (.int 3)) (mkA (.int 2) (.int 3)) s0).1 = .ok false := rfl
example : (eqInst env H B (mkB (.int 1) (.int 3) "a") (mkB (.bool true) (.int 3) "a") s0).1 = .ok true := rfl
example := C67_eq_iff (E := env) eqOK (contract 0) B_creatable (mkB_proper H 1 3 "a") (fun _ => mkB_proper H 1 4 "a") s0
example := C67_refl (E := env) eqOK (contract 0) B_creatable (mkB_proper H 1 3 "a")
example : Equal env H B (mkB (.int 1) (.int 3) "a") (mkB (.int 1) (.int 3) "a") :=
  C67_symm eqOK (contract 0) B_creatable (mkB_proper H 1 3 "a") (mkB_proper H 1 3 "a") (fun _ => rfl)
example : Equal env H B (mkB (.int 1) (.int 3) "a") (mkB (.int 1) (.int 3) "a") :=
  C67_trans eqOK (contract 0) B_creatable (mkB_proper H 1 3 "a") (mkB_proper H 1 3 "a") (mkB_proper H 1 3 "a") (fun _ => rfl)
    (fun _ => rfl)
example : (eqInst env H B (mkB (.int 1) (.int 3) "a") (mkA (.int 1) (.int 3)) s0).1 = .ok false :=
  congrArg (·.1) (C67_other_class env H B (a := mkB (.int 1) (.int 3) "a") (b := mkA (.int 1) (.int 3)) (by decide) s0)

/-- `C68`: `y` has its default and is left out of the hash -/
example : (hashInst env H B (mkB (.int 1) (.int 3) "a") s0).1 = .ok 38 := rfl
example : (hashInst env H B (mkB (.int 1) (.int 4) "a") s0).1 = .ok 1092 := rfl
example := C68_hash (E := env) B_creatable rfl (mkB_proper H 1 4 "a") s0
example : ∃ n, (hashInst env H B (mkB (.int 1) (.int 3) "a") s0).1 = .ok n ∧
    (hashInst env H B { mkB (.int 1) (.int 3) "a" with hash := some (some (recordHash H B (mkB (.int 1) (.int 3) "a"))) } s0).1 =
      .ok n :=
  C68_equal_hash eqOK (contract 0) B_creatable rfl (mkB_proper H 1 3 "a") (mkB_proper H 1 3 "a").cached (by
    intro k hk
    rcases hk with _ | ⟨_, _ | ⟨_, _ | ⟨_, hk⟩⟩⟩
    · exact ⟨_, _, rfl, rfl, rfl⟩
    · exact ⟨_, _, rfl, rfl, rfl⟩
    · exact ⟨_, _, rfl, rfl, rfl⟩
    · cases hk) s0 s0

/-- a history -/
def ops : List (Op W) :=
  [.set "x" (.int 5), .hash, .set "new" (.int 1), .eq (mkB (.int 1) (.int 4) "a"), .eqBy (mkA (.int 1) (.int 3)), .export {}]

theorem ops_public : ∀ op ∈ ops, op.public := by
  intro op h
  unfold ops at h
  simp only [List.mem_cons, List.not_mem_nil, or_false] at h
  rcases h with rfl | rfl | rfl | rfl | rfl | rfl <;> trivial

/-- `C69` -/
example : (hashInst env H B (history env H B ops (mkB (.int 1) (.int 3) "a") s0).1 s0).1 = .ok 38 := rfl
example := C69_stable_hash env H (C := B) rfl ops ops_public (mkB (.int 1) (.int 3) "a") s0 s0
/-- in contrast: a deletion changes the hash -/
example : (hashInst env H B (mkB (.int 1) (.int 4) "a") s0).1 = .ok 1092 := rfl
example : (hashInst env H B (history env H B [.set "x" (.int 5), .del "y"] (mkB (.int 1) (.int 4) "a") s0).1 s0).1 = .ok 38 := rfl

/-- `C70` -/
example : (history env H B ops (mkB (.int 1) (.int 3) "a") s0).1.dict = (mkB (.int 1) (.int 3) "a").dict :=
  C70_history env H (C := B) rfl ops (fun _ hk => (ops_public _ hk).elim) (mkB (.int 1) (.int 3) "a") s0
example : setInst B (mkB (.int 1) (.int 3) "a") "x" (.int 2) = (.error .typeError, mkB (.int 1) (.int 3) "a") :=
  C70_assignment (C := B) rfl ..
example : (setInst A (mkA (.int 1) (.int 3)) "x" (.int 2)).2.dict.get? "x" = some (.int 2) :=
  (C70_not_frozen (C := A) rfl ..).2 "x"

/-- class attributes are the field objects (say, object 9) -/
def envC : Env W := { env with clsAttr := fun _ _ => some (.fn 9) }

example : (delInst (mkB (.int 1) (.int 3) "a") "x").2.attr envC "x" = .ok (.fn 9) :=
  (C70_deletion envC (i := mkB (.int 1) (.int 3) "a") (by decide) (k := "x") (by decide)).2.2

/-- a second deletion fails -/
example : delInst (delInst (mkB (.int 1) (.int 3) "a") "x").2 "x" = (.error .attributeError, (delInst (mkB (.int 1) (.int 3) "a") "x").2) :=
  C70_absent (by decide)

/-- `C71` -/
example : hashInst env H A (mkA (.int 1) (.int 3)) s0 = (.error .typeError, mkA (.int 1) (.int 3), s0) :=
  C71_unhashable env H (C := A) rfl ..
example : (eqInst env H B (mkB (list []) (.int 3) "a") (mkB (list []) (.int 3) "a") s0).1 = .error .typeError :=
  C71_incomparable env H B_creatable rfl (mkB_full _ _ _ _) rfl (k := "x") (v := list []) (.head _) rfl _ rfl s0
example : (eqInst env H B (mkB (.int 1) (.int 3) "a") (mkB (list []) (.int 3) "a") s0).1 = .error .typeError :=
  C71_incomparable_right env H B_creatable rfl (mkB_full _ _ _ _) rfl (k := "x") (v := list []) (.head _) rfl (mkB_proper H 1 3 "a") rfl s0
example : hashInst env H B (mkB (list []) (.int 3) "a") s0 = (.error .typeError, mkB (list []) (.int 3) "a", s0) :=
  C71_unhashable_value env H B_creatable rfl (mkB_full _ _ _ _) rfl (k := "x") (v := list []) (.head _) rfl s0
example := C71_not_frozen env H (C := A) rfl (mkA_proper H (list []) (.int 3)).full (mkA_proper H (list []) (.int 3)).full rfl s0

end Records.Toy.Eq

/-! ### refuted claims -/
namespace Records
open Toy Toy.Eq

/-- The claim that a frozen record cannot be modified: no history (that leaves the private slot alone) changes its fields. -/
def C70_claim : Prop := ∀ (W : World) (E : Env W) (H : Hasher W) (C : RecClass W), Creatable C → C.frozen = true →
  ∀ (ops : List (Op W)) (i : Inst W) (s : LState W), Full C i → (∀ h, Op.setHash h ∉ ops) →
    (history E H C ops i s).1.dict = i.dict

/-- C70: it does not hold: `del r.x`. -/
theorem C70_refuted : ¬ C70_claim := by
  intro h
  have := h W env Eq.H B B_creatable rfl [.del "x"] (mkB (.int 1) (.int 3) "a") s0 (mkB_full _ _ _ _) (by
    intro h' hh
    rcases hh with _ | ⟨_, hh⟩
    cases hh)
  exact absurd (congrArg List.length this) (by decide)

/-- The claim that a record can always be compared with itself. -/
def C71_claim : Prop := ∀ (W : World) (E : Env W) (H : Hasher W) (C : RecClass W), EqOK W → HashContract H → Creatable C →
  ∀ i : Inst W, Full C i → i.cid = C.cid → i.hash = (if C.frozen then some none else none) → ∀ s, (eqInst E H C i i s).1 = .ok true

/-- C71: it does not hold: a frozen record with a list. -/
theorem C71_refuted : ¬ C71_claim := by
  intro h
  have := h W env (hasher 0) B eqOK (contract 0) B_creatable (mkB (list []) (.int 3) "a") (mkB_full _ _ _ _) rfl rfl s0
  rw [C71_incomparable env (hasher 0) B_creatable rfl (mkB_full _ _ _ _) rfl (k := "x") (v := list []) (.head _) rfl _ rfl s0] at this
  cases this

end Records
