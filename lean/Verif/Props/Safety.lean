import Verif.Spec.Safety
import Verif.Proofs.Instance
import Verif.Spec.ToyHash
set_option linter.unusedSimpArgs false
/-
C111: which exceptions using a record can raise, along any history of operations.
-/
namespace Records
variable {W : World}

/-! ### invariants -/

theorem InUse.hashed {E : Env W} {H : Hasher W} {C : RecClass W} {i : Inst W} (h : InUse C i) (s : LState W) :
    InUse C (hashInst E H C i s).2.1 ∧ (hashInst E H C i s).2.1.dict = i.dict := by
  unfold hashInst
  split
  · exact ⟨h, rfl⟩
  · split
    · exact ⟨h, rfl⟩
    · exact ⟨h, rfl⟩
    · split
      · exact ⟨h, rfl⟩
      · split
        · exact ⟨h, rfl⟩
        · exact ⟨⟨h.cls, fun _ e => by cases e⟩, rfl⟩

theorem InUse.compared {E : Env W} {H : Hasher W} {C : RecClass W} {a : Inst W} (h : InUse C a) (b : Inst W) (s : LState W) :
    InUse C (eqInst E H C a b s).2.1 ∧ (eqInst E H C a b s).2.1.dict = a.dict := by
  unfold eqInst
  split
  · exact ⟨h, rfl⟩
  · split
    · have := h.hashed (E := E) (H := H) s
      split
      · next hx => rw [hx] at this; exact this
      · next hx =>
        rw [hx] at this
        split <;> exact this
    · exact ⟨h, rfl⟩

theorem InUse.comparedBy {E : Env W} {H : Hasher W} {C : RecClass W} {b : Inst W} (h : InUse C b) (a : Inst W) (s : LState W) :
    InUse C (eqInst E H C a b s).2.2.1 ∧ (eqInst E H C a b s).2.2.1.dict = b.dict := by
  unfold eqInst
  split
  · exact ⟨h, rfl⟩
  · split
    · split
      · exact ⟨h, rfl⟩
      · next s1 hx =>
        have := h.hashed (E := E) (H := H) s1
        split <;> next hy => rw [hy] at this; exact this
    · exact ⟨h, rfl⟩

theorem InUse.op {E : Env W} {H : Hasher W} {C : RecClass W} {i : Inst W} (h : InUse C i) (s : LState W) (op : Op W) :
    InUse C (op.run E H C i s).2.1 := by
  cases op with
  | set k v =>
    show InUse C (setInst C i k v).2
    unfold setInst
    split
    · exact h
    · exact ⟨h.cls, h.slot⟩
  | del k =>
    show InUse C (delInst i k).2
    unfold delInst
    split
    · exact ⟨h.cls, h.slot⟩
    · exact h
  | hash => exact (h.hashed s).1
  | eq b => exact (h.compared b s).1
  | eqBy b => exact (h.comparedBy b s).1
  | «export» o => exact h
  | setHash n => exact ⟨h.cls, fun _ e => by cases e⟩

/-- C111: a record stays a record of its class, with its slot set, whatever is done with it. -/
theorem C111_in_use (E : Env W) (H : Hasher W) {C : RecClass W} (ops : List (Op W)) {i : Inst W} (h : InUse C i) (s : LState W) :
    InUse C (history E H C ops i s).1 := by
  induction ops generalizing i s with
  | nil => exact h
  | cons op ops ih => exact ih (h.op s op) _

/-! ### what the operations answer -/

theorem InUse.read {E : Env W} {C : RecClass W} {FO : String → W.Obj} (hE : OnClass E C FO) {i : Inst W} (h : InUse C i) {k : String}
    (hk : k ∈ C.fields.map (·.1)) : i.attr E k = .ok (readAs FO i k) := by
  unfold Inst.attr readAs
  cases i.dict.get? k with
  | some v => rfl
  | none => simp only [h.cls, hE k hk]

/-- C111: reading a field of a record never raises, whatever was done with the record. -/
theorem C111_read {E : Env W} (H : Hasher W) {C : RecClass W} {FO : String → W.Obj} (hE : OnClass E C FO) (ops : List (Op W))
    {i : Inst W} (h : InUse C i) (s : LState W) {k : String} (hk : k ∈ C.fields.map (·.1)) :
    (history E H C ops i s).1.attr E k = .ok (readAs FO (history E H C ops i s).1 k) :=
  (C111_in_use E H ops h s).read hE hk

theorem InUse.toDict {E : Env W} {C : RecClass W} (hC : Creatable C) {FO : String → W.Obj} (hE : OnClass E C FO) {i : Inst W}
    (h : InUse C i) {o : ExportOpts} {black : List Nat} (ho : o.blacklist = .tags black) (s : LState W) :
    ∃ d, toDict C (.ofInst E i) o Sel.empty s = (.ok d, s) ∧ d.WF ∧
      ∀ k v, (k, v) ∈ d ↔ ∃ f, (k, f) ∈ C.fields ∧ v = readAs FO i k ∧ Exported o.includeDefaults black o.whitelist f v := by
  have wf := hC.wf
  have hname : ∀ kf ∈ C.fields, kf.2.name = kf.1 := fun kf hkf => wf.named kf.1 kf.2 (Dict.mem_get? _ wf.nodup _ _ hkf)
  obtain ⟨l, hl, hm⟩ := exportTuples_pure (obj := .ofInst E i) ho (mok := (extraction C Sel.empty).1) (fs := C.fields.map (·.2))
    (val := readAs FO i) (s := s) (by
      intro f hf
      obtain ⟨kf, hkf, rfl⟩ := List.mem_map.1 hf
      show M.ofExcept (i.attr E kf.2.name) s = _
      rw [hname kf hkf, h.read hE (List.mem_map.2 ⟨kf, hkf, rfl⟩)]
      rfl)
  rw [← extraction_empty_values] at hl
  obtain ⟨h1, h2⟩ := (toDict_eq wf (.ofInst E i) o Sel.empty s).1 l s hl
  refine ⟨_, h1, h2, fun k v => ?_⟩
  rw [(sortEntries_perm o.sort l).mem_iff, hm]
  constructor
  · rintro ⟨f, hf, hk, hv, hx⟩
    obtain ⟨kf, hkf, rfl⟩ := List.mem_map.1 hf
    have := hname kf hkf
    rw [hk] at this
    exact ⟨kf.2, by rw [this]; exact hkf, hv, hx⟩
  · rintro ⟨f, hf, hv, hx⟩
    exact ⟨f, List.mem_map.2 ⟨(k, f), hf, rfl⟩, hname _ hf, hv, hx⟩

/-- C111: `to_dict` of a record never raises and has no side effect, whatever was done with the record (deletions included) and whatever
the arguments, as long as `blacklist_tags` is a tag or a set of tags; it contains what reading the exported fields gives. -/
theorem C111_to_dict {E : Env W} (H : Hasher W) {C : RecClass W} (hC : Creatable C) {FO : String → W.Obj} (hE : OnClass E C FO)
    (ops : List (Op W)) {i : Inst W} (h : InUse C i) {o : ExportOpts} {black : List Nat} (ho : o.blacklist = .tags black)
    (s t : LState W) :
    ∃ d, toDict C (.ofInst E (history E H C ops i s).1) o Sel.empty t = (.ok d, t) ∧ d.WF ∧
      ∀ k v, (k, v) ∈ d ↔ ∃ f, (k, f) ∈ C.fields ∧ v = readAs FO (history E H C ops i s).1 k ∧
        Exported o.includeDefaults black o.whitelist f v :=
  (C111_in_use E H ops h s).toDict hC hE ho t

/-- C111: nor does `repr`. -/
theorem C111_repr {E : Env W} (H : Hasher W) {C : RecClass W} (hC : Creatable C) {FO : String → W.Obj} (hE : OnClass E C FO)
    (ops : List (Op W)) {i : Inst W} (h : InUse C i) (qual : W.Cls → String) (rep : W.Obj → String) {o : ExportOpts}
    {black : List Nat} (ho : o.blacklist = .tags black) (s t : LState W) :
    ∃ str, reprInst E qual rep C o (history E H C ops i s).1 t = (.ok str, t) := by
  obtain ⟨d, hd, _⟩ := C111_to_dict H hC hE ops h ho s t
  exact ⟨_, M.bind_ok hd⟩

theorem InUse.hash_error {E : Env W} {H : Hasher W} {C : RecClass W} (hC : Creatable C) {FO : String → W.Obj} (hE : OnClass E C FO)
    {i : Inst W} (h : InUse C i) {s : LState W} {e : Exc} (he : (hashInst E H C i s).1 = .error e) :
    e = .typeError ∧ (C.frozen = true → ∃ k f, (k, f) ∈ C.fields ∧ W.hashable (readAs FO i k) = false ∧
      ¬ f.isPlainDefault (readAs FO i k)) := by
  unfold hashInst at he
  cases hf : C.frozen with
  | false =>
    rw [hf] at he
    cases he
    exact ⟨rfl, fun x => by cases x⟩
  | true =>
    rw [hf] at he
    simp only [Bool.not_true, Bool.false_eq_true, if_false] at he
    obtain ⟨d, hd, _, hm⟩ := h.toDict (o := {}) hC hE (black := []) rfl s
    cases hh : i.hash with
    | none => exact absurd hh (h.slot hf)
    | some c => cases c with
      | some n => rw [hh] at he; cases he
      | none =>
        rw [hh] at he
        simp only [hd] at he
        cases ht : hashTuple H d.values with
        | ok n => rw [ht] at he; cases he
        | error e' =>
          rw [ht] at he
          cases he
          unfold hashTuple at ht
          split at ht
          · cases ht
          · next hall =>
            cases ht
            refine ⟨rfl, fun _ => ?_⟩
            rw [List.all_eq_true] at hall
            have : ∃ v ∈ d.values, W.hashable v = false := by
              apply Classical.byContradiction
              intro hn
              refine hall fun v hv => ?_
              cases hx : W.hashable v with
              | true => rfl
              | false => exact absurd ⟨v, hv, hx⟩ hn
            obtain ⟨v, hv, hu⟩ := this
            obtain ⟨⟨k, w⟩, hkw, rfl⟩ := List.mem_map.1 hv
            obtain ⟨f, hf', hv', hx⟩ := (hm k w).1 hkw
            rcases hx with hx | ⟨_, hx | hx⟩
            · cases hx
            · cases hx
            · subst hv'
              exact ⟨k, f, hf', hu, hx⟩

/-- C111: `hash` of a record raises nothing but TypeError, whatever was done with it; and in a frozen class only if some field reads as an
unhashable value other than the default. -/
theorem C111_hash {E : Env W} {H : Hasher W} {C : RecClass W} (hC : Creatable C) {FO : String → W.Obj} (hE : OnClass E C FO)
    (ops : List (Op W)) {i : Inst W} (h : InUse C i) {s t : LState W} {e : Exc}
    (he : (hashInst E H C (history E H C ops i s).1 t).1 = .error e) :
    e = .typeError ∧ (C.frozen = true → ∃ k f, (k, f) ∈ C.fields ∧ W.hashable (readAs FO (history E H C ops i s).1 k) = false ∧
      ¬ f.isPlainDefault (readAs FO (history E H C ops i s).1 k)) :=
  (C111_in_use E H ops h s).hash_error hC hE he

theorem eqFields_ok {E : Env W} {a b : Inst W} {ks : List String} (ha : ∀ k ∈ ks, ∃ v, a.attr E k = .ok v)
    (hb : ∀ k ∈ ks, ∃ v, b.attr E k = .ok v) : ∃ r, eqFields E a b ks = .ok r := by
  induction ks with
  | nil => exact ⟨true, rfl⟩
  | cons k ks ih =>
    obtain ⟨v, hv⟩ := ha k (by simp)
    obtain ⟨w, hw⟩ := hb k (by simp)
    unfold eqFields
    simp only [hv, hw]
    split
    · exact ih (fun k hk => ha k (by simp [hk])) (fun k hk => hb k (by simp [hk]))
    · exact ⟨false, rfl⟩

theorem InUse.eq_error {E : Env W} {H : Hasher W} {C : RecClass W} (hC : Creatable C) {FO : String → W.Obj} (hE : OnClass E C FO)
    {a b : Inst W} (ha : a.cid = C.cid → InUse C a) (hb : b.cid = C.cid → InUse C b) (hab : a.cid = C.cid ∨ b.cid = C.cid)
    {s : LState W} {e : Exc} (he : (eqInst E H C a b s).1 = .error e) :
    e = .typeError ∧ C.frozen = true ∧ ∃ j, (j = a ∨ j = b) ∧ ∃ k f, (k, f) ∈ C.fields ∧ W.hashable (readAs FO j k) = false ∧
      ¬ f.isPlainDefault (readAs FO j k) := by
  unfold eqInst at he
  split at he
  · cases he
  · next hc =>
    have hc : a.cid = b.cid := Classical.byContradiction hc
    have ha : InUse C a := ha (hab.elim id fun h => hc.trans h)
    have hb : InUse C b := hb (hc.symm.trans ha.cls)
    obtain ⟨r, hr⟩ := eqFields_ok (E := E) (a := a) (b := b) (ks := C.fields.keys) (fun k hk => ⟨_, ha.read hE hk⟩)
      (fun k hk => ⟨_, hb.read hE hk⟩)
    split at he
    · next hf =>
      split at he
      · next hx =>
        cases he
        obtain ⟨h1, h2⟩ := ha.hash_error (s := s) hC hE (H := H) (by rw [hx])
        exact ⟨h1, hf, a, .inl rfl, h2 hf⟩
      · next s1 hx =>
        split at he
        · next hy =>
          cases he
          obtain ⟨h1, h2⟩ := hb.hash_error (s := s1) hC hE (H := H) (by rw [hy])
          exact ⟨h1, hf, b, .inr rfl, h2 hf⟩
        · rw [hr] at he
          simp only at he
          split at he <;> cases he
    · rw [hr] at he
      cases he

/-- C111: `==` and `!=` between a record and another one of any class, whatever was done with the two, raise nothing but TypeError; and
only in a frozen class, if a field of one of them reads as an unhashable value other than the default. -/
theorem C111_eq {E : Env W} {H : Hasher W} {C : RecClass W} (hC : Creatable C) {FO : String → W.Obj} (hE : OnClass E C FO)
    (ops ops' : List (Op W)) {a b : Inst W} (ha : InUse C a) (hb : InUse C b) {s s' t : LState W} {e : Exc}
    (he : (eqInst E H C (history E H C ops a s).1 (history E H C ops' b s').1 t).1 = .error e) :
    e = .typeError ∧ C.frozen = true ∧ ∃ j, (j = (history E H C ops a s).1 ∨ j = (history E H C ops' b s').1) ∧
      ∃ k f, (k, f) ∈ C.fields ∧ W.hashable (readAs FO j k) = false ∧ ¬ f.isPlainDefault (readAs FO j k) :=
  InUse.eq_error hC hE (fun _ => C111_in_use E H ops ha s) (fun _ => C111_in_use E H ops' hb s')
    (.inl (C111_in_use E H ops ha s).cls) he

/-- C111: an operation that raises leaves all attributes of the record as they were; it raises AttributeError (deletion of an attribute
that the record does not have) or else TypeError (assignment in a frozen class; hashing; comparing). Exports with a tag or a set of tags as
blacklist do not raise. -/
theorem C111_operation {E : Env W} {H : Hasher W} {C : RecClass W} (hC : Creatable C) {FO : String → W.Obj} (hE : OnClass E C FO)
    (ops : List (Op W)) {i : Inst W} (h : InUse C i) {s t : LState W} {op : Op W} (hop : op.fair C) {e : Exc}
    (he : (op.run E H C (history E H C ops i s).1 t).1 = .error e) :
    (op.run E H C (history E H C ops i s).1 t).2.1.dict = (history E H C ops i s).1.dict ∧
      op.mayRaise C (history E H C ops i s).1 e := by
  have hi := C111_in_use E H ops h s
  generalize (history E H C ops i s).1 = j at hi he ⊢
  cases op with
  | set k v =>
    change (setInst C j k v).1 = _ at he
    show (setInst C j k v).2.dict = _ ∧ _
    unfold setInst at he ⊢
    split at he
    · next hf => cases he; rw [if_pos hf]; exact ⟨rfl, rfl, hf⟩
    · cases he
  | del k =>
    change (delInst j k).1 = _ at he
    show (delInst j k).2.dict = _ ∧ _
    unfold delInst at he ⊢
    split at he
    · cases he
    · next hk =>
      cases he
      rw [if_neg hk]
      refine ⟨rfl, rfl, ?_⟩
      cases hg : j.dict.get? k with
      | none => rfl
      | some v => exact absurd (by unfold Dict.has; rw [hg]; rfl) hk
  | hash =>
    have h2 := (hi.hashed (E := E) (H := H) t)
    change ((hashInst E H C j t).1.map fun _ => ()) = _ at he
    show (hashInst E H C j t).2.1.dict = _ ∧ _
    refine ⟨h2.2, ?_⟩
    cases hx : (hashInst E H C j t).1 with
    | ok n => rw [hx] at he; cases he
    | error e' => rw [hx] at he; cases he; exact (hi.hash_error hC hE hx).1
  | eq b =>
    have h2 := (hi.compared (E := E) (H := H) b t)
    change ((eqInst E H C j b t).1.map fun _ => ()) = _ at he
    show (eqInst E H C j b t).2.1.dict = _ ∧ _
    refine ⟨h2.2, ?_⟩
    cases hx : (eqInst E H C j b t).1 with
    | ok n => rw [hx] at he; cases he
    | error e' =>
      rw [hx] at he
      cases he
      obtain ⟨h3, h4, _⟩ := InUse.eq_error hC hE (fun _ => hi) hop (.inl hi.cls) hx
      refine ⟨h3, h4, Classical.byContradiction fun hne => ?_⟩
      unfold eqInst at hx
      rw [if_pos (by rw [hi.cls]; exact fun h => hne h.symm)] at hx
      cases hx
  | eqBy b =>
    have h2 := (hi.comparedBy (E := E) (H := H) b t)
    change ((eqInst E H C b j t).1.map fun _ => ()) = _ at he
    show (eqInst E H C b j t).2.2.1.dict = _ ∧ _
    refine ⟨h2.2, ?_⟩
    cases hx : (eqInst E H C b j t).1 with
    | ok n => rw [hx] at he; cases he
    | error e' =>
      rw [hx] at he
      cases he
      obtain ⟨h3, h4, _⟩ := InUse.eq_error hC hE hop (fun _ => hi) (.inr hi.cls) hx
      refine ⟨h3, h4, Classical.byContradiction fun hne => ?_⟩
      unfold eqInst at hx
      rw [if_pos (by rw [hi.cls]; exact hne)] at hx
      cases hx
  | «export» o =>
    obtain ⟨l, hl⟩ := hop
    obtain ⟨d, hd, _⟩ := hi.toDict hC hE hl t
    change ((toDict C (.ofInst E j) o Sel.empty t).1.map fun _ => ()) = _ at he
    rw [hd] at he
    cases he
  | setHash n => cases he

theorem attrs_read {E : Env W} {i : Inst W} {ks : List String} {g : String → W.Obj} (h : ∀ k ∈ ks, i.attr E k = .ok (g k)) :
    attrs E i ks = .ok (ks.map g) := by
  induction ks with
  | nil => rfl
  | cons k ks ih =>
    unfold attrs
    rw [h k (by simp), ih fun k hk => h k (by simp [hk])]
    rfl

theorem listCmp_error {O : ObjCmp W} {op : CmpOp} {as bs : List W.Obj} {e : Exc} (h : listCmp O op as bs = .error e) :
    ∃ a ∈ as, ∃ b ∈ bs, O op a b = .error e := by
  induction as generalizing bs with
  | nil => unfold listCmp at h; cases h
  | cons a as ih => cases bs with
    | nil => unfold listCmp at h; cases h
    | cons b bs =>
      unfold listCmp at h
      split at h
      · obtain ⟨a', ha, b', hb, h⟩ := ih h
        exact ⟨a', by simp [ha], b', by simp [hb], h⟩
      · exact ⟨a, by simp, b, by simp, h⟩

theorem InUse.key {E : Env W} {C : RecClass W} {FO : String → W.Obj} (hE : OnClass E C FO) {i : Inst W} (h : InUse C i) :
    orderingKey E C i = .ok ((Dict.keys (C.fields.filter fun kf => decide (excludeTag ∉ kf.2.tags))).map (readAs FO i)) :=
  attrs_read fun k hk => by
    obtain ⟨kf, hkf, rfl⟩ := List.mem_map.1 hk
    exact h.read hE (List.mem_map.2 ⟨kf, (List.mem_filter.1 hkf).1, rfl⟩)

theorem cmpMethod_error {E : Env W} {O : ObjCmp W} {op : CmpOp} {Ca Cb : RecClass W} {FA FB : String → W.Obj}
    (hA : OnClass E Ca FA) (hB : OnClass E Cb FB) {a b : Inst W} (ha : InUse Ca a) (hb : InUse Cb b) {e : Exc}
    (he : cmpMethod E O op Ca a Cb b = .error e) :
    (e = .typeError ∧ Ca.ordered = false) ∨
      ∃ k ∈ Ca.fields.map (·.1), ∃ k' ∈ Cb.fields.map (·.1), O op (readAs FA a k) (readAs FB b k') = .error e := by
  unfold cmpMethod at he
  split at he
  · next h => cases he; left; exact ⟨rfl, by simpa using h⟩
  · split at he
    · cases he
    · rw [ha.key hA, hb.key hB] at he
      simp only at he
      right
      cases hx : listCmp O op ((Dict.keys (Ca.fields.filter fun kf => decide (excludeTag ∉ kf.2.tags))).map (readAs FA a))
          ((Dict.keys (Cb.fields.filter fun kf => decide (excludeTag ∉ kf.2.tags))).map (readAs FB b)) with
      | ok r => rw [hx] at he; cases he
      | error e' =>
        rw [hx] at he
        cases he
        obtain ⟨v, hv, w, hw, h⟩ := listCmp_error hx
        obtain ⟨k, hk, rfl⟩ := List.mem_map.1 hv
        obtain ⟨k', hk', rfl⟩ := List.mem_map.1 hw
        have sub : ∀ {C : RecClass W} {k : String},
            k ∈ Dict.keys (C.fields.filter fun kf => decide (excludeTag ∉ kf.2.tags)) → k ∈ C.fields.map (·.1) := by
          intro C k hk
          obtain ⟨kf, hkf, rfl⟩ := List.mem_map.1 hk
          exact List.mem_map.2 ⟨kf, (List.mem_filter.1 hkf).1, rfl⟩
        exact ⟨k, sub hk, k', sub hk', h⟩

/-- C111: `<`, `<=`, `>`, `>=` between two records, whatever was done with them, raise TypeError or what comparing two of their field
values raised. -/
theorem C111_order {E : Env W} {H : Hasher W} {O : ObjCmp W} {op : CmpOp} {Ca Cb : RecClass W} {FA FB : String → W.Obj}
    (hA : OnClass E Ca FA) (hB : OnClass E Cb FB) (ops ops' : List (Op W)) {a b : Inst W} (ha : InUse Ca a) (hb : InUse Cb b)
    {s s' : LState W} {e : Exc}
    (he : compare E O op Ca (history E H Ca ops a s).1 Cb (history E H Cb ops' b s').1 = .error e) :
    e = .typeError ∨ ∃ k ∈ Ca.fields.map (·.1), ∃ k' ∈ Cb.fields.map (·.1),
      O op (readAs FA (history E H Ca ops a s).1 k) (readAs FB (history E H Cb ops' b s').1 k') = .error e ∨
      O op.swap (readAs FB (history E H Cb ops' b s').1 k') (readAs FA (history E H Ca ops a s).1 k) = .error e := by
  have ha := C111_in_use E H ops ha s
  have hb := C111_in_use E H ops' hb s'
  generalize (history E H Ca ops a s).1 = a at ha he ⊢
  generalize (history E H Cb ops' b s').1 = b at hb he ⊢
  have h1 : ∀ e, cmpMethod E O op Ca a Cb b = .error e → e = .typeError ∨ ∃ k ∈ Ca.fields.map (·.1), ∃ k' ∈ Cb.fields.map (·.1),
      O op (readAs FA a k) (readAs FB b k') = .error e ∨ O op.swap (readAs FB b k') (readAs FA a k) = .error e := by
    intro e he
    rcases cmpMethod_error hA hB ha hb he with ⟨h, _⟩ | ⟨k, hk, k', hk', h⟩
    · exact .inl h
    · exact .inr ⟨k, hk, k', hk', .inl h⟩
  have h2 : ∀ e, cmpMethod E O op.swap Cb b Ca a = .error e → e = .typeError ∨ ∃ k ∈ Ca.fields.map (·.1), ∃ k' ∈ Cb.fields.map (·.1),
      O op (readAs FA a k) (readAs FB b k') = .error e ∨ O op.swap (readAs FB b k') (readAs FA a k) = .error e := by
    intro e he
    rcases cmpMethod_error hB hA hb ha he with ⟨h, _⟩ | ⟨k, hk, k', hk', h⟩
    · exact .inl h
    · exact .inr ⟨k', hk', k, hk, .inr h⟩
  have or : ∀ x y : Except Exc (Option Bool), compare.orElse x y = .error e → x = .error e ∨ y = .error e ∨ e = .typeError := by
    intro x y h
    unfold compare.orElse at h
    split at h
    · cases h; exact .inl rfl
    · cases h
    · split at h
      · cases h; exact .inr (.inl rfl)
      · cases h
      · cases h; exact .inr (.inr rfl)
  unfold compare at he
  simp only at he
  split at he
  · rcases or _ _ he with h | h | h
    · exact h2 e h
    · exact h1 e h
    · exact .inl h
  · rcases or _ _ he with h | h | h
    · exact h1 e h
    · exact h2 e h
    · exact .inl h

end Records

/-! ### examples -/
namespace Records.Toy.Safe
open Toy

def H : Hasher W := hasher 0

/-- the field objects are the class attributes (say, object 9) -/
def E : Env W := { env with clsAttr := fun _ _ => some (.fn 9) }

theorem onB : OnClass E B (fun _ => .fn 9) := fun _ _ => rfl

/-- `r = B(x=1, z='a')`, `r.x = 5` (raises), `del r.x`, `hash(r)`, `del r.x` (raises), `r == r'`, `r.to_dict()` -/
def ops : List (Op W) :=
  [.set "x" (.int 5), .del "x", .hash, .del "x", .eq (mkB (.int 1) (.int 4) "a"), .export {}]

theorem inUse (x y : TObj) (z : String) : InUse B (mkB x y z) := ⟨rfl, fun _ h => by cases h⟩

/-- the deleted field reads as the field object -/
example : (history E H B ops (mkB (.int 1) (.int 3) "a") s0).1.attr E "x" = .ok (.fn 9) :=
  C111_read H onB ops (inUse _ _ _) s0 (k := "x") (.head _)
example := C111_in_use E H ops (inUse (.int 1) (.int 3) "a") s0

/-- and is exported so -/
example : ∃ d, toDict B (.ofInst E (history E H B ops (mkB (.int 1) (.int 3) "a") s0).1) {} Sel.empty s0 = (.ok d, s0) ∧
    ("x", (.fn 9 : TObj)) ∈ d := by
  obtain ⟨d, h1, _, h2⟩ := C111_to_dict H B_creatable onB ops (inUse (.int 1) (.int 3) "a") (o := {}) (black := []) rfl s0 s0
  refine ⟨d, h1, (h2 _ _).2 ⟨_, .head _, rfl, .inr ⟨fun _ _ h => (by cases h), .inr ?_⟩⟩⟩
  rintro ⟨d, h, _⟩
  cases h
example : reprInst E (fun _ => "B") (fun | .fn 9 => "<field>" | .str s => s | _ => "?") B {}
    (history E H B ops (mkB (.int 1) (.int 3) "a") s0).1 s0 = (.ok "B(x=<field>, z=a)", s0) := rfl
example := C111_repr H B_creatable onB ops (inUse (.int 1) (.int 3) "a") (fun _ => "B") (fun _ => "?") (o := {}) (black := []) rfl s0 s0

/-- an unhashable value -/
example : ∃ k f, (k, f) ∈ B.fields ∧ (W.hashable (readAs (W := W) (fun _ => .fn 9) (mkB (list []) (.int 3) "a") k) = false) ∧
    ¬ f.isPlainDefault (readAs (W := W) (fun _ => .fn 9) (mkB (list []) (.int 3) "a") k) :=
  (C111_hash (E := E) (H := H) B_creatable onB [] (inUse (list []) (.int 3) "a") (s := s0) (t := s0) (e := .typeError) rfl).2 rfl
example := C111_eq (E := E) (H := H) B_creatable onB [.setHash (some 4), .setHash none] [.export {}] (inUse (list []) (.int 3) "a")
  (inUse (.int 1) (.int 3) "a") (s := s0) (s' := s0) (t := s0) (e := .typeError) rfl

/-- failing operations -/
example := C111_operation (E := E) (H := H) B_creatable onB ops (inUse (.int 1) (.int 3) "a") (s := s0) (t := s0)
  (op := .del "x") trivial (e := .attributeError) rfl
example := C111_operation (E := E) (H := H) B_creatable onB ops (inUse (.int 1) (.int 3) "a") (s := s0) (t := s0)
  (op := .set "x" (.int 3)) trivial (e := .typeError) rfl
example := C111_operation (E := E) (H := H) B_creatable onB [] (inUse (list []) (.int 3) "a") (s := s0) (t := s0)
  (op := .eqBy (mkB (.int 1) (.int 3) "a")) (fun _ => inUse _ _ _) (e := .typeError) rfl

/-- comparing 1 and the field object raises an exception of the user -/
def O : ObjCmp W := fun op v w => match v, w with
  | .int a, .int b => .ok (match op with | .lt => decide (a < b) | .le => decide (a ≤ b) | .gt => decide (b < a) | .ge => decide (b ≤ a))
  | _, _ => .error ⟨.user 7, none⟩

/-- `B` with `ordered=True` -/
def BO : RecClass W := { B with ordered := true }

example := C111_order (E := E) (H := H) (O := O) (op := .lt) (Ca := BO) (Cb := BO) (FA := fun _ => .fn 9) (FB := fun _ => .fn 9)
  (fun _ _ => rfl) (fun _ _ => rfl) [.del "x"] [] (a := mkB (.int 1) (.int 3) "a") (b := mkB (.int 1) (.int 3) "a")
  ⟨rfl, fun _ h => by cases h⟩ ⟨rfl, fun _ h => by cases h⟩ (s := s0) (s' := s0) (e := ⟨.user 7, none⟩) rfl

end Records.Toy.Safe
