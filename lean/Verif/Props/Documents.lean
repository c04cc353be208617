import Verif.Spec.Documents
import Verif.Props.Container
import Verif.Props.Leaf
import Verif.Props.Union
import Verif.Props.Parse
import Verif.Props.Roundtrip
/-
C124: records built from nested mappings.
-/
namespace Records
variable {W : World} {E : Env W} {cls : W.Cls → RecClass W} {h : W.Obj → Node W} {U : W.Obj → Prop}

namespace DocLemmas

/-- what a field of the schema does with an object -/
def FieldReads (E : Env W) (cls : W.Cls → RecClass W) (h : W.Obj → Node W) (S : Schema W) (g : F W) (v : W.Obj) : Prop :=
  (S.Doc E cls v ∧ ∀ s, ∃ o s', g.call v s = (.ok o, s') ∧ S.Read E cls h v o) ∨
  (¬ S.Doc E cls v ∧ ∀ s, ∃ (e : Exc) (s' : LState W), e.isException = true ∧ g.call v s = (.error e, s'))

/-- filling a list of arguments -/
theorem fill_all {fields : Dict (Field W)} {ks : String → Schema W} :
    ∀ {m : Dict W.Obj}, (∀ k v, (k, v) ∈ m → ∃ f, fields.get? k = some f ∧ FieldReads E cls h (ks k) f.filler v) → ∀ s,
    ((∀ k v, (k, v) ∈ m → (ks k).Doc E cls v) ∧ ∃ out s', FillArgs fields m s out s' ∧ out.map (·.1) = m.map (·.1) ∧
      Along (fun a b => a.1 = b.1 ∧ (ks a.1).Read E cls h a.2 b.2) m out) ∨
    (¬ (∀ k v, (k, v) ∈ m → (ks k).Doc E cls v) ∧ ∃ (k : String) (e : Exc) (s' : LState W), e.isException = true ∧ FillArgsFail fields m s k e s')
  | [], _, s => .inl ⟨nofun, [], s, .nil s, rfl, trivial⟩
  | (k, v) :: m, hm, s => by
    obtain ⟨f, hf, hr⟩ := hm k v List.mem_cons_self
    rcases hr with ⟨hd, hr⟩ | ⟨hd, hr⟩
    · obtain ⟨o, s1, hc, ho⟩ := hr s
      rcases fill_all (fun k v hkv => hm k v (List.mem_cons_of_mem _ hkv)) s1 with ⟨hd', out, s2, h1, h2, h3⟩ | ⟨hd', k', e, s2, he, h1⟩
      · refine .inl ⟨fun k' v' hkv => ?_, (k, o) :: out, s2, .cons hf hc h1, by simp [h2], ⟨rfl, ho⟩, h3⟩
        rcases List.mem_cons.1 hkv with e | e
        · cases e; exact hd
        · exact hd' k' v' e
      · exact .inr ⟨fun hall => hd' fun k v hkv => hall k v (List.mem_cons_of_mem _ hkv), k', e, s2, he, .there hf hc h1⟩
    · obtain ⟨e, s1, he, hc⟩ := hr s
      exact .inr ⟨fun hall => hd (hall k v List.mem_cons_self), k, e, s1, he, .here hf hc⟩

/-- filling the elements of a list -/
theorem fill_elems {S : Schema W} {g : F W} : ∀ {xs : List W.Obj}, (∀ w ∈ xs, FieldReads E cls h S g w) → ∀ s,
    ((∀ w ∈ xs, S.Doc E cls w) ∧ ∃ ws s', FillSeq (xs.map fun o => (o, g.call)) s ws s' ∧ Along (S.Read E cls h) xs ws) ∨
    (¬ (∀ w ∈ xs, S.Doc E cls w) ∧ ∃ (ws : List W.Obj) (e : Exc) (s' : LState W), e.isException = true ∧
      FillSeqFails (xs.map fun o => (o, g.call)) s ws e s')
  | [], _, s => .inl ⟨nofun, [], s, .nil s, trivial⟩
  | x :: xs, hx, s => by
    rcases hx x List.mem_cons_self with ⟨hd, hr⟩ | ⟨hd, hr⟩
    · obtain ⟨o, s1, hc, ho⟩ := hr s
      rcases fill_elems (fun w hw => hx w (List.mem_cons_of_mem _ hw)) s1 with ⟨hd', ws, s2, h1, h2⟩ | ⟨hd', ws, e, s2, he, h1⟩
      · refine .inl ⟨fun w hw => ?_, o :: ws, s2, .cons hc h1, ho, h2⟩
        rcases List.mem_cons.1 hw with rfl | hw
        · exact hd
        · exact hd' w hw
      · exact .inr ⟨fun hall => hd' fun w hw => hall w (List.mem_cons_of_mem _ hw), o :: ws, e, s2, he, .later hc h1⟩
    · obtain ⟨e, s1, he, hc⟩ := hr s
      exact .inr ⟨fun hall => hd (hall x List.mem_cons_self), [], e, s1, he, .here hc⟩

theorem along_get {α : Type} {r : String × α → String × α → Prop} (hr : ∀ a b, r a b → a.1 = b.1) {out : Dict α} :
    ∀ {m : Dict α}, (m.map (·.1)).Nodup → Along r m out → ∀ k v, (k, v) ∈ m → ∃ x, Dict.get? out k = some x ∧ r (k, v) (k, x) := by
  induction out with
  | nil => intro m _ h k v hkv; cases m with
    | nil => cases hkv
    | cons _ _ => cases h
  | cons b out ih =>
    intro m hn h k v hkv
    cases m with
    | nil => cases hkv
    | cons a m =>
      obtain ⟨h1, h2⟩ := h
      obtain ⟨k', x⟩ := b
      simp only [List.map_cons, List.nodup_cons] at hn
      have e := hr _ _ h1
      rcases List.mem_cons.1 hkv with e' | e'
      · subst e'
        simp only at e
        subst e
        exact ⟨x, by simp [Dict.get?], h1⟩
      · obtain ⟨y, hy, hr'⟩ := ih hn.2 h2 k v e'
        refine ⟨y, ?_, hr'⟩
        have hne : k' ≠ k := by
          rintro rfl
          exact hn.1 (by rw [e]; exact List.mem_map.2 ⟨_, e', rfl⟩)
        unfold Dict.get?
        rw [if_neg (by simpa using hne)]
        exact hy

/-- `cls(**m)` without the names of parameters -/
theorem callN_plain {C : RecClass W} {m : Dict W.Obj} (hm : ∀ k ∈ m.map (·.1), k ∉ ["self", "cls", "arg"]) (n : Nat) :
    callN E C (n + 1) none m = newFields E C none m := by
  have hno : ∀ k ∈ ["self", "cls", "arg"], k ∉ m.keys := fun k hk hkm => hm k hkm hk
  unfold callN callCls
  rw [(Dict.has_eq_false_iff m "cls").2 (hno _ (by simp))]
  have ha : m.get? "arg" = none := (Dict.get?_eq_none_iff _ _).2 (hno _ (by simp))
  rw [ha]
  simp only [Bool.false_eq_true, if_false, construct_none]
  funext s
  unfold M.bind
  rcases newFields E C none m s with ⟨r, s'⟩
  cases r with
  | error e => rfl
  | ok r =>
    simp only [callCls.init]
    rw [(Dict.has_eq_false_iff m "self").2 (hno _ (by simp))]
    simp [M.pure]

/-- `cls(v)` -/
theorem callN_arg {C : RecClass W} (n : Nat) (v : W.Obj) (s : LState W) :
    callN E C (n + 1) (some v) [] s = construct E C (parseWith E C fun m => callN E C n none m) (some v) [] s := by
  show M.bind _ _ s = _
  unfold M.bind
  rcases construct E C (parseWith E C fun m => callN E C n none m) (some v) [] s with ⟨r, s'⟩
  cases r with
  | error e => rfl
  | ok r => simp [callCls.init, Dict.has, Dict.get?, M.pure]

theorem rewrapErr_exception (hU : Documents E U) {e : Exc} (he : e.isException = true) (k : String) :
    (rewrapErr E e k).isException = true := by
  unfold rewrapErr
  obtain ⟨kind, fl⟩ := e
  cases kind <;> first | exact he | skip
  rename_i n
  simp only
  cases hr : E.rewrap n with
  | ok => exact he
  | typeError => rfl
  | raises e' =>
    simp only
    split
    · rfl
    · exact hU.rewrap n e' hr

/-- the mapping has the shape that the class asks for -/
def Shape (E : Env W) (cls : W.Cls → RecClass W) (C : RecClass W) (ks : String → Schema W) (m : Dict W.Obj) : Prop :=
  (∀ k ∈ m.map (·.1), k ∈ C.fields.map (·.1)) ∧ (∀ k ∈ C.required, k ∈ m.map (·.1)) ∧ ∀ k w, (k, w) ∈ m → (ks k).Doc E cls w

/-- the record has what the mapping says -/
def Holds (E : Env W) (cls : W.Cls → RecClass W) (h : W.Obj → Node W) (C : RecClass W) (ks : String → Schema W) (m : Dict W.Obj)
    (i : Inst W) : Prop :=
  i.cid = C.cid ∧ (i.dict.map (·.1)).Perm (C.fields.map (·.1)) ∧
  (∀ k w, (k, w) ∈ m → ∃ x, i.dict.get? k = some x ∧ (ks k).Read E cls h w x) ∧
  ∀ k f, (k, f) ∈ C.fields → k ∉ m.map (·.1) → ∃ d, f.default = some (.value d) ∧ i.dict.get? k = some d

theorem build (hU : Documents E U) {C : RecClass W} (hC : Readable C) {ks : String → Schema W}
    (hd : ∀ k f, (k, f) ∈ C.fields → ∀ g, f.default ≠ some (.factory g))
    {m : Dict W.Obj} (hm : m.WF) (hf : ∀ k f v, (k, f) ∈ C.fields → (k, v) ∈ m → FieldReads E cls h (ks k) f.filler v)
    (hn : ∀ k ∈ m.map (·.1), k ∉ ["self", "cls", "arg"]) (n : Nat) (s : LState W) :
    (Shape E cls C ks m ∧ ∃ i s', callN E C (n + 1) none m s = (.ok (.new i), s') ∧ Holds E cls h C ks m i) ∨
    (¬ Shape E cls C ks m ∧ ∃ (e : Exc) (s' : LState W), e.isException = true ∧ callN E C (n + 1) none m s = (.error e, s')) := by
  have wf := hC.creatable.wf
  rw [callN_plain hn]
  by_cases hk : ∀ k ∈ m.map (·.1), k ∈ C.fields.map (·.1)
  · have hall : ∀ k v, (k, v) ∈ m → ∃ f, C.fields.get? k = some f ∧ FieldReads E cls h (ks k) f.filler v := by
      intro k v hkv
      obtain ⟨⟨k', f⟩, hkf, e⟩ := List.mem_map.1 (hk k (List.mem_map.2 ⟨_, hkv, rfl⟩))
      simp only at e
      subst e
      exact ⟨f, Dict.mem_get? _ wf.nodup _ _ hkf, hf _ _ _ hkf hkv⟩
    rcases fill_all hall s with ⟨hdoc, out, s1, h1, h2, h3⟩ | ⟨hdoc, k, e, s1, he, h1⟩
    · by_cases hr : ∀ k ∈ C.required, k ∈ m.map (·.1)
      · refine .inl ⟨⟨hk, hr, hdoc⟩, ?_⟩
        have hun := (unsupplied_mem (E := E) wf (kw := m)).2
        obtain ⟨defs, h4, h5⟩ := defaultSeq_plain (fields := C.fields) (C.unsupplied E m) (by
          intro k hk'
          obtain ⟨ho, -⟩ := (hun k).1 hk'
          obtain ⟨f, d, hfk, hfd⟩ := (wf.opt k).1 ho
          cases d with
          | value d => exact ⟨f, d, hfk, hfd⟩
          | factory g => exact absurd hfd (hd k f (Dict.get?_eq_some_mem _ _ _ hfk) g)) s1
        have hb : Build C m (C.unsupplied E m) s (.made (.new (C.fresh (out ++ defs)))) s1 :=
          .made h1 hr h4 (hC.post _ _) .none
        refine ⟨_, s1, newFields_spec wf hm none hb, rfl, values_keys wf hm h1 hr h4, ?_, ?_⟩
        · intro k w hkw
          obtain ⟨x, hx, -, hx'⟩ := along_get (fun a b h => h.1) hm h3 k w hkw
          refine ⟨x, ?_, hx'⟩
          show Dict.get? (out ++ defs) k = _
          rw [get?_append, hx]
          rfl
        · intro k f hkf hkm
          have hkr : k ∉ C.required := fun h => hkm (hr k h)
          have hko : k ∈ C.optional := ((fields_split wf k).1 (List.mem_map.2 ⟨_, hkf, rfl⟩)).resolve_left hkr
          obtain ⟨f', d, h6, h7, h8⟩ := h5 k ((hun k).2 ⟨hko, hkm⟩)
          rw [Dict.mem_get? _ wf.nodup _ _ hkf] at h6
          cases h6
          refine ⟨d, h7, ?_⟩
          show Dict.get? (out ++ defs) k = _
          have : Dict.get? out k = none := (Dict.get?_eq_none_iff out k).2 (by show k ∉ out.map (·.1); rw [h2]; exact hkm)
          rw [get?_append, this]
          exact h8
      · refine .inr ⟨fun hs => hr hs.2.1, ?_⟩
        simp only [Classical.not_forall] at hr
        obtain ⟨k, hk1, hk2⟩ := hr
        exact ⟨.typeError, s1, rfl, newFields_spec wf hm none (.missing h1 hk1 hk2)⟩
    · refine .inr ⟨fun hs => hdoc hs.2.2, rewrapErr E e k, s1, rewrapErr_exception hU he k, ?_⟩
      rw [newFields_spec wf hm none (.fillError hk h1)]
      simp [Outcome.resolve, he]
  · refine .inr ⟨fun hs => hk hs.1, ?_⟩
    simp only [Classical.not_forall] at hk
    obtain ⟨k, hk1, hk2⟩ := hk
    exact ⟨.typeError, s, rfl, newFields_spec wf hm none (.unknownKey hk1 hk2)⟩

theorem mem_congr {m m' : Dict W.Obj} (hm : m.WF) (hm' : m'.WF) (hg : m'.get? = m.get?) (k : String) (w : W.Obj) :
    (k, w) ∈ m' ↔ (k, w) ∈ m := by
  rw [← Dict.get?_iff_mem _ hm', ← Dict.get?_iff_mem _ hm, hg]

theorem keys_congr {m m' : Dict W.Obj} (hg : m'.get? = m.get?) (k : String) : k ∈ m'.map (·.1) ↔ k ∈ m.map (·.1) := by
  have h1 := Dict.get?_eq_none_iff m k
  have h2 := Dict.get?_eq_none_iff m' k
  rw [hg] at h2
  exact Decidable.not_iff_not.1 (h2.symm.trans h1)

/-- reading one document, if the fields read theirs -/
theorem class_reads (hU : Documents E U) {c : W.Cls} {ks : String → Schema W} (hS : (Schema.record c ks).OK E cls U)
    (hf : ∀ k f v, (k, f) ∈ (cls c).fields → U v → FieldReads E cls h (ks k) f.filler v) {v : W.Obj} (hv : U v)
    (hi : W.isInstance v c = false) (n : Nat) (s : LState W) :
    ((Schema.record c ks).Doc E cls v ∧ ∃ i s', callN E (cls c) (n + 2) (some v) [] s = (.ok (.new i), s') ∧
      ∀ o, h o = .record i → (Schema.record c ks).Read E cls h v o) ∨
    (¬ (Schema.record c ks).Doc E cls v ∧ ∃ s', callN E (cls c) (n + 2) (some v) [] s = (.error .parseFailure, s')) := by
  obtain ⟨hC, hcid, -, hflds, hrd⟩ := hS
  obtain ⟨val, hval, k0, hk0, hv0⟩ := hrd v hv hi
  have hparse := C59_required hC.creatable hC.parsers hval hk0 hv0 (by rw [hcid]; exact hi) (hU.json v hv)
    (fun m => callN E (cls c) (n + 1) none m) s
  have hne : (cls c).required.length ≠ 1 := by have := hC.two; omega
  obtain ⟨c1, c2, -⟩ := C55_parsed_no_field (E := E) (parse := parseWith E (cls c) fun m => callN E (cls c) (n + 1) none m)
    hC.unary hne v (s := s) (s1 := (parseWith E (cls c) (fun m => callN E (cls c) (n + 1) none m) v s).2)
  rw [callN_arg]
  rcases hU.view v hv with ⟨m, hm, hmv, hmU, hmn⟩ | ⟨e, he, hev⟩
  · obtain ⟨m', hm', hg, hrun⟩ := C57_mapping_parser (C := cls c) (call := fun m => callN E (cls c) (n + 1) none m) (hmv s) hm
    have hmem := mem_congr hm hm' hg
    have hkeys := keys_congr (m := m) (m' := m') hg
    have hdoc : (Schema.record c ks).Doc E cls v ↔ Shape E cls (cls c) ks m' := by
      constructor
      · rintro (h | ⟨m2, h2, h3, h4, h5⟩)
        · rw [hi] at h; cases h
        · have e : m2 = m := by
            have := (h2 s).symm.trans (hmv s)
            injection this with e _
            injection e
          subst e
          exact ⟨fun k hk => h3 k ((hkeys k).1 hk), fun k hk => (hkeys k).2 (h4 k hk), fun k w hkw => h5 k w ((hmem k w).1 hkw)⟩
      · rintro ⟨h3, h4, h5⟩
        exact .inr ⟨m, hmv, fun k hk => h3 k ((hkeys k).2 hk), fun k hk => (hkeys k).1 (h4 k hk), fun k w hkw => h5 k w ((hmem k w).2 hkw)⟩
    rcases build hU hC (cls := cls) (h := h) (ks := ks) (fun k f hkf => (hflds k f hkf).2.1) hm'
      (fun k f v hkf hkv => hf k f v hkf (hmU _ ((hmem k v).1 hkv))) (fun k hk => hmn k ((hkeys k).1 hk)) n s with
      ⟨hs, i, s', hc, hh⟩ | ⟨hs, e, s', he, hc⟩
    · refine .inl ⟨hdoc.2 hs, i, s', ?_, ?_⟩
      · rw [hrun] at hparse
        simp only [hc] at hparse
        rw [hparse] at c2
        exact c2 _ rfl (by simp [Res.isNone])
      · intro o ho
        obtain ⟨h1, h2, h3, h4⟩ := hh
        exact .inr ⟨hi, m, i, hmv, ho, h1.trans hcid, h2, fun k w hkw => h3 k w ((hmem k w).2 hkw),
          fun k f hkf hk => h4 k f hkf fun hk' => hk ((hkeys k).1 hk')⟩
    · refine .inr ⟨fun hd => hs (hdoc.1 hd), s', ?_⟩
      rw [hrun] at hparse
      simp only [hc, he, if_true] at hparse
      rw [hparse] at c1
      exact c1 _ rfl
  · refine .inr ⟨?_, s, ?_⟩
    · rintro (h | ⟨m, h2, -⟩)
      · rw [hi] at h; cases h
      · have := (h2 s).symm.trans (hev s)
        injection this with e _
        cases e
    · have hrun : Parser.run E (cls c) (fun m => callN E (cls c) (n + 1) none m) v .fromMapping s = (.error e, s) := by
        show M.bind (E.chainView v) _ s = _
        rw [M.bind_error (hev s)]
      rw [hrun] at hparse
      simp only [he, if_true] at hparse
      rw [hparse] at c1
      exact c1 _ rfl

theorem reads_of {v : Carrier W} {val : String → Option W.Obj} (h1 : ∀ k x, val k = some x → ∀ s, v.attr k s = (.ok x, s))
    (h2 : ∀ k, val k = none → ∃ e : Exc, e.kind = .attributeError ∧ ∀ s, v.attr k s = (.error e, s)) : Reads v val := by
  intro k
  cases h : val k with
  | some x => exact h1 k x h
  | none => exact h2 k h

/-- every field of the schema reads its documents -/
theorem field_reads (hU : Documents E U) {n : Nat} (hK : Constructs E cls h U (n + 2)) (S : Schema W) :
    S.OK E cls U → ∀ g, S.Fills g → ∀ v, U v → FieldReads E cls h S g v := by
  induction S with
  | leaf D =>
    intro _ f hf v _
    by_cases hd : D v
    · exact .inl ⟨hd, fun s => ⟨v, s, (hf v s).1 hd, rfl⟩⟩
    · exact .inr ⟨hd, fun s => by
        obtain ⟨e, he, h⟩ := (hf v s).2 hd
        exact ⟨e, s, he, h⟩⟩
  | list c S ih =>
    intro hS g ⟨hk, he, e, hg, hm, hh, hS'⟩ v hv
    obtain ⟨a, e', ha, he', hcall⟩ := C34_elements (.iter c he) hg
    have : e' = e := by
      have := he'.symm.trans hm
      injection this
    subst this
    have hst : styleOf (W := W) .check ([] ++ []) = .check := rfl
    rw [hk] at ha
    by_cases hi : W.isInstance v c = true
    · obtain ⟨hel, hdr, hmk⟩ := hS.2.2 v hv hi
      have hself : ∀ s, (F.ann a).call v s = (.ok v, s) := fun s =>
        ((C20_match ha (.inl hst) (v := v) (.inr ⟨hst, hi⟩) s).1 v s).2 (.nil _ _)
      have hall : ∀ w ∈ W.elems v, FieldReads E cls h S e' w := fun w hw => ih hS.2.1 e' hS' w (hel w hw)
      by_cases hd : ∀ w ∈ W.elems v, S.Doc E cls w
      · refine .inl ⟨⟨hi, hd⟩, fun s => ?_⟩
        obtain ⟨h1, h2⟩ := ((hcall hh v s).2 v s (hself s))
        obtain ⟨ws, s', hws, hal⟩ := (fill_elems hall s).resolve_right (fun h => h.1 hd) |>.2
        by_cases e : ws = W.elems v
        · exact ⟨v, s', (h1 ws s' hws).1 e, ws, hal, .inl ⟨e, rfl⟩⟩
        · obtain ⟨o, ho, ho1, ho2⟩ := hmk ws s'.user
          refine ⟨o, s', ?_, ws, hal, .inr ⟨e, ho1, ho2⟩⟩
          rw [(h1 ws s' hws).2 e hdr]
          show M.lift (W.mkIter (W.typeOf v) ws) s' = _
          unfold M.lift
          rw [ho]
      · refine .inr ⟨fun h => hd h.2, fun s => ?_⟩
        obtain ⟨h1, h2⟩ := ((hcall hh v s).2 v s (hself s))
        obtain ⟨ws, er, s', her, hws⟩ := ((fill_elems hall s).resolve_left (fun h => hd h.1)).2
        obtain ⟨h3, h4⟩ := h2 ws er s' hws
        by_cases hp : ws <+: W.elems v
        · exact ⟨er, s', her, h3 hp⟩
        · by_cases hk : er.kind = .stopIteration
          · exact ⟨.runtimeError, s', rfl, (h4 hp hdr).2 hk⟩
          · exact ⟨er, s', her, (h4 hp hdr).1 hk⟩
    · refine .inr ⟨fun h => hi h.1, fun s => ⟨.typeError, s, rfl, ?_⟩⟩
      refine (hcall hh v s).1 _ _ (C20_no_coercers ha (.inl hst) ?_ rfl s)
      rintro (e | ⟨-, e⟩)
      · refine hi ?_
        show W.isSub (W.typeOf v) c = true
        rw [e]
        exact hS.1
      · exact hi e
  | either S T ihS ihT =>
    intro hS g ⟨h1, h2, e1, e2, hg, hm1, hm2, hh, hf1, hf2⟩ v hv
    have hm : Members .check ([] ++ []) [h1, h2] [e1, e2] := .cons hm1 (.cons hm2 .nil)
    have hg : unionField .check [] [] [h1, h2] = .ok g := hg
    have hh' : ∃ b ∈ [e1, e2], b.isHollow = false := ⟨e1, List.mem_cons_self, hh⟩
    rcases ihS hS.1 e1 hf1 v hv with ⟨d1, r1⟩ | ⟨d1, r1⟩
    · rcases ihT hS.2.1 e2 hf2 v hv with ⟨d2, r2⟩ | ⟨d2, r2⟩
      · exact absurd ⟨d1, d2⟩ (hS.2.2 v hv)
      · refine .inl ⟨.inl d1, fun s => ?_⟩
        obtain ⟨o, s1, hc1, ho⟩ := r1 s
        obtain ⟨e, s2, he, hc2⟩ := r2 s1
        obtain ⟨k, hk⟩ := F.call_ok.1 hc1
        have ht : AllTried v [e1, e2] s [.ok (o, k), .error e] s2 :=
          .cons hk (by rintro e ⟨⟩) (.cons (F.call_error.1 hc2) (by rintro e' ⟨⟩; exact he) (.nil _))
        refine ⟨o, s2, (C30_stored hg hm hh' ht o).2 ⟨k, by simp, ?_⟩, .inl ⟨d1, ho⟩⟩
        intro x j hx
        simp at hx
        obtain ⟨rfl, rfl⟩ := hx
        exact ⟨Nat.le_refl _, fun _ => rfl⟩
    · rcases ihT hS.2.1 e2 hf2 v hv with ⟨d2, r2⟩ | ⟨d2, r2⟩
      · refine .inl ⟨.inr d2, fun s => ?_⟩
        obtain ⟨e, s1, he, hc1⟩ := r1 s
        obtain ⟨o, s2, hc2, ho⟩ := r2 s1
        obtain ⟨k, hk⟩ := F.call_ok.1 hc2
        have ht : AllTried v [e1, e2] s [.error e, .ok (o, k)] s2 :=
          .cons (F.call_error.1 hc1) (by rintro e' ⟨⟩; exact he) (.cons hk (by rintro e ⟨⟩) (.nil _))
        refine ⟨o, s2, (C30_stored hg hm hh' ht o).2 ⟨k, by simp, ?_⟩, .inr ⟨d2, ho⟩⟩
        intro x j hx
        simp at hx
        obtain ⟨rfl, rfl⟩ := hx
        exact ⟨Nat.le_refl _, fun _ => rfl⟩
      · refine .inr ⟨fun h => h.elim d1 d2, fun s => ?_⟩
        obtain ⟨e, s1, he, hc1⟩ := r1 s
        obtain ⟨e', s2, he', hc2⟩ := r2 s1
        have ht : AllTried v [e1, e2] s [.error e, .error e'] s2 :=
          .cons (F.call_error.1 hc1) (by rintro e' ⟨⟩; exact he) (.cons (F.call_error.1 hc2) (by rintro e' ⟨⟩; exact he') (.nil _))
        exact ⟨e', s2, he', (C32_ambiguous hg hm hh' ht).2 [.error e] e' rfl (by simp)⟩
  | record c ks ih =>
    intro hS f ⟨b, hb, hfb⟩ v hv
    have hst : styleOf (W := W) .check ([] ++ [looseToken]) = .check := rfl
    have hval : tokValidators (W := W) (some c) ([] ++ [looseToken]) = [] := rfl
    by_cases hi : W.isInstance v c = true
    · refine .inl ⟨.inl hi, fun s => ⟨v, s, ?_, .inl ⟨hi, rfl⟩⟩⟩
      rw [hfb]
      refine ((C20_match hb (.inl hst) (v := v) (.inr ⟨hst, hi⟩) s).1 v s).2 ?_
      rw [hval]
      exact .nil _ _
    · have hi : W.isInstance v c = false := by simpa using hi
      have hcid := hS.2.1
      have hno : ¬ Fits (styleOf (W := W) .check ([] ++ [looseToken])) c v := by
        rintro (e | ⟨-, e⟩)
        · have : W.isInstance v c = true := by unfold World.isInstance; rw [e]; exact hS.2.2.1
          rw [hi] at this; cases this
        · rw [hi] at e; cases e
      have hab : W.isAbstract c = false := by
        cases ha : W.isAbstract c with
        | false => rfl
        | true => simp [Ann.make, Ann.applyAll, Ann.bind, Ann.apply, looseToken, Kind.origin, getCoercer, looseBind, ha] at hb
      have hcs : tokCoercers false (some c) ([] ++ [looseToken]) = [] ++ [loose (W := W) none c [] []] := by
        simp [tokCoercers, Tok.coercer?, looseToken, getCoercer, looseBind, hab]
      have hlift : ∀ s, loose (W := W) none c [] [] v s = M.lift (W.construct c [v] []) s := fun _ => rfl
      have hcls := class_reads (h := h) hU hS (fun k f v hkf hv => ih k (hS.2.2.2.1 k f hkf).2.2 f.filler (hS.2.2.2.1 k f hkf).1 v hv) hv hi n
      by_cases hd : (Schema.record c ks).Doc E cls v
      · refine .inl ⟨hd, fun s => ?_⟩
        obtain ⟨i, s', hc, hr⟩ := ((hcls s).resolve_right fun h => h.1 hd).2
        have hk := hK c v s hcid hv hi
        rw [hc] at hk
        obtain ⟨o, h1, h2, h3⟩ := hk
        refine ⟨o, { s with user := s'.user }, ?_, hr o h2⟩
        rw [hfb]
        refine (C23_first_success hb (.inl hst) hno s _ o).2 ⟨[], _, [], v, s, o, { s with user := s'.user }, hcs, .nil _ _, ?_, .inl h3, ?_⟩
        · show loose none c [] [] v s = _
          rw [hlift]
          unfold M.lift
          rw [h1]
        · rw [hval]; exact .nil _ _
      · refine .inr ⟨hd, fun s => ?_⟩
        obtain ⟨s', hc⟩ := ((hcls s).resolve_left fun h => hd h.1).2
        have hk := hK c v s hcid hv hi
        rw [hc] at hk
        refine ⟨.parseFailure, { s with user := s'.user }, rfl, ?_⟩
        rw [hfb]
        refine (C23_last_failure hb (.inl hst) hno hcs (.nil _ _)).1 _ ?_
        show loose none c [] [] v s = _
        rw [hlift]
        unfold M.lift
        rw [hk]

end DocLemmas

/-- **C124**, a class called with a document makes the record that the document means (at every depth), and with anything else it raises
`ParseFailure`. -/
theorem C124_document (hU : Documents E U) {n : Nat} (hK : Constructs E cls h U (n + 2)) {c : W.Cls} {ks : String → Schema W}
    (hS : (Schema.record c ks).OK E cls U) {v : W.Obj} (hv : U v) (hi : W.isInstance v c = false) (m : Nat) (s : LState W) :
    ((Schema.record c ks).Doc E cls v → ∃ i s', callN E (cls c) (m + 2) (some v) [] s = (.ok (.new i), s') ∧
      ∀ o, h o = .record i → (Schema.record c ks).Read E cls h v o) ∧
    (¬ (Schema.record c ks).Doc E cls v → ∃ s', callN E (cls c) (m + 2) (some v) [] s = (.error .parseFailure, s')) := by
  have := DocLemmas.class_reads (h := h) hU hS (fun k f v hkf hv => DocLemmas.field_reads hU hK (ks k) (hS.2.2.2.1 k f hkf).2.2 f.filler
    (hS.2.2.2.1 k f hkf).1 v hv) hv hi m s
  rcases this with ⟨h1, h2⟩ | ⟨h1, h2⟩
  · exact ⟨fun _ => h2, fun h => absurd h1 h⟩
  · exact ⟨fun h => absurd h h1, fun _ => h2⟩

/-- **C124**, the same entries given as keyword arguments: the record they mean, or an exception. -/
theorem C124_keywords (hU : Documents E U) {n : Nat} (hK : Constructs E cls h U (n + 2)) {c : W.Cls} {ks : String → Schema W}
    (hS : (Schema.record c ks).OK E cls U) {v : W.Obj} (hv : U v) (hi : W.isInstance v c = false) {d : Dict W.Obj}
    (hd : ∀ s, E.chainView v s = (.ok d, s)) (m : Nat) (s : LState W) :
    ((Schema.record c ks).Doc E cls v → ∃ i s', callN E (cls c) (m + 1) none d s = (.ok (.new i), s') ∧
      ∀ o, h o = .record i → (Schema.record c ks).Read E cls h v o) ∧
    (¬ (Schema.record c ks).Doc E cls v → ∃ (e : Exc) (s' : LState W), e.isException = true ∧
      callN E (cls c) (m + 1) none d s = (.error e, s')) := by
  obtain ⟨d', hd', hdv, hdU, hdn⟩ : ∃ m : Dict W.Obj, m.WF ∧ (∀ s, E.chainView v s = (.ok m, s)) ∧ (∀ kv ∈ m, U kv.2) ∧
      ∀ k ∈ m.map (·.1), k ∉ ["self", "cls", "arg"] := by
    rcases hU.view v hv with h | ⟨e, -, he⟩
    · exact h
    · have := (hd s).symm.trans (he s)
      injection this with e _
      cases e
  have e : d' = d := by
    have := (hdv s).symm.trans (hd s)
    injection this with e _
    injection e
  subst e
  have hdoc : (Schema.record c ks).Doc E cls v ↔ DocLemmas.Shape E cls (cls c) ks d' := by
    constructor
    · rintro (h | ⟨m2, h2, h3⟩)
      · rw [hi] at h; cases h
      · have e : m2 = d' := by
          have := (h2 s).symm.trans (hd s)
          injection this with e _
          injection e
        subst e
        exact h3
    · intro h3
      exact .inr ⟨d', hd, h3⟩
  rcases DocLemmas.build hU hS.1 (cls := cls) (h := h) (ks := ks) (fun k f hkf => (hS.2.2.2.1 k f hkf).2.1) hd'
    (fun k f v hkf hkv => DocLemmas.field_reads hU hK (ks k) (hS.2.2.2.1 k f hkf).2.2 f.filler
    (hS.2.2.2.1 k f hkf).1 v (hdU _ hkv)) hdn m s with ⟨h1, i, s', h2, h3⟩ | ⟨h1, h2⟩
  · refine ⟨fun _ => ⟨i, s', h2, fun o ho => .inr ⟨hi, d', i, hd, ho, h3.1.trans hS.2.1, h3.2⟩⟩, fun h => absurd (hdoc.2 h1) h⟩
  · exact ⟨fun h => absurd (hdoc.1 h) h1, fun _ => h2⟩

/-- **C124**, the fields `x: c` (without tokens) of classes that check types keep the instances of `c` and refuse everything else. -/
theorem C124_leaf {c : W.Cls} {b : Ann W} (hb : Ann.make .check (.simple c false) [] [] = .ok b) (hc : W.isSub c c = true) :
    (Schema.leaf (W := W) fun v => W.isInstance v c = true).Fills (.ann b) := by
  have hst : styleOf (W := W) .check ([] ++ []) = .check := rfl
  intro v s
  refine ⟨fun hv => ((C20_match hb (.inl hst) (.inr ⟨hst, hv⟩) s).1 v s).2 (.nil _ _), fun hv => ⟨.typeError, rfl, ?_⟩⟩
  refine C20_no_coercers hb (.inl hst) ?_ rfl s
  rintro (e | ⟨-, e⟩)
  · refine hv ?_
    show W.isSub (W.typeOf v) c = true
    rw [e]
    exact hc
  · exact hv e

/-- **C124**, the same for `None`, so that `Optional[h]` is a union of two such kinds. -/
theorem C124_none {c : W.Cls} {b : Ann W} (hb : Ann.make .check (.noneF c) [] [] = .ok b) :
    (Schema.leaf (W := W) fun v => W.isNone v = true).Fills (.ann b) := by
  have hst : styleOf (W := W) .check ([] ++ []) = .check := rfl
  have h22 := C22_exact (W := W) (k := .noneF c) rfl hb (.inl hst)
  intro v s
  refine ⟨fun hv => (h22 v s v s).2 (.inl ⟨hv, .nil _ _⟩), fun hv => ⟨.typeError, rfl, ?_⟩⟩
  obtain ⟨h1, h2, h3, -⟩ := Ann.make_ok hb
  have h3 : b.coercers = [] := h3
  rw [F.call_error]
  simp only [F.fill]
  rw [Ann.fill_checked b (by rw [h2]; exact .inl hst) v s, h1, h3]
  have hv : ¬ (Kind.noneF c : Kind W).singletonOk v := hv
  rw [(singleton_typeCheck rfl v s).2 hv]
  rfl

end Records

/-! ### a concrete case -/
namespace Records.Toy.Doc

/-- `{"x": x, "y": y}` -/
def xy (x y : TObj) : TObj := dict [(.str "x", x), (.str "y", y)]
/-- `P(x=x, y=y)` -/
def pObj (x y : TObj) : TObj := inst 20 [("x", x), ("y", y)]
/-- `{"p": x, "q": y}` -/
def pq (x y : TObj) : TObj := dict [(.str "p", x), (.str "q", y)]
/-- `Q(p=x, q=y, z=z)` -/
def qObj (x y z : TObj) : TObj := inst 21 [("p", x), ("q", y), ("z", z)]

/-- `[{"x": 1, "y": 2}, P(x=3, y=4)]`, `[P(x=1, y=2), P(x=3, y=4)]` and `[P(x=3, y=4)]` -/
def l1 : TObj := list [xy (.int 1) (.int 2), pObj (.int 3) (.int 4)]
def l2 : TObj := list [pObj (.int 1) (.int 2), pObj (.int 3) (.int 4)]
def l3 : TObj := list [pObj (.int 3) (.int 4)]

/-- calling the classes of the examples (on a few objects) -/
def make (c : TCls) (a : List TObj) (kw : List (String × TObj)) (s : List Nat) : Except Exc TObj × List Nat :=
  if c = .record 20 then (if a = [xy (.int 1) (.int 2)] then (.ok (pObj (.int 1) (.int 2)), s) else (.error .parseFailure, s))
  else if c = .record 21 then
    (if a = [pq (xy (.int 1) (.int 2)) l1] then (.ok (qObj (pObj (.int 1) (.int 2)) l2 (.int 7)), s)
     else if a = [pq (pObj (.int 3) (.int 4)) l3] then (.ok (qObj (pObj (.int 3) (.int 4)) l3 (.int 7)), s)
     else (.error .parseFailure, s))
  else if c = .record 23 then
    (if a = [xy (.int 1) (.int 2)] then (.ok (inst 23 [("x", .int 1), ("y", .int 2)]), s) else (.error .parseFailure, s))
  else W.construct c a kw s

/-- the world of the examples -/
def DW : World := { W with construct := make }

def env : Env DW where
  getattr v k := match (v : TObj) with
    | .map (.record _) l => match Dict.get? (strEntries (pairs (unspine l))) k with
      | some w => M.pure w
      | none => M.throw .attributeError
    | _ => M.throw .attributeError
  clsAttr _ _ := none
  chainView v := match (v : TObj) with
    | .map .dict l => M.pure (strEntries (pairs (unspine l)))
    | _ => M.throw .typeError
  starView v := match (v : TObj) with
    | .map .dict l => M.pure (strEntries (pairs (unspine l)))
    | _ => M.throw .typeError
  dictView _ := M.throw .typeError
  jsonLoads v _ := match (v : TObj) with
    | .str t => if t = "t" then M.pure (pq (xy (.int 1) (.int 2)) l1) else M.throw .typeError
    | _ => M.throw .typeError
  rewrap _ := .ok
  setOrder := id
  setOrder_perm _ := .refl _

/-- `class P(RecordBase, default_type_check=check): x: int; y: int` -/
def spP : ClassSpec DW :=
  { cid := TCls.record 20, style := .check, anns := [("x", .plain (.cls TCls.int)), ("y", .plain (.cls TCls.int))] }

/-- `class Q(RecordBase, default_type_check=check): p: Annotated[P, Loose]; q: List[Annotated[P, Loose]]; z: Union[int, str] = 7` -/
def spQ : ClassSpec DW :=
  { cid := TCls.record 21, style := .check,
    anns := [("p", .plain (.annotated (.cls (TCls.record 20)) [looseToken])), 
      ("q", .plain (.iter TCls.list (.annotated (.cls (TCls.record 20)) [looseToken]))), ("z", .plain (.union [.cls TCls.int, .cls TCls.str]))],
    attrs := [("z", .value (TObj.int 7))] }

def noClass : RecClass DW :=
  { cid := TCls.object, fields := [], isFieldDict := true, required := [], optional := [], style := .hollow, frozen := false,
    unary := false, ordered := false, parsers := [], postNew := fun i => M.pure (i, none), truthy := fun _ => true }

def clsOf (sp : ClassSpec DW) : RecClass DW := match mkClass sp with | .ok C => C | .error _ => noClass

def P : RecClass DW := clsOf spP
def Q : RecClass DW := clsOf spQ

theorem P_creatable : Creatable P := .intro spP P ⟨by decide, by decide, nofun⟩ nofun rfl
theorem Q_creatable : Creatable Q := .intro spQ Q ⟨by decide, by decide, nofun⟩ nofun rfl

theorem P_readable : Readable P := ⟨P_creatable, fun _ _ => rfl, by unfold FreeNames; decide, rfl, by decide, rfl⟩
theorem Q_readable : Readable Q := ⟨Q_creatable, fun _ _ => rfl, by unfold FreeNames; decide, rfl, by decide, rfl⟩

def cls (c : TCls) : RecClass DW := if c = .record 20 then P else Q

/-- the records among the objects -/
def heap (v : TObj) : Node DW := match v with
  | .map (.record n) l => .record { cid := TCls.record n, dict := strEntries (pairs (unspine l)), hash := none }
  | _ => .atom

/-- the data of the example -/
def data : List TObj := [.int 1, .int 2, l1, l3, .str "a", xy (.int 1) (.int 2), xy (.int 1) (.str "a"), pObj (.int 3) (.int 4),
  pq (xy (.int 1) (.int 2)) l1, pq (pObj (.int 3) (.int 4)) l3, pq (xy (.int 1) (.str "a")) l1]

def U (v : TObj) : Prop := v ∈ data

/-- instances of `int` -/
def ints : Schema DW := .leaf fun v => DW.isInstance v TCls.int = true
/-- instances of `str` -/
def strs : Schema DW := .leaf fun v => DW.isInstance v TCls.str = true
def sP : Schema DW := .record (TCls.record 20) fun _ => ints
def sQ : Schema DW := .record (TCls.record 21) fun k => if k = "p" then sP else if k = "q" then .list TCls.list sP else .either ints strs

theorem U_cases (v : TObj) (hv : U v) : v = TObj.int 1 ∨ v = TObj.int 2 ∨ v = l1 ∨ v = l3 ∨ v = TObj.str "a" ∨ v = xy (.int 1) (.int 2) ∨
    v = xy (.int 1) (.str "a") ∨ v = pObj (.int 3) (.int 4) ∨ v = pq (xy (.int 1) (.int 2)) l1 ∨
    v = pq (pObj (.int 3) (.int 4)) l3 ∨ v = pq (xy (.int 1) (.str "a")) l1 := by
  simpa [U, data] using hv

theorem documents : Documents env U where
  json v hv := ⟨.typeError, rfl, fun _ => by
    rcases U_cases v hv with rfl | rfl | rfl | rfl | rfl | rfl | rfl | rfl | rfl | rfl | rfl <;> rfl⟩
  view v hv := by
    have hx : ∀ a b x y, U x → U y → a ≠ b → a ∉ ["self", "cls", "arg"] → b ∉ ["self", "cls", "arg"] →
        (∀ s, env.chainView v s = (.ok [(a, x), (b, y)], s)) → ∃ m : Dict DW.Obj, m.WF ∧
        (∀ s, env.chainView v s = (.ok m, s)) ∧ (∀ kv ∈ m, U kv.2) ∧ ∀ k ∈ m.map (·.1), k ∉ ["self", "cls", "arg"] := by
      intro a b x y hx hy hab ha hb hv
      refine ⟨[(a, x), (b, y)], by simpa [Dict.WF, Dict.keys] using hab, hv, ?_, by simp_all⟩
      intro kv hkv
      rcases List.mem_cons.1 hkv with rfl | hkv
      · exact hx
      · rcases List.mem_cons.1 hkv with rfl | hkv
        · exact hy
        · cases hkv
    rcases U_cases v hv with rfl | rfl | rfl | rfl | rfl | rfl | rfl | rfl | rfl | rfl | rfl
    all_goals first
      | exact .inr ⟨.typeError, rfl, fun _ => rfl⟩
      | exact .inl (hx "x" "y" _ _ (by unfold U; decide) (by unfold U; decide) (by decide) (by decide) (by decide) fun _ => rfl)
      | exact .inl (hx "p" "q" _ _ (by unfold U; decide) (by unfold U; decide) (by decide) (by decide) (by decide) fun _ => rfl)
  rewrap _ _ e := by cases e

theorem constructs : Constructs env cls heap U 2 := by
  intro c v s hc hv hi
  have hc : c = TCls.record 20 ∨ c = TCls.record 21 := by
    by_cases h : c = TCls.record 20
    · exact .inl h
    · right
      have : cls c = Q := if_neg h
      rw [this] at hc
      exact hc.symm
  have ok : ∀ {o : TObj} {i : Inst DW} {s' : LState DW}, callN env (cls c) 2 (some v) [] s = (.ok (.new i), s') →
      DW.construct c [v] [] s.user = (.ok o, s'.user) → heap o = .record i → typeOf o = c → (match callN env (cls c) 2 (some v) [] s with
    | (.ok (.new i), s') => ∃ o : TObj, DW.construct c [v] [] s.user = (.ok o, s'.user) ∧ heap o = .record i ∧ typeOf o = c
    | (.ok (.old o), s') => DW.construct c [v] [] s.user = (.ok o, s'.user)
    | (.error e, s') => DW.construct c [v] [] s.user = (.error e, s'.user)) := by
    intro o i s' h1 h2 h3 h4
    rw [h1]
    exact ⟨o, h2, h3, h4⟩
  have err : ∀ {e : Exc} {s' : LState DW}, callN env (cls c) 2 (some v) [] s = (.error e, s') →
      DW.construct c [v] [] s.user = (.error e, s'.user) → (match callN env (cls c) 2 (some v) [] s with
    | (.ok (.new i), s') => ∃ o : TObj, DW.construct c [v] [] s.user = (.ok o, s'.user) ∧ heap o = .record i ∧ typeOf o = c
    | (.ok (.old o), s') => DW.construct c [v] [] s.user = (.ok o, s'.user)
    | (.error e, s') => DW.construct c [v] [] s.user = (.error e, s'.user)) := by
    intro e s' h1 h2
    rw [h1]
    exact h2
  rcases hc with rfl | rfl <;> rcases U_cases v hv with rfl | rfl | rfl | rfl | rfl | rfl | rfl | rfl | rfl | rfl | rfl
  · exact err (e := .parseFailure) (s' := s) rfl rfl
  · exact err (e := .parseFailure) (s' := s) rfl rfl
  · exact err (e := .parseFailure) (s' := s) rfl rfl
  · exact err (e := .parseFailure) (s' := s) rfl rfl
  · exact err (e := .parseFailure) (s' := s) rfl rfl
  · exact ok (o := pObj (.int 1) (.int 2)) (s' := s) rfl rfl rfl rfl
  · exact err (e := .parseFailure) (s' := s) rfl rfl
  · exact absurd hi (by decide)
  · exact err (e := .parseFailure) (s' := s) rfl rfl
  · exact err (e := .parseFailure) (s' := s) rfl rfl
  · exact err (e := .parseFailure) (s' := s) rfl rfl
  · exact err (e := .parseFailure) (s' := s) rfl rfl
  · exact err (e := .parseFailure) (s' := s) rfl rfl
  · exact err (e := .parseFailure) (s' := s) rfl rfl
  · exact err (e := .parseFailure) (s' := s) rfl rfl
  · exact err (e := .parseFailure) (s' := s) rfl rfl
  · exact err (e := .parseFailure) (s' := s) rfl rfl
  · exact err (e := .parseFailure) (s' := s) rfl rfl
  · exact err (e := .parseFailure) (s' := s) rfl rfl
  · exact ok (o := qObj (pObj (.int 1) (.int 2)) l2 (.int 7)) (s' := s) rfl rfl rfl rfl
  · exact ok (o := qObj (pObj (.int 3) (.int 4)) l3 (.int 7)) (s' := s) rfl rfl rfl rfl
  · exact err (e := .parseFailure) (s' := s) rfl rfl

/-- the attributes of the objects -/
def val (v : TObj) (k : String) : Option TObj := match v with
  | .map (.record _) l => Dict.get? (strEntries (pairs (unspine l))) k
  | _ => none

theorem reads (v : TObj) : Reads (Carrier.ofObj env v) (val v) := by
  have h0 : ∀ {v : TObj}, (∀ k s, env.getattr v k s = (.error .attributeError, s)) → (∀ k, val v k = none) →
      Reads (Carrier.ofObj env v) (val v) := by
    intro v h1 h2
    refine DocLemmas.reads_of (fun k x h => ?_) (fun k _ => ⟨.attributeError, rfl, h1 k⟩)
    rw [h2 k] at h
    cases h
  cases v
  case map c l =>
    cases c
    case record n =>
      have hv : ∀ k s, env.getattr (TObj.map (.record n) l) k s = (match val (TObj.map (.record n) l) k with
          | some x => (.ok x, s) | none => (.error .attributeError, s)) := by
        intro k s
        show (match Dict.get? (strEntries (pairs (unspine l))) k with
          | some w => M.pure w | none => M.throw .attributeError : M DW TObj) s = (match Dict.get? (strEntries (pairs (unspine l))) k with
          | some x => (.ok x, s) | none => (.error .attributeError, s))
        cases Dict.get? (strEntries (pairs (unspine l))) k <;> rfl
      refine DocLemmas.reads_of (fun k x h s => ?_) (fun k h => ⟨.attributeError, rfl, fun s => ?_⟩)
      · refine (hv k s).trans ?_; rw [h]
      · refine (hv k s).trans ?_; rw [h]
    all_goals exact h0 (fun _ _ => rfl) (fun _ => rfl)
  all_goals exact h0 (fun _ _ => rfl) (fun _ => rfl)

theorem okP : sP.OK env cls U := by
  refine ⟨P_readable, rfl, by decide, ?_, ?_⟩
  · intro k f hkf
    rcases List.mem_cons.1 hkf with e | hkf
    · cases e
      exact ⟨C124_leaf (b := _) rfl (by decide), nofun, trivial⟩
    · rcases List.mem_cons.1 hkf with e | hkf
      · cases e
        exact ⟨C124_leaf (b := _) rfl (by decide), nofun, trivial⟩
      · cases hkf
  · intro v hv hi
    refine ⟨val v, reads v, "x", by decide, ?_⟩
    rcases U_cases v hv with rfl | rfl | rfl | rfl | rfl | rfl | rfl | rfl | rfl | rfl | rfl
    all_goals first
      | rfl
      | exact absurd hi (by decide)

theorem unspine_spine (l : List TObj) : unspine (spine l) = l := by
  induction l with
  | nil => rfl
  | cons a l ih => simp [spine, unspine, ih]

theorem okL : (Schema.list (W := DW) TCls.list sP).OK env cls U := by
  refine ⟨rfl, okP, fun v hv hi => ?_⟩
  have hmk : ∀ (ws : List TObj) (u : List Nat), ∃ o : TObj, DW.mkIter TCls.list ws u = (.ok o, u) ∧ DW.elems o = ws ∧ DW.typeOf o = TCls.list :=
    fun ws u => ⟨list ws, rfl, unspine_spine ws, rfl⟩
  rcases U_cases v hv with rfl | rfl | rfl | rfl | rfl | rfl | rfl | rfl | rfl | rfl | rfl
  all_goals first
    | exact absurd hi (by decide)
    | exact ⟨(by decide : ∀ w ∈ [xy (.int 1) (.int 2), pObj (.int 3) (.int 4)], w ∈ data), rfl, hmk⟩
    | exact ⟨(by decide : ∀ w ∈ [pObj (.int 3) (.int 4)], w ∈ data), rfl, hmk⟩

theorem okQ : sQ.OK env cls U := by
  refine ⟨Q_readable, rfl, by decide, ?_, ?_⟩
  · intro k f hkf
    rcases List.mem_cons.1 hkf with e | hkf
    · cases e
      exact ⟨⟨_, rfl, rfl⟩, nofun, okP⟩
    · rcases List.mem_cons.1 hkf with e | hkf
      · cases e
        exact ⟨⟨rfl, .annotated (.cls (TCls.record 20)) [looseToken], _, rfl, rfl, rfl, _, rfl, rfl⟩, nofun, okL⟩
      · rcases List.mem_cons.1 hkf with e | hkf
        · cases e
          refine ⟨⟨.cls TCls.int, .cls TCls.str, _, _, rfl, rfl, rfl, rfl, C124_leaf (b := _) rfl (by decide), C124_leaf (b := _) rfl (by decide)⟩, nofun,
            trivial, trivial, fun v hv => ?_⟩
          rcases U_cases v hv with rfl | rfl | rfl | rfl | rfl | rfl | rfl | rfl | rfl | rfl | rfl
          all_goals first
            | exact fun h => absurd (show DW.isInstance _ TCls.int = true from h.1) (by decide)
            | exact fun h => absurd (show DW.isInstance _ TCls.str = true from h.2) (by decide)
        · cases hkf
  · intro v hv _
    refine ⟨val v, reads v, "p", by decide, ?_⟩
    rcases U_cases v hv with rfl | rfl | rfl | rfl | rfl | rfl | rfl | rfl | rfl | rfl | rfl <;> rfl

theorem docP : sP.Doc env cls (xy (.int 1) (.int 2)) := by
  refine .inr ⟨[("x", TObj.int 1), ("y", TObj.int 2)], fun _ => rfl, by decide, by decide, ?_⟩
  intro k w hkw
  rcases List.mem_cons.1 hkw with e | hkw
  · cases e; rfl
  · rcases List.mem_cons.1 hkw with e | hkw
    · cases e; rfl
    · cases hkw

/-- `Q({"p": {"x": 1, "y": 2}, "q": [{"x": 1, "y": 2}, P(3, 4)]})` is a document; with `{"x": 1, "y": "a"}` inside it is none -/
theorem doc1 : sQ.Doc env cls (pq (xy (.int 1) (.int 2)) l1) := by
  refine .inr ⟨[("p", xy (.int 1) (.int 2)), ("q", l1)], fun _ => rfl, by decide, by decide, ?_⟩
  intro k w hkw
  rcases List.mem_cons.1 hkw with e | hkw
  · cases e
    exact docP
  · rcases List.mem_cons.1 hkw with e | hkw
    · cases e
      refine ⟨rfl, fun w hw => ?_⟩
      rcases List.mem_cons.1 (show w ∈ [xy (.int 1) (.int 2), pObj (.int 3) (.int 4)] from hw) with e | hw
      · cases e; exact docP
      · rcases List.mem_cons.1 hw with e | hw
        · cases e; exact .inl rfl
        · cases hw
    · cases hkw

example (s : LState DW) := (C124_document documents constructs okQ (v := pq (xy (.int 1) (.int 2)) l1) (by unfold U; decide) (by decide) 0 s).1
  doc1
example (s : LState DW) : ∃ i s', callN env Q 2 (some (pq (pObj (.int 3) (.int 4)) l3)) [] s = (.ok (.new i), s') ∧
    i.dict.get? "p" = some (pObj (.int 3) (.int 4)) ∧ i.dict.get? "z" = some (TObj.int 7) := ⟨_, s, rfl, rfl, rfl⟩

theorem noDoc : ¬ sQ.Doc env cls (pq (xy (.int 1) (.str "a")) l1) := by
  rintro (h | ⟨m, h1, -, -, h2⟩)
  · exact absurd h (by decide)
  · have e : m = [("p", xy (.int 1) (.str "a")), ("q", l1)] := by
      have := h1 ⟨([] : List Nat), fun _ => []⟩
      injection this with e _
      injection e with e
      exact e.symm
    subst e
    rcases h2 "p" (xy (.int 1) (.str "a")) (List.mem_cons_self) with h | ⟨m, h1, -, -, h2⟩
    · exact absurd h (by decide)
    · have e : m = [("x", TObj.int 1), ("y", TObj.str "a")] := by
        have := h1 ⟨([] : List Nat), fun _ => []⟩
        injection this with e _
        injection e with e
        exact e.symm
      subst e
      have := h2 "y" (TObj.str "a") (List.mem_cons_of_mem _ List.mem_cons_self)
      exact absurd (show DW.isInstance (TObj.str "a") TCls.int = true from this) (by decide)

example (s : LState DW) := (C124_document documents constructs okQ (v := pq (xy (.int 1) (.str "a")) l1) (by unfold U; decide) (by decide) 0 s).2
  noDoc
example (s : LState DW) := (C124_keywords documents constructs okQ (v := pq (xy (.int 1) (.str "a")) l1) (by unfold U; decide) (by decide)
  (fun _ => rfl) 0 s).2 noDoc

/-- `class S(RecordBase): x: object` -/
def spS : ClassSpec DW := { cid := TCls.record 22, anns := [("x", .plain (.cls TCls.object))] }
def S : RecClass DW := clsOf spS

theorem S_creatable : Creatable S := .intro spS S ⟨by decide, by decide, nofun⟩ nofun rfl

end Records.Toy.Doc

namespace Records

/-- **C124**, "a class called with a mapping of its required fields takes the entries as its fields" is refuted for classes with one required
field: the mapping itself becomes the value of that field. -/
theorem C124_refuted_single : ∃ (W : World) (E : Env W) (C : RecClass W) (v x : W.Obj) (s : LState W) (i : Inst W), Creatable C ∧
    C.parsers = [.fromInstance, .fromJson, .fromMapping] ∧ C.required = ["x"] ∧ C.fields.map (·.1) = ["x"] ∧
    E.chainView v s = (.ok [("x", x)], s) ∧ (∃ i s', callN E C 2 none [("x", x)] s = (.ok (.new i), s') ∧ i.dict.get? "x" = some x) ∧
    callN E C 2 (some v) [] s = (.ok (.new i), s) ∧ i.dict.get? "x" = some v ∧ v ≠ x :=
  ⟨Toy.Doc.DW, Toy.Doc.env, Toy.Doc.S, Toy.dict1 "x" (.int 1), Toy.TObj.int 1, ⟨([] : List Nat), fun _ => []⟩, _, Toy.Doc.S_creatable, rfl, rfl,
    rfl, rfl, ⟨_, _, rfl, rfl⟩, rfl, rfl, (nomatch ·)⟩

end Records
