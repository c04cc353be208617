import Verif.Proofs.Repr
import Verif.Props.Pickle
set_option linter.unusedSimpArgs false
/-
C116: reading the `repr` of a record back.
-/
namespace Records
variable {W : World}

/-- the names that occur in the text, and the texts of the values, can be told apart by a reader -/
structure Legible (qual : W.Cls → String) (rep : W.Obj → String) (C : RecClass W) (i : Inst W) : Prop where
  cls : PlainName (qual i.cid)
  names : ∀ k ∈ C.fields.map (·.1), PlainName k
  values : ∀ k ∈ C.fields.map (·.1), ∀ v, i.dict.get? k = some v → OneArg (rep v)

theorem reprInst_eq {E : Env W} {C : RecClass W} {i : Inst W} (qual : W.Cls → String) (rep : W.Obj → String) {o : ExportOpts}
    {d : Dict W.Obj} {s : LState W} (h : toDict C (.ofInst E i) o Sel.empty s = (.ok d, s)) :
    reprInst E qual rep C o i s = (.ok (callText (qual i.cid) (d.map fun kv => (kv.1, rep kv.2))), s) := by
  unfold reprInst callText
  simp only [M.bind, h, M.pure, List.map_map]
  rfl

theorem legible_good {qual : W.Cls → String} {rep : W.Obj → String} {C : RecClass W} {i : Inst W} (hl : Legible qual rep C i)
    {d : Dict W.Obj} (hd : ∀ k v, (k, v) ∈ d → k ∈ C.fields.map (·.1) ∧ i.dict.get? k = some v) :
    ∀ a ∈ d.map (fun kv => (kv.1, rep kv.2)), GoodArg a := by
  intro a ha
  obtain ⟨⟨k, v⟩, hkv, rfl⟩ := List.mem_map.1 ha
  obtain ⟨h1, h2⟩ := hd k v hkv
  exact ⟨hl.names k h1, hl.values k h1 v h2⟩

theorem repr_text {E : Env W} {C : RecClass W} (hC : Creatable C) {i : Inst W} (hi : Full C i) {qual : W.Cls → String}
    {rep : W.Obj → String} (hl : Legible qual rep C i) {o : ExportOpts} {black : List Nat} (ho : o.blacklist = .tags black) (s : LState W) :
    ∃ d text, toDict C (.ofInst E i) o Sel.empty s = (.ok d, s) ∧ reprInst E qual rep C o i s = (.ok text, s) ∧
      readCall text = some (qual i.cid, d.map fun kv => (kv.1, rep kv.2)) ∧ OneArg text := by
  obtain ⟨d, h1, _, h3, _⟩ := C75_to_dict (E := E) hC hi ho s
  have hg := legible_good hl (d := d) (by
    intro k v hkv
    obtain ⟨f, hf, hv, _⟩ := (h3 k v).1 hkv
    exact ⟨List.mem_map.2 ⟨_, hf, rfl⟩, hv⟩)
  exact ⟨d, _, h1, reprInst_eq qual rep h1, readCall_text hl.cls hg, oneArg_callText hl.cls hg⟩

/-- C116: if the texts of the values are single arguments, `repr` (with any export options) reads as a call of the class with exactly the
exported entries as keyword arguments, each value given by its own `repr`. -/
theorem C116_reads {E : Env W} {C : RecClass W} (hC : Creatable C) {i : Inst W} (hi : Full C i) {qual : W.Cls → String}
    {rep : W.Obj → String} (hl : Legible qual rep C i) {o : ExportOpts} {black : List Nat} (ho : o.blacklist = .tags black) (s : LState W) :
    ∃ d text, toDict C (.ofInst E i) o Sel.empty s = (.ok d, s) ∧ reprInst E qual rep C o i s = (.ok text, s) ∧
      readCall text = some (qual i.cid, d.map fun kv => (kv.1, rep kv.2)) := by
  obtain ⟨d, text, h1, h2, h3, _⟩ := repr_text (E := E) hC hi hl ho s
  exact ⟨d, text, h1, h2, h3⟩

/-- C116: the `repr` of such a record is a single argument itself, so records may be nested to any depth. -/
theorem C116_nests {E : Env W} {C : RecClass W} (hC : Creatable C) {i : Inst W} (hi : Full C i) {qual : W.Cls → String}
    {rep : W.Obj → String} (hl : Legible qual rep C i) {o : ExportOpts} {black : List Nat} (ho : o.blacklist = .tags black) (s : LState W) :
    ∃ text, reprInst E qual rep C o i s = (.ok text, s) ∧ OneArg text := by
  obtain ⟨d, text, _, h2, _, h4⟩ := repr_text (E := E) hC hi hl ho s
  exact ⟨text, h2, h4⟩

/-- C116: two such records, of whatever classes, have the same `repr` exactly if their classes have the same name, and they show the
same fields, in the same order, with values of the same `repr`. -/
theorem C116_same {E : Env W} {C C' : RecClass W} (hC : Creatable C) (hC' : Creatable C') {i i' : Inst W} (hi : Full C i)
    (hi' : Full C' i') {qual : W.Cls → String} {rep : W.Obj → String} (hl : Legible qual rep C i) (hl' : Legible qual rep C' i')
    (s : LState W) :
    (reprInst E qual rep C {} i s).1 = (reprInst E qual rep C' {} i' s).1 ↔
      qual i.cid = qual i'.cid ∧
        (shown C i).map (fun kv => (kv.1, rep kv.2)) = (shown C' i').map (fun kv => (kv.1, rep kv.2)) := by
  obtain ⟨d, text, h1, h2, h3, _⟩ := repr_text (E := E) hC hi hl (o := {}) rfl s
  obtain ⟨d', text', h1', h2', h3', _⟩ := repr_text (E := E) hC' hi' hl' (o := {}) rfl s
  have e := toDict_shown (E := E) hC.wf hi s
  have e' := toDict_shown (E := E) hC'.wf hi' s
  rw [h1] at e; cases e
  rw [h1'] at e'; cases e'
  constructor
  · intro h
    rw [h2, h2'] at h
    have ht : text = text' := by injection h
    rw [ht, h3'] at h3
    injection h3 with h3
    injection h3 with ha hb
    exact ⟨ha.symm, hb.symm⟩
  · rintro ⟨ha, hb⟩
    rw [reprInst_eq qual rep h1, reprInst_eq qual rep h1', ha, hb]

/-- `eval` of the `repr` of every shown value gives an equal value, that the filler of its field keeps -/
structure EvalRestores (ev : String → M W W.Obj) (rep : W.Obj → String) (C : RecClass W) (d : Dict W.Obj) (back : W.Obj → W.Obj) : Prop where
  value : ∀ k v, (k, v) ∈ d → ∀ s, ∃ s', ev (rep v) s = (.ok (back v), s')
  equal : ∀ k v, (k, v) ∈ d → W.eq v (back v) = true
  keeps : ∀ k f v, (k, f) ∈ C.fields → (k, v) ∈ d → f.Keeps (back v)
  hashable : C.frozen = true → ∀ k v, (k, v) ∈ d → W.hashable (back v) = true

theorem evalArgs_back {ev : String → M W W.Obj} {rep : W.Obj → String} {back : W.Obj → W.Obj} {d : Dict W.Obj}
    (h : ∀ k v, (k, v) ∈ d → ∀ s, ∃ s', ev (rep v) s = (.ok (back v), s')) (s : LState W) :
    ∃ s', evalArgs ev (d.map fun kv => (kv.1, rep kv.2)) s = (.ok (mapValues back d), s') := by
  induction d generalizing s with
  | nil => exact ⟨s, rfl⟩
  | cons a d ih =>
    obtain ⟨k, v⟩ := a
    obtain ⟨s1, h1⟩ := h k v (by simp) s
    obtain ⟨s2, h2⟩ := ih (fun k v hkv => h k v (by simp [hkv])) s1
    refine ⟨s2, ?_⟩
    show (M.bind (ev (rep v)) fun x => M.bind (evalArgs ev (d.map fun kv => (kv.1, rep kv.2))) fun d => M.pure ((k, x) :: d)) s = _
    rw [M.bind_ok h1, M.bind_ok h2]
    rfl

/-- C116: if moreover the name of the class is in scope, and `eval` restores the values up to equality, then `eval` of the `repr` of a
record makes a record of the same class that is equal to it. -/
theorem C116_eval {E : Env W} {H : Hasher W} (hW : EqOK W) (hH : HashContract H) {C : RecClass W} (hC : Creatable C)
    (hpost : PlainPost C) (hfree : FreeNames C) {i : Inst W} (hi : Proper H C i) {qual : W.Cls → String} {rep : W.Obj → String}
    (hl : Legible qual rep C i) {o : ExportOpts} {black : List Nat} (ho : o.blacklist = .tags black)
    (hdrop : DropsOnlyDefaults C i black o.whitelist) {scope : String → Option (RecClass W)} (hs : scope (qual i.cid) = some C)
    {ev : String → M W W.Obj} {back : W.Obj → W.Obj}
    (hb : ∀ d s, toDict C (.ofInst E i) o Sel.empty s = (.ok d, s) → EvalRestores ev rep C d back) (n : Nat) (s t : LState W) :
    ∃ d text j t', toDict C (.ofInst E i) o Sel.empty s = (.ok d, s) ∧ reprInst E qual rep C o i s = (.ok text, s) ∧
      evalCall scope ev (fun C m => callN E C (n + 1) none m) text t = (.ok (.new j), t') ∧ Copied E H C i (mapValues back d) j := by
  obtain ⟨d, text, h1, h2, h3, _⟩ := repr_text (E := E) hC hi.full hl ho s
  obtain ⟨d0, h1', hcov⟩ := export_covers (E := E) hC hi.full ho hdrop s
  rw [h1] at h1'; cases h1'
  have hb := hb d s h1
  have hr : Restores d (mapValues back d) := by
    refine ⟨by rw [keys_mapValues]; exact hcov.nodup, fun k hk => by rw [keys_mapValues] at hk; exact hk, ?_⟩
    intro k v hkv
    exact ⟨back v, mem_mapValues.2 ⟨v, hkv, rfl⟩, hb.equal k v hkv⟩
  have hdesc := hcov.describes hr (by
    intro k f w hkf hkw
    obtain ⟨v, hv, rfl⟩ := mem_mapValues.1 hkw
    exact hb.keeps k f v hkf hv)
  have hh : HashableIn C (mapValues back d) := by
    intro hf k f w _ hkw _
    obtain ⟨v, hv, rfl⟩ := mem_mapValues.1 hkw
    exact hb.hashable hf k v hv
  obtain ⟨t1, ht1⟩ := evalArgs_back hb.value t
  obtain ⟨j, t2, hj, hc⟩ := rebuild (E := E) hW hH hC hpost hfree hi hdesc hh n t1
  refine ⟨d, text, j, t2, h1, h2, ?_, hc⟩
  unfold evalCall
  rw [h3]
  simp only [hs]
  rw [M.bind_ok ht1]
  exact hj

end Records

/-! ### examples -/
namespace Records.Toy.Repr
open Toy Toy.Trip

/-- `__qualname__`: a class made in a function, and another class -/
def qual : TCls → String
  | .record 0 => "f.<locals>.A"
  | _ => "B"

/-- `repr` of some values -/
def rep : TObj → String
  | .int 1 => "1"
  | .int 4 => "4"
  | .str "a" => "'a, y=4)'"
  | .str _ => "'it\\'s'"
  | _ => "[1, (2, {})]"

theorem rep_one (v : TObj) : OneArg (rep v) := by
  unfold rep
  split <;> (unfold OneArg; decide)

/-- `OneArg`: what is no argument -/
example : ¬ OneArg "1, y=4" := by unfold OneArg; decide
example : ¬ OneArg "a)" := by unfold OneArg; decide
example : ¬ OneArg "'it" := by unfold OneArg; decide
example : ¬ OneArg "<a at (" := by unfold OneArg; decide
example : OneArg "'it\\'s, \"(' + [f(',', {}), \"'\"]" := by unfold OneArg; decide

theorem A_legible (x y : TObj) : Legible qual rep A (mkA x y) :=
  ⟨by show PlainName "f.<locals>.A"; unfold PlainName; decide, by unfold PlainName; decide, fun _ _ v _ => rep_one v⟩
theorem B_legible (x y : TObj) (z : String) : Legible qual rep B (mkB x y z) :=
  ⟨by show PlainName "B"; unfold PlainName; decide, by unfold PlainName; decide, fun _ _ v _ => rep_one v⟩

example : reprInst env qual rep B {} (mkB (.int 1) (.int 4) "a") s0 = (.ok "B(x=1, y=4, z='a, y=4)')", s0) := rfl
example : readCall "B(x=1, y=4, z='a, y=4)')" = some ("B", [("x", "1"), ("y", "4"), ("z", "'a, y=4)'")]) := by decide
example : readCall "B()" = some ("B", []) := by decide
example : readCall "B(x=A(y=1, z=2), y=[1, 2])" = some ("B", [("x", "A(y=1, z=2)"), ("y", "[1, 2]")]) := by decide
example : readCall "B(x=1" = none := by decide
example := C116_reads (E := env) B_creatable (mkB_full (.int 1) (.int 4) "a" none) (B_legible _ _ _) (o := { sort := .desc }) rfl s0
example := C116_nests (E := env) A_creatable (i := mkA (.int 1) (.int 4)) (fun _ h => h) (A_legible _ _) (o := {}) rfl s0
/-- different values may have the same text -/
example := (C116_same (E := env) B_creatable B_creatable (mkB_full (.int 1) (.int 4) "b" none) (mkB_full (.int 1) (.int 4) "c" none)
  (B_legible _ _ _) (B_legible _ _ _) s0).2 ⟨rfl, rfl⟩
example : (reprInst env qual rep B {} (mkB (.int 1) (.int 4) "a") s0).1 ≠ (reprInst env qual rep B {} (mkB (.int 4) (.int 1) "a") s0).1 :=
  fun h => absurd ((C116_same (E := env) B_creatable B_creatable (mkB_full (.int 1) (.int 4) "a" none)
    (mkB_full (.int 4) (.int 1) "a" none) (B_legible _ _ _) (B_legible _ _ _) s0).1 h).2 (by decide)

/-- `eval` of some texts: "1" gives `True` (an equal value) -/
def ev : String → M W TObj
  | "1" => M.pure (.bool true)
  | "4" => M.pure (.int 4)
  | _ => M.throw .valueError
def back : TObj → TObj
  | .int 1 => .bool true
  | v => v
def scope : String → Option (RecClass W)
  | "f.<locals>.A" => some A
  | _ => none

theorem A_restores (d : Dict TObj) (s : LState W)
    (h : toDict A (.ofInst env (mkA (.int 1) (.int 4))) {} Sel.empty s = (.ok d, s)) : EvalRestores ev rep A d back := by
  cases h
  refine ⟨?_, ?_, fun _ _ _ hf _ => A_keeps hf, nofun⟩
  · intro k v hkv s
    rcases hkv with _ | ⟨_, _ | ⟨_, h⟩⟩
    · exact ⟨s, rfl⟩
    · exact ⟨s, rfl⟩
    · cases h
  · intro k v hkv
    rcases hkv with _ | ⟨_, _ | ⟨_, h⟩⟩
    · rfl
    · rfl
    · cases h

example := C116_eval (E := env) (H := H) eqOK (contract 0) A_creatable A_post A_names (mkA_proper H (.int 1) (.int 4)) (A_legible _ _)
  (o := {}) (black := []) rfl (drops_none _ _ _) (scope := scope) rfl (ev := ev) (back := back) A_restores 0 s0 s0

/-- a value with an unusual text -/
def rep' : TObj → String
  | .int 1 => "1"
  | .int 4 => "4"
  | .int _ => "?"
  | .str _ => "1, y=4"
  | _ => "[]"

end Records.Toy.Repr

/-! ### refuted claims -/
namespace Records
open Toy Toy.Trip Toy.Repr

/-- The claim that records with the same `repr` are equal, if values with the same `repr` are, whatever the texts are. -/
def C116_claim : Prop := ∀ (W : World) (E : Env W) (H : Hasher W) (C : RecClass W) (qual : W.Cls → String) (rep : W.Obj → String),
  EqOK W → HashContract H → Creatable C → ∀ (i j : Inst W), Proper H C i → Proper H C j →
    (∀ kv ∈ i.dict, ∀ kv' ∈ j.dict, rep kv.2 = rep kv'.2 → W.eq kv.2 kv'.2 = true) → ∀ (s : LState W) (text : String),
    reprInst E qual rep C {} i s = (.ok text, s) → reprInst E qual rep C {} j s = (.ok text, s) → Equal E H C i j

/-- C116: it does not hold: a value whose `repr` contains a comma can look like two fields. -/
theorem C116_refuted : ¬ C116_claim := by
  intro h
  have := h W env H A qual rep' eqOK (contract 0) A_creatable (mkA (.str "") (.int 3)) (mkA (.int 1) (.int 4)) (mkA_proper H _ _)
    (mkA_proper H _ _) (by
      intro kv hkv kv' hkv'
      have e : (kv.2 = .str "" ∨ kv.2 = .int 3) ∧ (kv'.2 = .int 1 ∨ kv'.2 = .int 4) := by
        constructor
        · rcases hkv with _ | ⟨_, _ | ⟨_, hkv⟩⟩
          · exact .inl rfl
          · exact .inr rfl
          · cases hkv
        · rcases hkv' with _ | ⟨_, _ | ⟨_, hkv'⟩⟩
          · exact .inl rfl
          · exact .inr rfl
          · cases hkv'
      obtain ⟨e1 | e1, e2 | e2⟩ := e <;> (rw [e1, e2]; intro h; exact absurd h (by decide))) s0 "f.<locals>.A(x=1, y=4)" rfl rfl s0
  have e : (eqInst env H A (mkA (.str "") (.int 3)) (mkA (.int 1) (.int 4)) s0).1 = .ok false := rfl
  rw [e] at this
  cases this

end Records
