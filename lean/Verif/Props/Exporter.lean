import Verif.Proofs.Exporter
import Verif.Props.Export
import Verif.Spec.ToyHash
/-
C84 and C89: bound exporters and factories.
-/
set_option linter.unusedSimpArgs false
namespace Records
open Spec
variable {W : World} {R : Type}

/-- the store after a program -/
def ranTo (V : OptView W) (ops : List (XOp W R)) (s : LState W) : XStore W := (XStore.exec V ops .start s).1

/-! ### C84 -/

/-- C84: bound exporters are immutable. Whatever a program does after it has got the exporter number `n` (deriving new exporters from it
with `select` and `export_with`, calling it, using its Selects elsewhere), calling it has the same outcome as before. -/
theorem C84_immutable (V : OptView W) (ops more : List (XOp W R)) (ho : ∀ op ∈ ops ++ more, op.ok) (t : LState W) (n : Nat)
    (hn : n < (ranTo V ops t).exporters.length) {R' : Type} (F : XFun W R') (C : RecClass W) (obj : Carrier W) (args : List W.Obj)
    (kw : Dict W.Obj) (s : LState W) :
    (ranTo V (ops ++ more) t).outcome V n F C obj args kw s = (ranTo V ops t).outcome V n F C obj args kw s := by
  have h1 := exec_spec V ops (fun o h => ho o (List.mem_append_left _ h)) (Rep.start (W := W)) t
  have h2 := exec_spec V more (fun o h => ho o (List.mem_append_right _ h)) h1.rep (XStore.exec V ops .start t).2
  unfold ranTo at *
  rw [exec_append]
  generalize (XStore.exec V ops .start t).2 = t1 at *
  generalize (XStore.exec V ops .start t).1 = st at *
  obtain ⟨b, hb⟩ : ∃ b, st.exporters[n]? = some b := ⟨_, List.getElem?_eq_getElem hn⟩
  have hb' : (XStore.exec V more st t1).1.exporters[n]? = some b := by
    obtain ⟨l, hl⟩ := h2.exporters
    rw [← hl, List.getElem?_append_left hn, hb]
  unfold XStore.outcome
  rw [hb, hb']
  simp only [Option.map_some]
  rw [callX_congr V b F C obj args kw s h2.rep.pure h1.rep.pure]
  rcases forall2_get h1.rep.exporters n with ⟨g, _⟩ | ⟨b', c, g1, _, g3⟩
  · rw [hb] at g; cases g
  · rw [hb] at g1; cases g1
    exact h2.ext.2 _ g3.lt

/-- C84: the same for bound factories. -/
theorem C84_factory_immutable (V : OptView W) (ops more : List (XOp W R)) (ho : ∀ op ∈ ops ++ more, op.ok) (t : LState W) (n : Nat)
    (hn : n < (ranTo V ops t).factories.length) (h : Heap W.Obj) (m : MObj) :
    (ranTo V (ops ++ more) t).foutcome n h m = (ranTo V ops t).foutcome n h m := by
  have h1 := exec_spec V ops (fun o h => ho o (List.mem_append_left _ h)) (Rep.start (W := W)) t
  have h2 := exec_spec V more (fun o h => ho o (List.mem_append_right _ h)) h1.rep (XStore.exec V ops .start t).2
  unfold ranTo at *
  rw [exec_append]
  generalize (XStore.exec V ops .start t).2 = t1 at *
  generalize (XStore.exec V ops .start t).1 = st at *
  obtain ⟨b, hb⟩ : ∃ b, st.factories[n]? = some b := ⟨_, List.getElem?_eq_getElem hn⟩
  have hb' : (XStore.exec V more st t1).1.factories[n]? = some b := by
    obtain ⟨l, hl⟩ := h2.factories
    rw [← hl, List.getElem?_append_left hn, hb]
  unfold XStore.foutcome
  rw [hb, hb']
  simp only [Option.map_some, XStore.callF]
  rcases forall2_get h1.rep.factories n with ⟨g, _⟩ | ⟨b', c, g1, _, g3⟩
  · rw [hb] at g; cases g
  · rw [hb] at g1; cases g1
    obtain ⟨e1, e2⟩ := call_congr _ _ (h2.rep.pure.at b.sel) (h1.rep.pure.at b.sel) (h2.ext.2 _ g3.lt) h m
    rw [e1, e2]

/-- C84: calling an exporter such as `to_dict`. After any program, exporter number `n` has the options and edits given in the calls that
made it (`valsOf`: positional options one after the other, keyword options with the later one winning, edits concatenated), and the
arguments of the call are further options. -/
theorem C84_call (V : OptView W) (ops : List (XOp W R)) (ho : ∀ op ∈ ops, op.ok) (t : LState W) (n : Nat)
    (f : Dict W.Obj → M W R) (C : RecClass W) (obj : Carrier W) (args : List W.Obj) (kw : Dict W.Obj)
    (hk : (kw.map (·.1)).Nodup) (s : LState W) :
    match (valsOf ops).exporters[n]? with
    | none => (ranTo V ops t).outcome V n (.noArg f) C obj args kw s = none
    | some c => ∃ out, (ranTo V ops t).outcome V n (.noArg f) C obj args kw s = some out ∧
        ExportsAs V C obj (c.pos ++ args) (overlay c.kw kw) c.edits f s out := by
  have h1 := exec_spec V ops ho (Rep.start (W := W)) t
  unfold ranTo valsOf at *
  generalize (XStore.exec V ops .start t).1 = st at *
  generalize List.foldl XOp.vals ⟨[{}], [], []⟩ ops = vs at *
  unfold XStore.outcome
  rcases forall2_get h1.rep.exporters n with ⟨g1, g2⟩ | ⟨b, c, g1, g2, g3⟩
  · rw [g1, g2]; rfl
  · rw [g1, g2]
    simp only [Option.map_some, Option.some.injEq, exists_eq_left']
    have hover : (b.ekw.update kw).get? = overlay c.kw kw := by
      funext k
      rw [Dict.get?_update _ _ hk, g3.kw]
      simp only [overlay]
      cases kw.get? k <;> rfl
    have key := exportRun_spec V C obj (b.eargs ++ args) (b.ekw.update kw) _ (h1.rep.pure.at b.sel) f s
    rw [hover, g3.edits, g3.pos] at key
    unfold XStore.callX
    by_cases hc : clash (if b.toClass then ["self", "instance"] else ["self"]) kw = true
    · rw [if_pos hc]
      have hnb : ¬ Bindable (c.pos ++ args) (overlay c.kw kw) := by
        have : ∃ name, kw.has name = true ∧ (name = "self" ∨ name = "instance") := by
          unfold clash at hc
          obtain ⟨name, hm, hh⟩ := List.any_eq_true.1 hc
          refine ⟨name, hh, ?_⟩
          revert hm
          generalize b.toClass = bt
          cases bt
          · intro hm; exact .inl (by simpa using hm)
          · intro hm; simpa using hm
        obtain ⟨name, hh, hn⟩ := this
        obtain ⟨v, hv⟩ := Option.isSome_iff_exists.1 hh
        intro hB
        obtain ⟨j, hj, _⟩ := hB.2 name v (by simp [overlay, hv])
        have : name ∈ optNames := List.mem_of_getElem? hj
        rcases hn with rfl | rfl <;> revert this <;> decide
      exact ⟨fun _ => rfl, fun h => absurd h hnb⟩
    · rw [if_neg hc, g3.pos]
      exact key

/-- C84: calling an exporter such as `to_json`: the arguments of the call are passed to the wrapped function; they are no options. -/
theorem C84_call_args (V : OptView W) (ops : List (XOp W R)) (ho : ∀ op ∈ ops, op.ok) (t : LState W) (n : Nat)
    (f : Dict W.Obj → List W.Obj → Dict W.Obj → M W R) (C : RecClass W) (obj : Carrier W) (args : List W.Obj) (kw : Dict W.Obj)
    (s : LState W) :
    match (valsOf ops).exporters[n]? with
    | none => (ranTo V ops t).outcome V n (.args f) C obj args kw s = none
    | some c => ∃ out, (ranTo V ops t).outcome V n (.args f) C obj args kw s = some out ∧
        (("self" ∈ kw.map (·.1) ∨ (c.toClass = true ∧ "instance" ∈ kw.map (·.1))) → out = (.error .typeError, s)) ∧
        (¬ ("self" ∈ kw.map (·.1) ∨ (c.toClass = true ∧ "instance" ∈ kw.map (·.1))) →
          ExportsAs V C obj c.pos c.kw c.edits (fun m => f m args kw) s out) := by
  have h1 := exec_spec V ops ho (Rep.start (W := W)) t
  unfold ranTo valsOf at *
  generalize (XStore.exec V ops .start t).1 = st at *
  generalize List.foldl XOp.vals ⟨[{}], [], []⟩ ops = vs at *
  unfold XStore.outcome
  rcases forall2_get h1.rep.exporters n with ⟨g1, g2⟩ | ⟨b, c, g1, g2, g3⟩
  · rw [g1, g2]; rfl
  · rw [g1, g2]
    simp only [Option.map_some, Option.some.injEq, exists_eq_left']
    have key := exportRun_spec V C obj b.eargs b.ekw _ (h1.rep.pure.at b.sel) (fun m => f m args kw) s
    rw [g3.kw, g3.edits, g3.pos] at key
    have hcl : clash (if b.toClass then ["self", "instance"] else ["self"]) kw = true ↔
        ("self" ∈ kw.map (·.1) ∨ (c.toClass = true ∧ "instance" ∈ kw.map (·.1))) := by
      have e1 := Dict.has_iff kw "self"
      have e2 := Dict.has_iff kw "instance"
      unfold Dict.keys at e1 e2
      rw [g3.toClass, ← e1, ← e2]
      unfold clash
      cases c.toClass <;> simp
    unfold XStore.callX
    by_cases hc : clash (if b.toClass then ["self", "instance"] else ["self"]) kw = true
    · rw [if_pos hc]
      exact ⟨fun _ => rfl, fun h => absurd (hcl.1 hc) h⟩
    · rw [if_neg hc]
      refine ⟨fun h => absurd (hcl.2 h) hc, fun _ => ?_⟩
      simp only [XFun.run, g3.pos] at key ⊢
      exact key

/-- C84: calling a factory: its function makes a mapping, the edits of all `select` calls that made the factory are applied to it. -/
theorem C84_factory_call (V : OptView W) (ops : List (XOp W R)) (ho : ∀ op ∈ ops, op.ok) (t : LState W) (n : Nat)
    (h : Heap W.Obj) (hh : h.WF) (m : MObj) (hv : m.Valid h) :
    match (valsOf ops).factories[n]? with
    | none => (ranTo V ops t).foutcome n h m = none
    | some e => ∃ r h', (ranTo V ops t).foutcome n h m = some (r, h') ∧
      match runScript e.script (Dict.get? (m.items h)) with
      | .error k => r = .error ⟨k, none⟩
      | .ok am => ∃ m', r = .ok m' ∧ (m'.items h').get? = am := by
  have h1 := exec_spec V ops ho (Rep.start (W := W)) t
  unfold ranTo valsOf at *
  generalize (XStore.exec V ops .start t).1 = st at *
  generalize List.foldl XOp.vals ⟨[{}], [], []⟩ ops = vs at *
  unfold XStore.foutcome
  rcases forall2_get h1.rep.factories n with ⟨g1, g2⟩ | ⟨b, c, g1, g2, g3⟩
  · rw [g1, g2]; rfl
  · rw [g1, g2]
    simp only [Option.map_some]
    refine ⟨_, _, rfl, ?_⟩
    have hc := call_sim _ (h1.rep.pure.at b.sel) h hh m hv
    rw [g3.edits] at hc
    cases hr : runScript c.script (Dict.get? (m.items h)) with
    | error k =>
      rw [hr] at hc
      simp only [CallRes.outcome] at hc
      cases hx : ((selAt st.sels b.sel).call h m).ret with
      | ok m' => rw [hx] at hc; cases hc
      | error e => rw [hx] at hc; cases hc; rfl
    | ok am =>
      rw [hr] at hc
      simp only [CallRes.outcome] at hc
      obtain ⟨d, e1, e2, e3⟩ := hc
      cases hx : ((selAt st.sels b.sel).call h m).ret with
      | error e => rw [hx] at e1; cases e1
      | ok m' =>
        rw [hx] at e1
        refine ⟨m', rfl, ?_⟩
        cases e1
        exact funext e3

/-- `x = obj.exporter; x1 = x.export_with(**kws[0]); x2 = x1.export_with(**kws[1]); ...` -/
def withChain (b : Bool) (kws : List (Dict W.Obj)) : List (XOp W R) :=
  .exporter b :: (List.range kws.length).map fun i => .exportWith i [] (kws.getD i [])

/-- the last value given for `k` -/
def lastGiven (kws : List (Dict W.Obj)) (k : String) : Option W.Obj := kws.reverse.findSome? fun d => d.get? k

theorem overlay_lastGiven (l : List (Dict W.Obj)) (d : Dict W.Obj) : overlay (lastGiven l) d = lastGiven (l ++ [d]) := by
  funext k
  simp only [overlay, lastGiven, List.reverse_append, List.reverse_cons, List.reverse_nil, List.nil_append, List.singleton_append,
    List.findSome?_cons]
  cases d.get? k <;> rfl

theorem withChain_vals (b : Bool) (kws : List (Dict W.Obj)) (hs : ∀ d ∈ kws, "self" ∉ d.map (·.1)) :
    (valsOf (withChain (R := R) b kws)).exporters =
      (List.range (kws.length + 1)).map fun i => ⟨b, [], lastGiven (kws.take i), {}⟩ := by
  have key : ∀ n, n ≤ kws.length → (((List.range n).map fun i => XOp.exportWith (R := R) i [] (kws.getD i [])).foldl XOp.vals
      (XOp.vals (R := R) ⟨[{}], [], []⟩ (.exporter b))).exporters =
      (List.range (n + 1)).map fun i => ⟨b, [], lastGiven (kws.take i), {}⟩ := by
    intro n
    induction n with
    | zero => intro _; rfl
    | succ n ih =>
      intro hn
      have ih := ih (by omega)
      rw [List.range_succ, List.map_append, List.foldl_append]
      generalize List.foldl XOp.vals _ _ = vs at ih ⊢
      simp only [List.map_cons, List.map_nil, List.foldl_cons, List.foldl_nil, XOp.vals]
      have hget : vs.exporters[n]? = some ⟨b, [], lastGiven (kws.take n), {}⟩ := by
        rw [ih, List.getElem?_map, List.getElem?_range (by omega)]; rfl
      have hd : kws.getD n [] = kws[n] := by
        rw [List.getD_eq_getElem?_getD, List.getElem?_eq_getElem (by omega)]; rfl
      rw [hget]
      simp only
      rw [if_neg (by rw [hd]; exact hs _ (List.getElem_mem _))]
      simp only
      rw [ih, List.range_succ (n := n + 1), List.map_append]
      congr 1
      simp only [List.map_cons, List.map_nil, List.append_nil, List.cons.injEq, and_true, XConf.mk.injEq, true_and]
      rw [overlay_lastGiven, hd, List.take_append_getElem]
  exact key kws.length (Nat.le_refl _)

/-- C84: keyword options. In a chain of `export_with` calls with keyword options, the exporter made by the `i`-th call uses for every option
the value given last, in the first `i` calls or when it is called. -/
theorem C84_last_keyword_wins (V : OptView W) (b : Bool) (kws : List (Dict W.Obj)) (hs : ∀ d ∈ kws, "self" ∉ d.map (·.1))
    (hn : ∀ d ∈ kws, (d.map (·.1)).Nodup) (t : LState W) (i : Nat) (hi : i ≤ kws.length) (f : Dict W.Obj → M W R) (C : RecClass W)
    (obj : Carrier W) (kw : Dict W.Obj) (hk : (kw.map (·.1)).Nodup) (s : LState W) :
    ∃ out, (ranTo V (withChain (R := R) b kws) t).outcome V i (.noArg f) C obj [] kw s = some out ∧
      ExportsAs V C obj [] (lastGiven (kws.take i ++ [kw])) {} f s out := by
  have hok : ∀ op ∈ withChain (R := R) b kws, op.ok := by
    intro op hop
    cases hop with
    | head => trivial
    | tail _ h =>
      obtain ⟨j, _, rfl⟩ := List.mem_map.1 h
      change ((kws.getD j []).map (·.1)).Nodup
      rw [List.getD_eq_getElem?_getD]
      cases hx : kws[j]? with
      | none => simp
      | some d => exact hn d (List.mem_of_getElem? hx)
  have := C84_call V (withChain (R := R) b kws) hok t i f C obj [] kw hk s
  have hv : (valsOf (withChain (R := R) b kws)).exporters[i]? = some ⟨b, [], lastGiven (kws.take i), {}⟩ := by
    rw [withChain_vals b kws hs, List.getElem?_map, List.getElem?_range (by omega)]; rfl
  rw [hv] at this
  simpa only [overlay_lastGiven, List.append_nil] using this

/-! ### C89 -/

/-- C89: selection on an export works on the exported entries, not on the fields: `r.to_dict.select(keys_to_remove=k)()` for a record
with all fields set gives the export without `k` if `k` is exported, else KeyError. -/
theorem C89_select_sees_export {E : Env W} (V : OptView W) {C : RecClass W} (hC : Creatable C) {i : Inst W}
    (hi : ∀ k ∈ C.fields.map (·.1), k ∈ i.dict.map (·.1)) (k : String) (t s : LState W) :
    let ops : List (XOp W (Dict W.Obj)) := [.exporter false, .select 0 [] (some { remove := .str k })]
    ∃ d out, toDict C (.ofInst E i) {} Sel.empty s = (.ok d, s) ∧
      (ranTo V ops t).outcome V 1 (.noArg M.pure) C (.ofInst E i) [] [] s = some out ∧
      (k ∉ d.map (·.1) → out = (.error .keyError, s)) ∧
      (k ∈ d.map (·.1) → ∃ d', out = (.ok d', s) ∧ d'.WF ∧ ∀ k', d'.get? k' = if k' = k then none else d.get? k') := by
  intro ops
  obtain ⟨d, h1, h2, h3, h4⟩ := C75_to_dict (E := E) hC hi (o := {}) (black := []) rfl s
  have hok : ∀ op ∈ ops, op.ok := by
    intro op hop
    change op ∈ [_, _] at hop
    cases hop with
    | head => trivial
    | tail _ h => cases h with
      | head =>
        intro a ha
        cases ha
        exact ⟨trivial, trivial, trivial, trivial, trivial, trivial⟩
      | tail _ h => cases h
  have := C84_call V ops hok t 1 M.pure C (.ofInst E i) [] [] (by simp) s
  obtain ⟨out, ho, _, hout⟩ := this
  refine ⟨d, out, h1, ho, ?_⟩
  have hB : Bindable ([] ++ [] : List W.Obj) (overlay (fun _ => none) ([] : Dict W.Obj)) := by
    refine ⟨by simp, fun name v h => ?_⟩
    simp [overlay, Dict.get?] at h
  have hout := hout hB
  have e1 : optsFor V ([] ++ [] : List W.Obj) (overlay (fun _ => none) ([] : Dict W.Obj)) = {} := rfl
  have e2 : revFor V ([] ++ [] : List W.Obj) (overlay (fun _ => none) ([] : Dict W.Obj)) = Sel.empty := rfl
  rw [e1, e2, h1] at hout
  have e3 : runScript (Edits.script (V := W.Obj) { remove := [k] }) d.get? = match d.get? k with
      | none => .error .keyError
      | some _ => .ok (AMap.upd d.get? k none) := by
    simp only [Edits.script, List.map_cons, List.map_nil, List.append_nil, runScript, Edit.apply]
    cases d.get? k <;> rfl
  change EditedThen { remove := [k] } d M.pure s out at hout
  unfold EditedThen at hout
  rw [e3] at hout
  constructor
  · intro hk
    rw [(Dict.get?_eq_none_iff d k).2 hk] at hout
    exact hout
  · intro hk
    obtain ⟨v, hv⟩ := Option.isSome_iff_exists.1 ((Dict.get?_isSome_iff d k).2 hk)
    rw [hv] at hout
    obtain ⟨d', w1, w2, w3⟩ := hout
    refine ⟨d', w3, w1, fun k' => ?_⟩
    rw [w2]; rfl

end Records

/-! ### examples -/
namespace Records.Toy.Xp
open Toy Spec

/-- `True`/`False` for `include_defaults`; other options are not used -/
def view : OptView W where
  includeDefaults := truthy
  sort _ := .no
  blacklist _ := .tags []
  whitelist v := match v with | .str s => [s] | _ => []
  revSelect _ := Sel.empty

/-- `to_dict` of the record `A(x=1)` -/
def a1 : Carrier W := .ofInst env (mkA (.int 1) (.int 3))

abbrev P := XOp W (Dict TObj)

/-- `x0 = r.to_dict; x1 = x0.export_with(include_defaults=True); x2 = x1.select(Select(keys_to_rename={'y': 'z'}))`,
`x3 = x2.export_with(include_defaults=False, whitelist_keys='y')`, calls in between -/
def prog : List P :=
  [.exporter false, .newSelect { rename := .mapping [("y", "z")] }, .exportWith 0 [] [("include_defaults", .bool true)],
   .select 1 [1] none, .call 2 (.noArg M.pure) A a1 [] [], .call 0 (.noArg M.pure) A a1 [] [],
   .exportWith 2 [] [("include_defaults", .bool false), ("whitelist_keys", .str "y")]]

theorem prog_ok : ∀ op ∈ prog, op.ok := by
  intro op hop
  rcases hop with _ | ⟨_, _ | ⟨_, _ | ⟨_, _ | ⟨_, _ | ⟨_, _ | ⟨_, _ | ⟨_, hop⟩⟩⟩⟩⟩⟩⟩
  · trivial
  · exact ⟨trivial, trivial, trivial, trivial, trivial, trivial⟩
  · change List.Nodup ["include_defaults"]; decide
  · nofun
  · trivial
  · trivial
  · change List.Nodup ["include_defaults", "whitelist_keys"]; decide
  · cases hop

example : (ranTo view prog s0).outcome view 0 (.noArg M.pure) A a1 [] [] s0 = some (.ok [("x", .int 1)], s0) := rfl
example : (ranTo view prog s0).outcome view 1 (.noArg M.pure) A a1 [] [] s0 = some (.ok [("x", .int 1), ("y", .int 3)], s0) := rfl
example : (ranTo view prog s0).outcome view 2 (.noArg M.pure) A a1 [] [] s0 = some (.ok [("x", .int 1), ("z", .int 3)], s0) := rfl
example : (ranTo view prog s0).outcome view 3 (.noArg M.pure) A a1 [] [] s0 = some (.ok [("x", .int 1), ("z", .int 3)], s0) := rfl
example : (ranTo view prog s0).outcome view 3 (.noArg M.pure) A a1 [] [("whitelist_keys", .str "x")] s0 =
    some (.error .keyError, s0) := rfl
/-- options by position and by keyword -/
example : (ranTo view prog s0).outcome view 1 (.noArg M.pure) A a1 [.bool true] [] s0 = some (.error .typeError, s0) := rfl
/-- the arguments of an ordinary exporter go to its function -/
example : (ranTo view prog s0).outcome view 1 (.args fun d a k => M.pure (d, a, k)) A a1 [.int 7] [("io", .none)] s0 =
    some (.ok ([("x", .int 1), ("y", .int 3)], [.int 7], [("io", .none)]), s0) := rfl

example := C84_immutable view prog [.call 3 (.noArg M.pure) A a1 [] [], .exportWith 0 [.bool true] []] (by
    intro op hop
    rcases List.mem_append.1 hop with h | h
    · exact prog_ok op h
    · rcases h with _ | ⟨_, _ | ⟨_, h⟩⟩
      · trivial
      · exact List.nodup_nil
      · cases h) s0 2 (by decide) (.noArg M.pure) A a1 [] [] s0
example := C84_call view prog prog_ok s0 3 M.pure A a1 [] [("whitelist_keys", .str "x")] (by simp) s0
example := C84_call_args view (R := Dict TObj × List TObj) [.exporter true] (by intro op h; cases h with | head => trivial | tail _ h => cases h)
  s0 0 (fun d a _ => M.pure (d, a)) A a1 [.int 7] [("io", .none)] s0

/-- factories: `f1 = f0.select(keys_to_remove='x')` -/
def fprog : List P := [.factory, .fselect 0 [] (some { remove := .str "x" }), .fcall 1 [[("x", .int 1)]] (.dict 0)]

theorem fprog_ok : ∀ op ∈ fprog, op.ok := by
  intro op hop
  rcases hop with _ | ⟨_, _ | ⟨_, _ | ⟨_, hop⟩⟩⟩
  · trivial
  · intro a ha; cases ha; exact ⟨trivial, trivial, trivial, trivial, trivial, trivial⟩
  · trivial
  · cases hop

example : (ranTo view fprog s0).foutcome 1 [[("x", .int 1), ("y", .int 2)]] (.dict 0) = some (.ok (.dict 0), [[("y", .int 2)]]) := rfl
example : (ranTo view fprog s0).foutcome 0 [[("x", .int 1), ("y", .int 2)]] (.dict 0) =
    some (.ok (.dict 0), [[("x", .int 1), ("y", .int 2)]]) := rfl
example := C84_factory_immutable view fprog [.fcall 1 [[("x", .int 1)]] (.dict 0)] (by
    intro op hop
    rcases List.mem_append.1 hop with h | h
    · exact fprog_ok op h
    · cases h with
      | head => trivial
      | tail _ h => cases h) s0 1 (by decide) [[("x", .int 1), ("y", .int 2)]] (.dict 0)
example := C84_factory_call view fprog fprog_ok s0 1 [[("x", .int 1), ("y", .int 2)]]
  (by unfold Heap.WF Dict.WF; decide) (.dict 0) (by unfold MObj.Valid; decide)

example := C84_last_keyword_wins view (R := Dict TObj) false
  [[("include_defaults", .bool true)], [("include_defaults", .bool false), ("whitelist_keys", .str "y")]]
  (by decide) (by decide) s0 2 (by decide) M.pure A a1 [("whitelist_keys", .str "x")] (by decide) s0

/-- C89: `x` is exported, `y` has its default and is not -/
example : (ranTo (R := Unit) view [.exporter false, .select 0 [] (some { remove := .str "x" })] s0).outcome view 1 (.noArg M.pure) A a1 [] [] s0 =
    some (.ok [], s0) := rfl
example : (ranTo (R := Unit) view [.exporter false, .select 0 [] (some { remove := .str "y" })] s0).outcome view 1 (.noArg M.pure) A a1 [] [] s0 =
    some (.error .keyError, s0) := rfl
example := C89_select_sees_export (E := env) view A_creatable (i := mkA (.int 1) (.int 3)) (fun _ hk => hk) "y" s0 s0

end Records.Toy.Xp

/-! ### refuted claims -/
namespace Records
open Toy Toy.Xp Spec

/-- The claim that the options of a call override those of `export_with`, also when given by position: `r.to_dict.export_with(v)(w)` has the
same outcome as `r.to_dict(w)`. -/
def C84_claim : Prop := ∀ (W : World) (V : OptView W) (C : RecClass W) (obj : Carrier W) (v w : W.Obj) (s : LState W),
  (ranTo (R := Unit) V [.exporter false, .exportWith 0 [v] []] s).outcome V 1 (.noArg M.pure) C obj [w] [] s =
    (ranTo (R := Unit) V [.exporter false] s).outcome V 0 (.noArg M.pure) C obj [w] [] s

/-- C84: it does not hold: positional options are appended, so the second is bound to the next parameter. -/
theorem C84_refuted : ¬ C84_claim := by
  intro h
  have h := h W view A a1 (.bool true) (.bool false) s0
  have e1 : (ranTo (R := Unit) view [.exporter false, .exportWith 0 [.bool true] []] s0).outcome view 1 (.noArg M.pure) A a1 [.bool false] [] s0 =
    some (.ok [("x", .int 1), ("y", .int 3)], s0) := rfl
  have e2 : (ranTo (R := Unit) view [.exporter false] s0).outcome view 0 (.noArg M.pure) A a1 [.bool false] [] s0 =
    some (.ok [("x", .int 1)], s0) := rfl
  rw [e1, e2] at h
  cases h

/-- The claim that bound exporters are immutable also with Selects over one-shot iterators: calling an exporter twice has the same
outcome. -/
def C84_claim_iterators : Prop := ∀ (W : World) (V : OptView W) (C : RecClass W) (obj : Carrier W) (a : SelectArgs W.Obj) (s : LState W),
  let ops : List (XOp W (Dict W.Obj)) := [.exporter false, .select 0 [] (some a)]
  (ranTo V (ops ++ [.call 1 (.noArg M.pure) C obj [] []]) s).outcome V 1 (.noArg M.pure) C obj [] [] s =
    (ranTo V ops s).outcome V 1 (.noArg M.pure) C obj [] [] s

/-- C84: it does not hold for generators. -/
theorem C84_refuted_iterators : ¬ C84_claim_iterators := by
  intro h
  have h := h W view A a1 { maybeRemove := .iterable (.once ["q", "x"]) } s0
  have e1 : (ranTo (R := Dict TObj) view ([.exporter false, .select 0 [] (some { maybeRemove := .iterable (.once ["q", "x"]) })] ++
    [.call 1 (.noArg M.pure) A a1 [] []]) s0).outcome view 1 (.noArg M.pure) A a1 [] [] s0 = some (.ok [("x", .int 1)], s0) := rfl
  have e2 : (ranTo (R := Dict TObj) view [.exporter false, .select 0 [] (some { maybeRemove := .iterable (.once ["q", "x"]) })] s0).outcome view 1
    (.noArg M.pure) A a1 [] [] s0 = some (.ok [], s0) := rfl
  have h := e1.symm.trans (h.trans e2)
  cases h

/-- The claim that every field of a record can be removed from its export. -/
def C89_claim : Prop := ∀ (W : World) (E : Env W) (V : OptView W) (C : RecClass W), Creatable C → ∀ (i : Inst W), Full C i →
  ∀ k ∈ C.fields.map (·.1), ∀ (s : LState W),
  ∃ d, (ranTo (R := Unit) V [.exporter false, .select 0 [] (some { remove := .str k })] s).outcome V 1 (.noArg M.pure) C (.ofInst E i) [] [] s =
    some (.ok d, s)

/-- C89: it does not hold: a field that has its default is not exported. -/
theorem C89_refuted : ¬ C89_claim := by
  intro h
  obtain ⟨d, h⟩ := h W env view A A_creatable (mkA (.int 1) (.int 3)) (fun _ hk => hk) "y" (by decide) s0
  have e : (ranTo (R := Unit) view [.exporter false, .select 0 [] (some { remove := .str "y" })] s0).outcome view 1 (.noArg M.pure) A a1 [] [] s0 =
    some (.error .keyError, s0) := rfl
  unfold a1 at e
  rw [e] at h
  cases h

end Records
