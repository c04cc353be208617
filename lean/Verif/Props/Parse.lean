import Verif.Spec.Parse
import Verif.Props.Factory
import Verif.Spec.New
set_option linter.unusedSimpArgs false
/-
C57-C59: `parse`.
-/
namespace Records
open Spec
variable {W : World}

/-! ### C57 -/

theorem parseLoop_all {E : Env W} {C : RecClass W} {call : Dict W.Obj → M W (Res W)} {v : W.Obj} {ps : List (Parser W)} {s s' : LState W}
    {rs : List (Res W)} (h : RunAll (Parser.run E C call v) ps s rs s') (acc : List (Res W)) :
    parseLoop E C call v ps acc s = (.ok (acc ++ rs), s') := by
  induction h generalizing acc with
  | nil s => simp [parseLoop, M.pure]
  | ok h1 _ ih =>
    unfold parseLoop
    rw [h1]
    simp only
    rw [ih]
    simp
  | fail h1 he _ ih =>
    unfold parseLoop
    rw [h1]
    simp only [he, if_true]
    rw [ih]

theorem parseLoop_stop {E : Env W} {C : RecClass W} {call : Dict W.Obj → M W (Res W)} {v : W.Obj} {ps : List (Parser W)} {s s' : LState W}
    {e : Exc} (h : RunStop (Parser.run E C call v) ps s e s') (acc : List (Res W)) :
    parseLoop E C call v ps acc s = (.error e, s') := by
  induction h generalizing acc with
  | here h1 he =>
    unfold parseLoop
    rw [h1]
    simp [he]
  | ok h1 _ ih =>
    unfold parseLoop
    rw [h1]
    simp only
    rw [ih]
  | fail h1 he _ ih =>
    unfold parseLoop
    rw [h1]
    simp only [he, if_true]
    rw [ih]

/-- what `parse` makes of the successful results -/
def verdict : List (Res W) → Except Exc (Res W)
  | [] => .error .parseFailure
  | [r] => .ok r
  | _ => .error .typeError

theorem parseWith_all {E : Env W} {C : RecClass W} {call : Dict W.Obj → M W (Res W)} {v : W.Obj} {s s' : LState W}
    {rs : List (Res W)} (h : RunAll (Parser.run E C call v) C.parsers s rs s') :
    parseWith E C call v s = (verdict rs, s') := by
  unfold parseWith
  rw [M.bind_ok (parseLoop_all h [])]
  rcases rs with _ | ⟨r, _ | ⟨r', rs⟩⟩ <;> rfl

/-- C57: if no parser raises a non-`Exception`, all parsers are called once, and `parse` returns the result of the only one that succeeds,
raises ParseFailure if none does, and (plain) TypeError if several do. -/
theorem C57_parse {E : Env W} {C : RecClass W} {call : Dict W.Obj → M W (Res W)} {v : W.Obj} {s s' : LState W} {rs : List (Res W)}
    (h : RunAll (Parser.run E C call v) C.parsers s rs s') :
    ∃ x, parseWith E C call v s = (x, s') ∧ (∀ r, x = .ok r ↔ rs = [r]) ∧ (x = .error .parseFailure ↔ rs = []) ∧
      (x = .error .typeError ↔ 2 ≤ rs.length) := by
  refine ⟨_, parseWith_all h, ?_⟩
  rcases rs with _ | ⟨r, _ | ⟨r', rs⟩⟩ <;> simp [verdict, Exc.parseFailure, Exc.typeError]

/-- C57: an exception of a parser that is no `Exception` ends `parse`. -/
theorem C57_interrupted {E : Env W} {C : RecClass W} {call : Dict W.Obj → M W (Res W)} {v : W.Obj} {s s' : LState W} {e : Exc}
    (h : RunStop (Parser.run E C call v) C.parsers s e s') : parseWith E C call v s = (.error e, s') := by
  unfold parseWith
  rw [M.bind_error (parseLoop_stop h [])]

/-- C57: there is no third possibility. -/
theorem C57_cases {P : Type} (run : P → M W (Res W)) (ps : List P) (s : LState W) :
    (∃ rs s', RunAll run ps s rs s') ∨ (∃ e s', RunStop run ps s e s') := by
  induction ps generalizing s with
  | nil => exact .inl ⟨_, _, .nil s⟩
  | cons p ps ih =>
    rcases hx : run p s with ⟨r, s1⟩
    cases r with
    | ok r =>
      rcases ih s1 with ⟨rs, s2, h⟩ | ⟨e, s2, h⟩
      · exact .inl ⟨_, _, .ok hx h⟩
      · exact .inr ⟨_, _, .ok hx h⟩
    | error e =>
      cases he : e.isException with
      | false => exact .inr ⟨_, _, .here hx he⟩
      | true =>
        rcases ih s1 with ⟨rs, s2, h⟩ | ⟨e', s2, h⟩
        · exact .inl ⟨_, _, .fail hx he h⟩
        · exact .inr ⟨_, _, .fail hx he h⟩

/-- C57: the parser `from_mapping` calls the constructor with the entries of the mapping, whatever their names. -/
theorem C57_mapping_parser {E : Env W} {C : RecClass W} {call : Dict W.Obj → M W (Res W)} {v : W.Obj} {s s' : LState W} {m : Dict W.Obj}
    (hv : E.chainView v s = (.ok m, s')) (hm : m.WF) :
    ∃ m' : Dict W.Obj, m'.WF ∧ m'.get? = m.get? ∧ Parser.run E C call v .fromMapping s = call m' s' := by
  have hl : ∀ x ∈ [m, ([] : Dict W.Obj)], x.WF := by
    intro x hx
    rcases hx with _ | ⟨_, _ | ⟨_, hx⟩⟩
    · exact hm
    · exact List.nodup_nil
    · cases hx
  refine ⟨chainItems [m, []], chainItems_wf _, ?_, ?_⟩
  · funext k
    rw [chainItems_get? _ hl]
    simp only [List.findSome?_cons, List.findSome?_nil]
    cases m.get? k <;> rfl
  · show M.bind (E.chainView v) _ s = _
    rw [M.bind_ok hv]
    rfl

/-- C57: the parser `from_json` calls the constructor with the entries of the decoded text. -/
theorem C57_json_parser {E : Env W} {C : RecClass W} {call : Dict W.Obj → M W (Res W)} {v j : W.Obj} {s s1 s2 : LState W}
    {m : Dict W.Obj} (hj : E.jsonLoads v [] s = (.ok j, s1)) (hm : E.starView j s1 = (.ok m, s2)) :
    Parser.run E C call v .fromJson s = call m s2 := by
  show M.bind (E.jsonLoads v []) _ s = _
  rw [M.bind_ok hj]
  show M.bind (E.starView j) _ s1 = _
  rw [M.bind_ok hm]
  rfl

/-! ### C58 -/

theorem run_withParsers (E : Env W) (C : RecClass W) (ps : List (Parser W)) (call : Dict W.Obj → M W (Res W)) (v : W.Obj) :
    Parser.run E (C.withParsers ps) call v = Parser.run E C call v := by
  funext p
  cases p <;> rfl

/-- the successful results of quiet parsers -/
def successes {P : Type} (res : P → Except Exc (Res W)) (ps : List P) : List (Res W) :=
  ps.filterMap fun p => match res p with | .ok r => some r | .error _ => none

theorem runAll_quiet {P : Type} {run : P → M W (Res W)} {res : P → Except Exc (Res W)} {ps : List P}
    (hq : ∀ p ∈ ps, ∀ s, (run p s).1 = res p ∧ (run p s).2.user = s.user) (ho : ∀ p ∈ ps, Ordinary (res p)) (s : LState W) :
    ∃ s', RunAll run ps s (successes res ps) s' ∧ s'.user = s.user := by
  induction ps generalizing s with
  | nil => exact ⟨s, .nil s, rfl⟩
  | cons p ps ih =>
    obtain ⟨h1, h2⟩ := hq p (by simp) s
    rcases hx : run p s with ⟨r, s1⟩
    rw [hx] at h1 h2
    simp only at h1 h2
    obtain ⟨s', hr, hu⟩ := ih (fun p h => hq p (by simp [h])) (fun p h => ho p (by simp [h])) s1
    have hop := ho p (by simp)
    cases hp : res p with
    | ok r' =>
      rw [h1, hp] at hx
      have : successes res (p :: ps) = r' :: successes res ps := by simp [successes, hp]
      rw [this]
      exact ⟨s', .ok hx hr, by rw [hu, h2]⟩
    | error e =>
      rw [h1, hp] at hx
      rw [hp] at hop
      have : successes res (p :: ps) = successes res ps := by simp [successes, hp]
      rw [this]
      exact ⟨s', .fail hx hop hr, by rw [hu, h2]⟩

theorem verdict_perm {l l' : List (Res W)} (h : l.Perm l') : verdict l = verdict l' := by
  rcases l with _ | ⟨r, _ | ⟨r', l⟩⟩
  · rw [List.nil_perm.1 h]
  · rw [List.singleton_perm.1 h]
  · have hl := h.length_eq
    rcases l' with _ | ⟨q, _ | ⟨q', l'⟩⟩
    · simp at hl
    · simp at hl
    · rfl

/-- C58: if the parsers have no visible effects and none raises a non-`Exception`, the outcome of `parse` does not depend on their order. -/
theorem C58_parser_order {E : Env W} {C : RecClass W} {call : Dict W.Obj → M W (Res W)} {v : W.Obj} {ps : List (Parser W)}
    (hp : ps.Perm C.parsers) (hq : ∀ p ∈ C.parsers, Quiet (p.run E C call v))
    (ho : ∀ p ∈ C.parsers, ∀ s, Ordinary (p.run E C call v s).1) (s t : LState W) :
    (parseWith E (C.withParsers ps) call v s).1 = (parseWith E C call v t).1 := by
  have hq' : ∀ p ∈ C.parsers, ∀ s', (p.run E C call v s').1 = (p.run E C call v s).1 ∧
      (p.run E C call v s').2.user = s'.user := by
    intro p h s'
    obtain ⟨r, hr⟩ := hq p h
    exact ⟨(hr s').1.trans (hr s).1.symm, (hr s').2⟩
  obtain ⟨_, h1, _⟩ := runAll_quiet (P := Parser W) (res := fun p => (p.run E C call v s).1) hq' (fun p h => ho p h s) t
  obtain ⟨_, h2, _⟩ := runAll_quiet (P := Parser W) (ps := ps) (res := fun p => (p.run E C call v s).1)
    (fun p h => hq' p (hp.mem_iff.1 h)) (fun p h => ho p (hp.mem_iff.1 h) s) s
  rw [← run_withParsers E C ps] at h2
  rw [parseWith_all (C := C.withParsers ps) h2, parseWith_all h1]
  exact verdict_perm (hp.filterMap _)

/-- C58: if some parser raises a non-`Exception`, `parse` raises one in any order (which one may depend on the order). -/
theorem C58_interrupted {E : Env W} {C : RecClass W} {call : Dict W.Obj → M W (Res W)} {v : W.Obj}
    {p : Parser W} (hp : p ∈ C.parsers) (ho : ∀ s, ¬ Ordinary (p.run E C call v s).1) (s : LState W) :
    ∃ e, (parseWith E C call v s).1 = .error e ∧ e.isException = false := by
  rcases C57_cases (Parser.run E C call v) C.parsers s with ⟨rs, s', h⟩ | ⟨e, s', h⟩
  · exfalso
    generalize C.parsers = ps at hp h
    induction h with
    | nil => cases hp
    | ok h1 _ ih =>
      cases hp with
      | head => exact ho _ (by rw [h1]; trivial)
      | tail _ hp => exact ih hp
    | fail h1 he _ ih =>
      cases hp with
      | head => exact ho _ (by rw [h1]; exact he)
      | tail _ hp => exact ih hp
  · refine ⟨e, by rw [C57_interrupted h], ?_⟩
    clear hp
    generalize C.parsers = ps at h
    induction h with
    | here _ he => exact he
    | ok _ _ ih => exact ih
    | fail _ _ _ ih => exact ih

theorem runAll_silent {P : Type} {run : P → M W (Res W)} {res : P → Except Exc (Res W)} {ps : List P}
    (hq : ∀ p ∈ ps, Silent (run p) (res p)) (ho : ∀ p ∈ ps, Ordinary (res p)) (s : LState W) :
    RunAll run ps s (successes res ps) s := by
  induction ps with
  | nil => exact .nil s
  | cons p ps ih =>
    have h1 := hq p (by simp) s
    have hr := ih (fun p h => hq p (by simp [h])) (fun p h => ho p (by simp [h]))
    have hop := ho p (by simp)
    cases hp : res p with
    | ok r' =>
      rw [hp] at h1
      have : successes res (p :: ps) = r' :: successes res ps := by simp [successes, hp]
      rw [this]
      exact .ok h1 hr
    | error e =>
      rw [hp] at h1 hop
      have : successes res (p :: ps) = successes res ps := by simp [successes, hp]
      rw [this]
      exact .fail h1 hop hr

theorem construct_withParsers (E : Env W) (C : RecClass W) (ps : List (Parser W)) :
    construct E (C.withParsers ps) = construct E C := rfl

theorem callCls_withParsers (C : RecClass W) (ps : List (Parser W)) : callCls (C.withParsers ps) = callCls C := rfl

/-- C58, with the recursion through the constructor: if the parsers (at every recursion depth, on every object) do nothing but return
or raise an `Exception`, the class with permuted parsers parses and constructs exactly as before. -/
theorem C58_whole_class {E : Env W} {C : RecClass W} {ps : List (Parser W)} (hp : ps.Perm C.parsers)
    (hq : ∀ n, ∀ p ∈ C.parsers, ∀ v, ∃ r, Ordinary r ∧ Silent (p.run E C (fun m => callN E C n none m) v) r) (n : Nat) :
    callN E (C.withParsers ps) n = callN E C n ∧ parseN E (C.withParsers ps) n = parseN E C n := by
  have hparse : ∀ n, callN E (C.withParsers ps) n = callN E C n → parseN E (C.withParsers ps) n = parseN E C n := by
    intro n hc
    funext v s
    unfold parseN
    rw [hc]
    have hq' : ∀ p ∈ C.parsers, Silent (p.run E C (fun m => callN E C n none m) v) ((p.run E C (fun m => callN E C n none m) v) s).1 ∧
        Ordinary ((p.run E C (fun m => callN E C n none m) v) s).1 := by
      intro p h
      obtain ⟨r, h1, h2⟩ := hq n p h v
      rw [h2 s]
      exact ⟨h2, h1⟩
    have h1 := runAll_silent (P := Parser W) (fun p h => (hq' p h).1) (fun p h => (hq' p h).2) s
    have h2 := runAll_silent (P := Parser W) (ps := ps) (fun p h => (hq' p (hp.mem_iff.1 h)).1)
      (fun p h => (hq' p (hp.mem_iff.1 h)).2) s
    rw [parseWith_all h1, parseWith_all (C := C.withParsers ps) (by rw [run_withParsers]; exact h2)]
    exact congrArg (fun x => (x, s)) (verdict_perm (hp.filterMap _))
  induction n with
  | zero => exact ⟨rfl, hparse 0 rfl⟩
  | succ n ih =>
    have hc : callN E (C.withParsers ps) (n + 1) = callN E C (n + 1) := by
      have h2 := ih.2
      show callCls (C.withParsers ps) (construct E (C.withParsers ps) (parseN E (C.withParsers ps) n)) =
        callCls C (construct E C (parseN E C n))
      rw [h2, construct_withParsers, callCls_withParsers]
    exact ⟨hc, hparse _ hc⟩

/-! ### C59 -/

theorem lacks_reads {E : Env W} {v : W.Obj} {C : RecClass W} (h : ∀ k ∈ C.fields.map (·.1), Lacks E v k) (f : Field W)
    (hf : f.name ∈ C.fields.map (·.1)) (s : LState W) :
    ∃ e : Exc, e.kind = .attributeError ∧ (Carrier.ofObj E v).attr f.name s = (.error e, s) := by
  obtain ⟨e, he, h⟩ := h _ hf
  exact ⟨e, he, h s⟩

theorem exportTuples_lacking {obj : Carrier W} {mok : List String} {fs : List (XField W)}
    (h : ∀ f ∈ fs, (∃ e : Exc, e.kind = .attributeError ∧ ∀ s, obj.attr f.name s = (.error e, s)) ∧ f.name ∈ mok) (s : LState W) :
    exportTuples obj {} mok fs s = (.ok [], s) := by
  induction fs with
  | nil => rfl
  | cons f fs ih =>
    obtain ⟨⟨e, he, ha⟩, hm⟩ := h f (by simp)
    have hx : exportField ({} : ExportOpts) f = .ok true := by simp [exportField]
    unfold exportTuples
    simp only [hx]
    rw [ha s]
    simp only [he, ne_eq, not_true, if_false, hm]
    exact ih fun g hg => h g (by simp [hg])

/-- C59: for a class without required fields, `from_instance` of an object that has none of the attributes (and is no instance) constructs
the default record; in particular it succeeds whenever `C()` does. -/
theorem C59_from_instance {E : Env W} {C : RecClass W} (hC : Creatable C) (hr : C.required = []) {v : W.Obj}
    (hl : ∀ k ∈ C.fields.map (·.1), Lacks E v k) (hi : W.isInstance v C.cid = false) (call : Dict W.Obj → M W (Res W)) :
    Parser.run E C call v .fromInstance = call [] := by
  have wf := hC.wf
  funext s
  have htd : toDict C (Carrier.ofObj E v) {} Sel.empty s = (.ok [], s) := by
    have hx := exportTuples_lacking (obj := Carrier.ofObj E v) (mok := (extraction C Sel.empty).1)
      (fs := (extraction C Sel.empty).2.values) (by
        intro f hf
        rw [extraction_empty_values] at hf
        obtain ⟨g, hg, rfl⟩ := List.mem_map.1 hf
        obtain ⟨⟨k, g⟩, hkg, rfl⟩ := List.mem_map.1 hg
        have hget := Dict.mem_get? _ wf.nodup _ _ hkg
        have hn := wf.named k g hget
        have hk : (Field.x g).name = k := hn
        rw [hk]
        refine ⟨hl k (List.mem_map.2 ⟨_, hkg, rfl⟩), ?_⟩
        rw [extraction_empty]
        show k ∈ C.optional
        cases hd : g.default with
        | none =>
          have : k ∈ C.required := (wf.req k).2 ⟨g, hget, hd⟩
          rw [hr] at this
          cases this
        | some d => exact (wf.opt k).2 ⟨g, d, hget, hd⟩) s
    exact ((toDict_eq wf _ {} Sel.empty s).1 [] s hx).1
  show M.bind (fromInstance C call Sel.empty (Carrier.ofObj E v) [] []) (fun r => M.pure (r.getD (.old v))) s = call [] s
  rw [fromInstance_skip (by simp) (by rintro ⟨_, _, _, _, h⟩; rw [show (Carrier.ofObj E v).isInst C.cid = false from hi] at h; cases h)]
  have e1 : M.bind (toDict C (Carrier.ofObj E v) {} Sel.empty) (fun d => built (buildFrom call Sel.empty (d.update []))) s =
      built (call []) s := by
    rw [M.bind_ok htd]; rfl
  show M.bind (M.bind (toDict C (Carrier.ofObj E v) {} Sel.empty) (fun d => built (buildFrom call Sel.empty (d.update [])))) _ s = _
  rcases hc : call [] s with ⟨r, s1⟩
  cases r with
  | ok r =>
    have e2 : built (call []) s = (.ok (some r), s1) := by unfold built; rw [M.bind_ok hc]; rfl
    rw [e2] at e1
    rw [M.bind_ok e1]
    rfl
  | error e =>
    have e2 : built (call []) s = (.error e, s1) := by unfold built; rw [M.bind_error hc]
    rw [e2] at e1
    rw [M.bind_error e1]

theorem runAll_two {P : Type} {run : P → M W (Res W)} {p q : P} (hpq : p ≠ q) (hp1 : ∀ s, ∃ r s', run p s = (.ok r, s'))
    (hq1 : ∀ s, ∃ r s', run q s = (.ok r, s')) {ps : List P} {s s' : LState W} {rs : List (Res W)} (h : RunAll run ps s rs s') :
    (p ∈ ps → 1 ≤ rs.length) ∧ (q ∈ ps → 1 ≤ rs.length) ∧ (p ∈ ps → q ∈ ps → 2 ≤ rs.length) := by
  induction h with
  | nil => exact ⟨nofun, nofun, nofun⟩
  | ok h1 _ ih =>
    rename_i p' ps s r s1 rs s2 _
    refine ⟨fun _ => by simp, fun _ => by simp, fun hp hq => ?_⟩
    simp only [List.length_cons]
    have : 1 ≤ rs.length := by
      rcases List.mem_cons.1 hp with rfl | hp
      · rcases List.mem_cons.1 hq with hq | hq
        · exact absurd hq.symm hpq
        · exact ih.2.1 hq
      · exact ih.1 hp
    omega
  | fail h1 he _ ih =>
    rename_i p' ps s e s1 rs s2 _
    have hne : p' ≠ p ∧ p' ≠ q := by
      constructor
      · rintro rfl
        obtain ⟨r, s', hr⟩ := hp1 s
        rw [hr] at h1
        cases h1
      · rintro rfl
        obtain ⟨r, s', hr⟩ := hq1 s
        rw [hr] at h1
        cases h1
    have hm : ∀ x, x ∈ p' :: ps → p' ≠ x → x ∈ ps := by
      intro x hx hn
      rcases List.mem_cons.1 hx with h | h
      · exact absurd h.symm hn
      · exact h
    exact ⟨fun h => ih.1 (hm _ h hne.1), fun h => ih.2.1 (hm _ h hne.2), fun h h' => ih.2.2 (hm _ h hne.1) (hm _ h' hne.2)⟩

/-- C59: for a class without required fields whose default construction succeeds, `parse` of any mapping that `from_mapping` accepts (and
that has none of the fields as attributes) raises TypeError as ambiguous. -/
theorem C59_ambiguous {E : Env W} {C : RecClass W} (hC : Creatable C) (hr : C.required = [])
    (hps : .fromInstance ∈ C.parsers ∧ .fromMapping ∈ C.parsers) {v : W.Obj}
    (hl : ∀ k ∈ C.fields.map (·.1), Lacks E v k) (hi : W.isInstance v C.cid = false) (call : Dict W.Obj → M W (Res W))
    (h0 : ∀ s, ∃ r s', call [] s = (.ok r, s')) (hm : ∀ s, ∃ r s', Parser.run E C call v .fromMapping s = (.ok r, s'))
    (ho : ∀ p ∈ C.parsers, ∀ s, Ordinary (p.run E C call v s).1) (s : LState W) :
    (parseWith E C call v s).1 = .error .typeError := by
  rcases C57_cases (Parser.run E C call v) C.parsers s with ⟨rs, s', h⟩ | ⟨e, s', h⟩
  · have h2 : 2 ≤ rs.length := (runAll_two (p := Parser.fromInstance) (q := Parser.fromMapping) nofun (by
      rw [C59_from_instance hC hr hl hi call]; exact h0) hm h).2.2 hps.1 hps.2
    rw [parseWith_all h]
    match rs, h2 with
    | a :: b :: l, _ => rfl
  · exfalso
    generalize hpe : C.parsers = ps at h ho
    clear hpe hps
    induction h with
    | here h1 he =>
      rename_i s _ _
      have := ho _ (.head _) s
      rw [h1] at this
      rw [show _ = true from this] at he
      cases he
    | ok _ _ ih => exact ih fun p hp => ho p (.tail _ hp)
    | fail _ _ _ ih => exact ih fun p hp => ho p (.tail _ hp)

/-- C59: for a class with a required field and only the built-in parsers, a mapping (an object without the required attribute that is no
JSON text) is parsed by `from_mapping` alone; if `from_mapping` fails, `parse` raises ParseFailure. -/
theorem C59_required {E : Env W} {C : RecClass W} (hC : Creatable C) (hps : C.parsers = [.fromInstance, .fromJson, .fromMapping])
    {v : W.Obj} {val : String → Option W.Obj} (hv : Reads (Carrier.ofObj E v) val) {k : String} (hk : k ∈ C.required)
    (hn : val k = none) (hi : W.isInstance v C.cid = false)
    (hj : ∃ e : Exc, e.isException = true ∧ ∀ s, E.jsonLoads v [] s = (.error e, s)) (call : Dict W.Obj → M W (Res W)) (s : LState W) :
    parseWith E C call v s = match (generalizing := false) Parser.run E C call v .fromMapping s with
      | (.ok r, s') => (.ok r, s')
      | (.error e, s') => (.error (if e.isException then .parseFailure else e), s') := by
  have hrun1 : ∃ e : Exc, e.isException = true ∧ Parser.run E C call v .fromInstance s = (.error e, s) := by
    obtain ⟨e, he, h⟩ := C64_missing hC call hv (maps := []) (by simp) (by simp) (kw := []) List.nodup_nil (by simp)
      (by rintro ⟨_, _, _, h⟩; rw [show (Carrier.ofObj E v).isInst C.cid = false from hi] at h; cases h) hk hn s
    refine ⟨e, ?_, ?_⟩
    · unfold Exc.isException; rw [he]
    · show M.bind (fromInstance C call Sel.empty (Carrier.ofObj E v) [] []) _ s = _
      rw [M.bind_error h]
  have hrun2 : ∃ e : Exc, e.isException = true ∧ Parser.run E C call v .fromJson s = (.error e, s) := by
    obtain ⟨e, he, h⟩ := hj
    refine ⟨e, he, ?_⟩
    show fromJson E call Sel.empty v [] s = _
    unfold fromJson
    rw [clash_false (by simp)]
    rw [if_neg (by simp), M.bind_error (h s)]
  obtain ⟨e1, h1, r1⟩ := hrun1
  obtain ⟨e2, h2, r2⟩ := hrun2
  rcases hx : Parser.run E C call v .fromMapping s with ⟨r, s'⟩
  cases r with
  | ok r =>
    have : RunAll (Parser.run E C call v) C.parsers s [r] s' := by
      rw [hps]; exact .fail r1 h1 (.fail r2 h2 (.ok hx (.nil _)))
    exact parseWith_all this
  | error e =>
    cases he : e.isException with
    | true =>
      have : RunAll (Parser.run E C call v) C.parsers s [] s' := by
        rw [hps]; exact .fail r1 h1 (.fail r2 h2 (.fail hx he (.nil _)))
      simp only [he, if_true]
      exact parseWith_all this
    | false =>
      simp only [he, Bool.false_eq_true, if_false]
      refine C57_interrupted ?_
      rw [hps]
      exact .fail r1 h1 (.fail r2 h2 (.here hx he))

end Records

/-! ### concrete cases -/
namespace Records.Toy.Parse
open Spec

/-- a user parser that accepts strings -/
def pStr : Parser W := .user fun v => match (show TObj from v) with
  | .str _ => M.pure (.new ⟨.record 21, [("x", .int 1)], none⟩)
  | _ => M.throw .valueError

/-- a user parser that accepts the string `"a"` and interrupts on `None` -/
def pA : Parser W := .user fun v => match (show TObj from v) with
  | .str "a" => M.pure (.new ⟨.record 21, [("x", .int 2)], none⟩)
  | .none => M.throw ⟨.base 0, none⟩
  | _ => M.throw .typeError

/-- `class V(RecordBase): x: int` with these parsers only -/
def spV : ClassSpec W := { cid := .record 21, anns := [("x", .plain (.cls .int))], parsers := [pStr, pA] }

def V : RecClass W := clsOf spV noClass

def callV : Dict W.Obj → M W (Res W) := fun m => callN env V 3 none m

/-- C57: one, none, several succeed; one interrupts -/
example : parseN env V 3 (.str "b") s0 = (.ok (.new ⟨.record 21, [("x", .int 1)], none⟩), s0) := rfl
example : parseN env V 3 (.int 1) s0 = (.error .parseFailure, s0) := rfl
example : parseN env V 3 (.str "a") s0 = (.error .typeError, s0) := rfl
example : parseN env V 3 .none s0 = (.error ⟨.base 0, none⟩, s0) := rfl
example := C57_parse (E := env) (C := V) (call := callV) (v := TObj.str "b") (s := s0) (.ok (p := pStr) rfl (.fail (p := pA) rfl rfl (.nil _)))
example := C57_interrupted (E := env) (C := V) (call := callV) (v := TObj.none) (s := s0) (.fail (p := pStr) rfl rfl (.here (p := pA) rfl rfl))

/-- C58 -/
theorem V_quiet (v : TObj) (hv : v ≠ .none) (call : Dict W.Obj → M W (Res W)) : ∀ p ∈ V.parsers, ∃ r, Ordinary r ∧
    Silent (p.run env V call v) r := by
  intro p hp
  rcases hp with _ | ⟨_, _ | ⟨_, h⟩⟩
  · cases v <;> exact ⟨_, by first | exact trivial | rfl, fun s => rfl⟩
  · show ∃ r, Ordinary r ∧ Silent ((match (v : TObj) with
      | .str "a" => M.pure (.new ⟨.record 21, [("x", .int 2)], none⟩)
      | .none => M.throw ⟨.base 0, none⟩
      | _ => M.throw .typeError : M W (Res W))) r
    split
    · exact ⟨.ok _, trivial, fun s => rfl⟩
    · exact absurd rfl hv
    · exact ⟨.error .typeError, rfl, fun s => rfl⟩
  · cases h

example : (parseWith env (V.withParsers [pA, pStr]) callV (TObj.str "b") s0).1 = (parseWith env V callV (TObj.str "b") s0).1 :=
  C58_parser_order (.swap _ _ _) (fun p hp => by
      obtain ⟨r, _, h⟩ := V_quiet (.str "b") nofun callV p hp
      exact ⟨r, fun s => by rw [h s]; exact ⟨rfl, rfl⟩⟩)
    (fun p hp s => by
      obtain ⟨r, h', h⟩ := V_quiet (.str "b") nofun callV p hp
      rw [h s]; exact h') s0 s0
example := C58_interrupted (E := env) (C := V) (call := callV) (v := TObj.none) (p := pA) (.tail _ (.head _)) (fun s h => by cases h) s0

/-- the class with the parser for strings twice -/
def V2 : RecClass W := V.withParsers [pStr, .user fun _ => M.throw .valueError]

example := C58_whole_class (E := env) (C := V2) (ps := [.user fun _ => M.throw .valueError, pStr]) (.swap _ _ _) (by
  intro n p hp v
  rcases hp with _ | ⟨_, _ | ⟨_, h⟩⟩
  · cases (show TObj from v) <;> exact ⟨_, by first | exact trivial | rfl, fun s => rfl⟩
  · exact ⟨.error .valueError, rfl, fun s => rfl⟩
  · cases h) 3

/-- C59: `class O(RecordBase): x: int = 1` -/
def spO : ClassSpec W :=
  { cid := .record 22, anns := [("x", .plain (.cls .int))], attrs := [("x", .value (.int 1))],
    parsers := [.fromInstance, .fromJson, .fromMapping] }

def O : RecClass W := clsOf spO noClass

theorem O_creatable : Creatable O := .intro spO O ⟨by decide, by decide, nofun⟩ nofun rfl

def callO : Dict W.Obj → M W (Res W) := fun m => callN env O 3 none m

/-- the mapping `{'x': 2}` -/
def mx : TObj := dict1 "x" (.int 2)

theorem mx_lacks (k : String) : Lacks env mx k := ⟨.attributeError, rfl, fun _ => rfl⟩

theorem mx_ordinary : ∀ p ∈ O.parsers, ∀ s, Ordinary (p.run env O callO mx s).1 := by
  intro p hp s
  rcases hp with _ | ⟨_, _ | ⟨_, _ | ⟨_, h⟩⟩⟩
  · exact trivial
  · exact rfl
  · exact trivial
  · cases h

example : (parseWith env O callO mx s0).1 = .error .typeError :=
  C59_ambiguous O_creatable rfl ⟨.head _, .tail _ (.tail _ (.head _))⟩ (fun k _ => mx_lacks k) rfl callO (fun _ => ⟨_, _, rfl⟩) (fun _ => ⟨_, _, rfl⟩)
    mx_ordinary s0

/-- with the required field `x` -/
def spO' : ClassSpec W := { spO with cid := .record 23, attrs := [] }

theorem O'_creatable : Creatable (clsOf spO' noClass) := .intro spO' _ ⟨by decide, by decide, nofun⟩ nofun rfl

example : parseN env (clsOf spO' noClass) 3 mx s0 = (.ok (.new ⟨.record 23, [("x", .int 2)], none⟩), s0) := rfl
example := C59_required (E := env) O'_creatable rfl (v := mx) (val := fun _ => none) (fun k => ⟨.attributeError, rfl, fun _ => rfl⟩)
  (k := "x") (by decide) rfl rfl ⟨.typeError, rfl, fun _ => rfl⟩ (fun m => callN env (clsOf spO' noClass) 3 none m) s0

/-- `C57`: the built-in parsers -/
example (call : Dict W.Obj → M W (Res W)) := C57_mapping_parser (E := env) (C := A) (call := call) (v := dict1 "self" (.int 1)) (s := s0)
  (s' := s0) (m := [("self", .int 1)]) rfl (by decide)
example (call : Dict W.Obj → M W (Res W)) : Parser.run env A call (.str "{\"x\": 1}") .fromJson s0 = call [("x", .int 1)] s0 :=
  C57_json_parser (j := dict1 "x" (.int 1)) rfl rfl

end Records.Toy.Parse

namespace Records
open Toy Toy.Parse

/-- the expectation: what `from_mapping` accepts can be parsed -/
def C59_claim : Prop :=
  ∀ (W : World) (E : Env W) (C : RecClass W) (_ : Creatable C) (_ : C.parsers = [.fromInstance, .fromJson, .fromMapping]) (n : Nat) (v : W.Obj)
    (s : LState W) (r : Res W) (s' : LState W),
    (∀ k ∈ C.fields.map (·.1), Lacks E v k) → Parser.run E C (fun m => callN E C n none m) v .fromMapping s = (.ok r, s') →
    ∃ r s', parseN E C n v s = (.ok r, s')

theorem C59_refuted : ¬ C59_claim := by
  intro h
  obtain ⟨r, s', h⟩ := h Toy.W env O O_creatable rfl 3 mx s0 _ _ (fun k _ => mx_lacks k) rfl
  cases h

end Records
