import Verif.Spec.Depth
import Verif.Spec.ToyEnv
import Verif.Props.Parse
import Verif.Proofs.Honest
set_option linter.unusedSimpArgs false
/-
C100: how far the outcome of a construction depends on the recursion limit.
-/
namespace Records
variable {W : World}

theorem construct_congr {E : Env W} {C : RecClass W} {p q : W.Obj → M W (Res W)} {a : W.Obj} (h : p a = q a) (kw : Dict W.Obj) :
    construct E C p (some a) kw = construct E C q (some a) kw := by
  unfold construct tryParse
  simp only [h]

theorem callCls_congr {C : RecClass W} {new new' : Option W.Obj → Dict W.Obj → M W (Res W)} {arg : Option W.Obj} {kw : Dict W.Obj}
    (h0 : arg = none → kw.get? "arg" = none → new none kw = new' none kw)
    (h1 : ∀ a, arg = none → kw.get? "arg" = some a → new (some a) (kw.erase "arg") = new' (some a) (kw.erase "arg"))
    (h2 : ∀ a, arg = some a → kw.get? "arg" = none → new (some a) kw = new' (some a) kw) :
    callCls C new arg kw = callCls C new' arg kw := by
  unfold callCls
  split
  · rfl
  · cases arg with
    | none => cases hg : kw.get? "arg" with
      | none => simp only [h0 rfl hg]
      | some b => simp only [h1 b rfl hg]
    | some a => cases hg : kw.get? "arg" with
      | none => simp only [h2 a rfl hg]
      | some b => rfl

theorem bind_congr' {α β : Type} {x : M W α} {f g : α → M W β} (h : ∀ s a s', x s = (.ok a, s') → f a s' = g a s') :
    M.bind x f = M.bind x g := by
  funext s
  unfold M.bind
  rcases hx : x s with ⟨_ | a, s'⟩
  · rfl
  · exact h s a s' hx

theorem exportTuples_mem {obj : Carrier W} {mo : List String} {fs : List (XField W)} {s s' : LState W} {l : List (String × W.Obj)}
    (h : exportTuples obj {} mo fs s = (.ok l, s')) {k : String} {v : W.Obj} (hk : (k, v) ∈ l) :
    (∃ f ∈ fs, f.name = k) ∧ ∃ t t', obj.attr k t = (.ok v, t') := by
  induction fs generalizing s s' l with
  | nil => cases h; cases hk
  | cons f fs ih =>
    have up : ((∃ g ∈ fs, g.name = k) ∧ ∃ t t', obj.attr k t = (.ok v, t')) →
        (∃ g ∈ f :: fs, g.name = k) ∧ ∃ t t', obj.attr k t = (.ok v, t') := by
      rintro ⟨⟨g, hg, e⟩, r⟩
      exact ⟨⟨g, List.mem_cons_of_mem _ hg, e⟩, r⟩
    unfold exportTuples at h
    split at h
    · cases h
    · exact up (ih h hk)
    · rcases ha : obj.attr f.name s with ⟨_ | w, s1⟩
      · rw [ha] at h
        simp only at h
        split at h
        · cases h
        · split at h
          · cases h
          · exact up (ih h hk)
      · rw [ha] at h
        simp only at h
        split at h
        · unfold M.bind at h
          rcases ht : exportTuples obj {} mo fs s1 with ⟨_ | l', s2⟩
          · rw [ht] at h; cases h
          · rw [ht] at h
            simp only [M.pure, Prod.mk.injEq, Except.ok.injEq] at h
            obtain ⟨e1, e2⟩ := h
            rw [← e1] at hk
            rcases List.mem_cons.1 hk with hk | hk
            · cases hk
              exact ⟨⟨f, List.mem_cons_self .., rfl⟩, s, s1, ha⟩
            · exact up (ih ht hk)
        · exact up (ih h hk)

theorem toDict_mem {C : RecClass W} (wf : C.WF) {obj : Carrier W} {s s' : LState W} {d : Dict W.Obj}
    (h : toDict C obj {} Sel.empty s = (.ok d, s')) {k : String} {v : W.Obj} (hk : (k, v) ∈ d) :
    k ∈ C.fields.map (·.1) ∧ ∃ t t', obj.attr k t = (.ok v, t') := by
  unfold toDict at h
  simp only [M.bind, M.pure] at h
  split at h
  · rename_i l s1 hl
    cases h
    rcases Dict.mem_update hk with hk | hk
    · cases hk
    · obtain ⟨⟨f, hf, e⟩, h2⟩ := exportTuples_mem (M.generator_eq_ok hl) hk
      refine ⟨?_, h2⟩
      obtain ⟨xf, hxf, rfl⟩ := List.mem_map.1 hf
      obtain ⟨kf, hkf, rfl⟩ := List.mem_map.1 (show xf ∈ C.fields.map fun kf => (kf.1, kf.2.x) from hxf)
      have := wf.named kf.1 kf.2 (Dict.mem_get? _ wf.nodup _ _ hkf)
      have e' : kf.2.name = k := e
      rw [this] at e'
      exact List.mem_map.2 ⟨kf, hkf, e'⟩
  · cases h

/-- the calls of the class that the parsers make for `v` -/
theorem parser_congr {E : Env W} {C : RecClass W} (wf : C.WF) {call call' : Dict W.Obj → M W (Res W)} {v : W.Obj}
    (h : ∀ m, (∀ a, ("arg", a) ∈ m → ArgOf E C v a) → call m = call' m) {p : Parser W} (hp : p ∈ C.parsers) :
    p.run E C call v = p.run E C call' v := by
  have hb : ∀ m : Dict W.Obj, (∀ a, ("arg", a) ∈ m → ArgOf E C v a) → buildFrom call Sel.empty m = buildFrom call' Sel.empty m :=
    fun m hm => h m hm
  cases p with
  | user f => rfl
  | fromMapping =>
    refine bind_congr' fun s m s' hm => ?_
    show buildFrom call Sel.empty (chainItems [m, []]) s' = buildFrom call' Sel.empty (chainItems [m, []]) s'
    rw [hb]
    intro a ha
    have : ("arg", a) ∈ m := by
      have ha' : ("arg", a) ∈ Dict.update (Dict.update [] []) m := ha
      rcases Dict.mem_update ha' with h | h
      · cases h
      · exact h
    exact .mapping hp hm this
  | fromJson =>
    refine bind_congr' fun s j s1 hj => ?_
    show M.bind (E.starView j) _ s1 = M.bind (E.starView j) _ s1
    unfold M.bind
    rcases hm : E.starView j s1 with ⟨_ | m, s2⟩
    · rfl
    · show buildFrom call Sel.empty m s2 = buildFrom call' Sel.empty m s2
      rw [hb]
      exact fun a ha => .json hp hj hm ha
  | fromInstance =>
    have : Records.fromInstance C call Sel.empty (Carrier.ofObj E v) [] [] =
        Records.fromInstance C call' Sel.empty (Carrier.ofObj E v) [] [] := by
      unfold Records.fromInstance
      split
      · rfl
      · split
        · rfl
        · refine bind_congr' fun s d s' hd => ?_
          simp only
          rw [hb]
          intro a ha
          have ha' : ("arg", a) ∈ d := ha
          obtain ⟨h1, t, t', h2⟩ := toDict_mem wf hd ha'
          exact .inst hp h1 h2
    show M.bind _ _ = M.bind _ _
    rw [this]

theorem parseLoop_congr {E : Env W} {C : RecClass W} {call call' : Dict W.Obj → M W (Res W)} {v : W.Obj} {ps : List (Parser W)}
    (h : ∀ p ∈ ps, p.run E C call v = p.run E C call' v) (acc : List (Res W)) :
    parseLoop E C call v ps acc = parseLoop E C call' v ps acc := by
  induction ps generalizing acc with
  | nil => rfl
  | cons p ps ih =>
    funext s
    unfold parseLoop
    rw [h p (List.mem_cons_self ..)]
    have ih' := fun acc => ih (fun q hq => h q (List.mem_cons_of_mem _ hq)) acc
    simp only [ih']

theorem parseWith_congr {E : Env W} {C : RecClass W} (wf : C.WF) {call call' : Dict W.Obj → M W (Res W)} {v : W.Obj}
    (h : ∀ m, (∀ a, ("arg", a) ∈ m → ArgOf E C v a) → call m = call' m) : parseWith E C call v = parseWith E C call' v := by
  unfold parseWith
  rw [parseLoop_congr fun p hp => parser_congr wf h hp]

/-- the parse result that is kept while the argument is tried as the only required field -/
def standing : Except Exc (Res W) × LState W → Except Exc (Option (Res W)) × LState W
  | (.ok r, s) => (.ok r.notNone, s)
  | (.error e, s) => if e.kind = .parseFailure then (.ok none, s) else (.error e, s)

theorem tryParse_unary {C : RecClass W} {p : W.Obj → M W (Res W)} {a : W.Obj} (h : C.unary = true) (h1 : C.required.length = 1)
    (s : LState W) : tryParse C p a [] s = standing (p a s) := by
  have e : (List.isEmpty ([] : Dict W.Obj) && C.unary) = true := by rw [h]; rfl
  have e2 : tryParse C p a [] = fun s => match p a s with
      | (.ok r, s') => (.ok r.notNone, s')
      | (.error e, s') => if e.kind = .parseFailure ∧ C.required.length = 1 then (.ok none, s') else (.error e, s') := if_pos e
  rw [e2]
  simp only [h1, and_true]
  rcases p a s with ⟨e | r, s'⟩ <;> rfl

/-! ### C100 -/

/-- C100: a call with keywords only, none of them `arg`, needs one level. -/
theorem C100_keywords (E : Env W) (C : RecClass W) {kw : Dict W.Obj} (h : "arg" ∉ kw.map (·.1)) (k : Nat) :
    callN E C (k + 1) none kw = callN E C 1 none kw := by
  unfold callN
  refine callCls_congr (fun _ _ => rfl) (fun a _ hg => ?_) (fun a e _ => nomatch e)
  exact absurd (List.mem_map.2 ⟨_, Dict.get?_eq_some_mem _ _ _ hg, rfl⟩) h

/-- C100: so does a call with a positional argument if the class does not parse or there are further arguments. -/
theorem C100_no_parse (E : Env W) (C : RecClass W) (v : W.Obj) {kw : Dict W.Obj} (h : C.unary = false ∨ kw ≠ []) (k : Nat) :
    callN E C (k + 1) (some v) kw = callN E C 1 (some v) kw := by
  unfold callN
  refine callCls_congr (fun e _ => nomatch e) (fun a e _ => nomatch e) (fun a e _ => ?_)
  have : (kw.isEmpty && C.unary) = false := by
    rcases h with h | h
    · simp [h]
    · cases kw with
      | nil => exact absurd rfl h
      | cons _ _ => rfl
  unfold construct tryParse
  simp only [this]
  rfl

/-- C100: `parse` of an object in which entries `arg` are nested at most `n` deep has the same outcome with every number of
levels above `n`. -/
theorem C100_parse {E : Env W} {C : RecClass W} (hC : Creatable C) {n : Nat} {v : W.Obj} (h : ArgDepth E C n v) {k : Nat}
    (hk : n < k) : parseN E C k v = parseN E C (n + 1) v := by
  have wf := hC.wf
  unfold parseN
  induction n generalizing v k with
  | zero =>
    obtain ⟨k, rfl⟩ : ∃ k', k = k' + 1 := ⟨k - 1, by omega⟩
    refine parseWith_congr wf fun m hm => C100_keywords E C (fun ha => ?_) k
    obtain ⟨⟨_, a⟩, ha, rfl⟩ := List.mem_map.1 ha
    exact h a (hm a ha)
  | succ n ih =>
    obtain ⟨k, rfl⟩ : ∃ k', k = k' + 1 := ⟨k - 1, by omega⟩
    refine parseWith_congr wf fun m hm => ?_
    unfold callN
    refine callCls_congr (fun _ _ => rfl) (fun a _ hg => construct_congr ?_ _) (fun a e _ => nomatch e)
    exact ih (h a (hm a (Dict.get?_eq_some_mem _ _ _ hg))) (by omega)

/-- C100: so has the call with that object as positional argument, with one level more. -/
theorem C100_positional {E : Env W} {C : RecClass W} (hC : Creatable C) {n : Nat} {v : W.Obj} (h : ArgDepth E C n v)
    (kw : Dict W.Obj) {k : Nat} (hk : n + 1 < k) : callN E C k (some v) kw = callN E C (n + 2) (some v) kw := by
  obtain ⟨k, rfl⟩ : ∃ k', k = k' + 1 := ⟨k - 1, by omega⟩
  unfold callN
  refine callCls_congr (fun e _ => nomatch e) (fun a e _ => nomatch e) (fun a e _ => ?_)
  cases e
  exact construct_congr (C100_parse hC h (by omega)) _

end Records

namespace Records.Toy.Dp
open Records.Toy

/-- `class D(RecordBase, unary_parse=True): x: object` -/
def spD : ClassSpec Toy.W := { cid := .record 0, unary := some true, anns := [("x", .plain (.cls .object))] }
def D : RecClass Toy.W := clsOf spD noClass
theorem D_creatable : Creatable D := .intro spD D ⟨by decide, by decide, nofun⟩ nofun rfl

/-- `{"arg": {"x": 1}}` -/
def nested : TObj := dict1 "arg" (dict1 "x" (.int 1))

theorem nested_depth : ArgDepth (W := Toy.W) env D 1 nested := by
  intro a ha
  have : a = dict1 "x" (.int 1) := by
    cases ha with
    | mapping _ h hm => 
      cases h
      have hm' : ("arg", a) ∈ [("arg", dict1 "x" (.int 1))] := hm
      cases List.mem_singleton.1 hm'
      rfl
    | json _ h => cases h
    | inst _ hf => exact absurd hf (by decide)
  subst this
  intro b hb
  cases hb with
  | mapping _ h hm =>
    cases h
    have hm' : ("arg", b) ∈ [("x", TObj.int 1)] := hm
    exact absurd (show "arg" = "x" from congrArg Prod.fst (List.mem_singleton.1 hm')) (by decide)
  | json _ h => cases h
  | inst _ hf => exact absurd hf (by decide)

/-- what a call returned: a new record with these attributes, an object that existed before (`none`), or an error -/
def outcome (r : Except Exc (Res Toy.W) × LState Toy.W) : Except Exc (Option (Dict TObj)) := match r.1 with
  | .ok (.new i) => .ok (some i.dict)
  | .ok (.old _) => .ok none
  | .error e => .error e

/-- three levels or more: `D({"arg": {"x": 1}})` first assumes that the argument is `x`, because parsing it failed: the inner call
would be ambiguous -/
example (k : Nat) : outcome (callN env D (k + 3) (some nested) [] s0) = .ok (some [("x", nested)]) := by
  rw [C100_positional D_creatable nested_depth [] (by omega)]
  rfl

/-- one level less is not enough -/
example : outcome (callN env D 2 (some nested) [] s0) = .error .typeError := rfl

example (k : Nat) : (parseN env D (k + 2) nested s0).1 = .error .parseFailure := by
  rw [C100_parse D_creatable nested_depth (by omega)]
  rfl

example : (parseN env D 1 nested s0).1 ≠ .error .parseFailure := nofun

example (k : Nat) : outcome (callN env D (k + 1) none [("x", .int 1)] s0) = .ok (some [("x", .int 1)]) := by
  rw [C100_keywords env D (by decide)]
  rfl

/-- `class A(RecordBase)` from before does not parse positional arguments -/
example (k : Nat) : outcome (callN env Toy.A (k + 1) (some (.int 1)) [] s0) = .ok (some [("x", .int 1), ("y", .int 3)]) := by
  rw [C100_no_parse env Toy.A (.int 1) (.inl rfl)]
  rfl

/-! A mapping that contains itself: `d = {}; d["arg"] = d`. -/

/-- the mapping -/
def cyc : World.Obj Toy.W := TObj.fn 7

/-- the environment in which it is a mapping -/
def envCyc : Env Toy.W := { env with
  chainView := fun v => match (show TObj from v) with
    | .fn 7 => M.pure [("arg", cyc)]
    | v => asDict v }

theorem cyc_none (n : Nat) : callN envCyc D n none [("arg", cyc)] = callN envCyc D n (some cyc) [] := by
  cases n with
  | zero => rfl
  | succ n =>
    unfold callN
    funext s
    show M.bind (construct envCyc D _ (some cyc) []) _ s = M.bind (construct envCyc D _ (some cyc) []) _ s
    unfold M.bind
    split
    · simp [callCls.init, Dict.has, Dict.get?]
    · rfl

/-- what `parse` makes of the outcome of `from_mapping`, the only parser that can succeed -/
def parsed : Except Exc (Res Toy.W) × LState Toy.W → Except Exc (Res Toy.W) × LState Toy.W
  | (.ok r, s) => (.ok r, s)
  | (.error e, s) => (.error (if e.isException then .parseFailure else e), s)

theorem cyc_parse (call : Dict (World.Obj Toy.W) → M Toy.W (Res Toy.W)) (s : LState Toy.W) :
    parseWith envCyc D call cyc s = parsed (call [("arg", cyc)] s) := by
  have h0 : D.parsers = [.fromInstance, .fromJson, .fromMapping] := rfl
  have h1 : Parser.run envCyc D call cyc .fromInstance s = (.error .attributeError, s) := rfl
  have h2 : Parser.run envCyc D call cyc .fromJson s = (.error .typeError, s) := rfl
  have h3 : Parser.run envCyc D call cyc .fromMapping s = call [("arg", cyc)] s := rfl
  unfold parseWith
  rw [h0]
  have h4 : parseLoop envCyc D call cyc [.fromInstance, .fromJson, .fromMapping] [] s =
      parseLoop envCyc D call cyc [.fromMapping] [] s := by
    conv => lhs; unfold parseLoop
    simp only [h1, show Exc.attributeError.isException = true from rfl, if_true]
    conv => lhs; unfold parseLoop
    simp only [h2, show Exc.typeError.isException = true from rfl, if_true]
  unfold M.bind
  rw [h4, parseLoop]
  simp only [h3]
  rcases call [("arg", cyc)] s with ⟨e | r, s'⟩
  · cases he : e.isException <;> simp [parseLoop, M.pure, M.throw, he, parsed]
  · rfl

/-- the record `D(x=d)` -/
def made : Inst Toy.W := { cid := .record 0, dict := [("x", cyc)], hash := none }

theorem cyc_fields (s : LState Toy.W) : newFields envCyc D none [("x", cyc)] s = (.ok (.new made), s) := rfl

theorem cyc_fields' (r : Res Toy.W) (s : LState Toy.W) : newFields envCyc D (some r) [("x", cyc)] s = (.error .typeError, s) := rfl

/-- how the outcome depends on that of the call with one level less -/
def next : Except Exc (Res Toy.W) × LState Toy.W → Except Exc (Res Toy.W) × LState Toy.W
  | (.ok (.new _), s) => (.error .typeError, s)
  | (.ok (.old r), s) => if World.isNone Toy.W r then (.ok (.new made), s) else (.error .typeError, s)
  | (.error e, s) => if e.isException then (.ok (.new made), s) else (.error e, s)

theorem cyc_step (n : Nat) (s : LState Toy.W) :
    callN envCyc D (n + 1) (some cyc) [] s = next (callN envCyc D n (some cyc) [] s) := by
  have hp : parseWith envCyc D (fun m => callN envCyc D n none m) cyc s = parsed (callN envCyc D n (some cyc) [] s) :=
    (cyc_parse _ s).trans (congrArg parsed (congrFun (cyc_none n) s))
  have hc : callN envCyc D (n + 1) (some cyc) [] = M.bind (M.bind (tryParse D (parseWith envCyc D fun m => callN envCyc D n none m) cyc [])
      fun standby => newFields envCyc D standby [("x", cyc)]) M.pure := by
    show callCls D (construct envCyc D (parseWith envCyc D fun m => callN envCyc D n none m)) (some cyc) [] = _
    generalize (parseWith envCyc D fun m => callN envCyc D n none m) = p
    funext s
    show M.bind (construct envCyc D p (some cyc) []) _ s = M.bind (construct envCyc D p (some cyc) []) _ s
    unfold M.bind
    split
    · simp [callCls.init, Dict.has, Dict.get?]
    · rfl
  have ht : tryParse D (parseWith envCyc D fun m => callN envCyc D n none m) cyc [] s =
      standing (parsed (callN envCyc D n (some cyc) [] s)) := by
    rw [tryParse_unary rfl rfl, hp]
  rw [hc]
  unfold M.bind
  rw [ht]
  rcases callN envCyc D n (some cyc) [] s with ⟨e | r, s'⟩
  · cases he : e.isException
    · have hk : e.kind ≠ .parseFailure := by
        intro hk
        unfold Exc.isException at he
        rw [hk] at he
        cases he
      simp [parsed, next, standing, he, hk]
    · simp [parsed, next, standing, he, show (Exc.parseFailure).kind = .parseFailure from rfl, cyc_fields, M.pure]
  · cases r with
    | new i => simp [parsed, next, standing, Res.notNone, cyc_fields', M.pure]
    | old v => cases hn : World.isNone Toy.W v <;> simp [parsed, next, standing, Res.notNone, hn, cyc_fields, cyc_fields', M.pure]

theorem cyc_outcome (n : Nat) (s : LState Toy.W) : callN envCyc D (2 * n + 1) (some cyc) [] s = (.ok (.new made), s) ∧
    callN envCyc D (2 * n + 2) (some cyc) [] s = (.error .typeError, s) := by
  have h0 : callN envCyc D 0 (some cyc) [] s = (.error .recursionError, s) := rfl
  induction n with
  | zero => rw [cyc_step, cyc_step, h0]; exact ⟨rfl, rfl⟩
  | succ n ih =>
    have h1 : callN envCyc D (2 * (n + 1) + 1) (some cyc) [] s = (.ok (.new made), s) := by
      rw [cyc_step, show 2 * (n + 1) = 2 * n + 2 by omega, ih.2]
      rfl
    refine ⟨h1, ?_⟩
    rw [cyc_step, h1]
    rfl

end Records.Toy.Dp

namespace Records

/-- C100: the claim that a large enough recursion limit always determines the outcome is false: for a mapping that contains
itself as entry `arg`, the call returns a record or raises TypeError depending on whether the limit is odd or even. -/
theorem C100_refuted : ¬ ∀ (W : World) (E : Env W) (C : RecClass W) (v : W.Obj), Creatable C →
    ∃ n, ∀ k, n ≤ k → ∀ s, callN E C k (some v) [] s = callN E C n (some v) [] s := by
  intro h
  obtain ⟨n, hn⟩ := h Toy.W Toy.Dp.envCyc Toy.Dp.D Toy.Dp.cyc Toy.Dp.D_creatable
  have h1 := (hn (2 * n + 1) (by omega) Toy.s0).trans (hn (2 * n + 2) (by omega) Toy.s0).symm
  rw [(Toy.Dp.cyc_outcome n _).1, (Toy.Dp.cyc_outcome n _).2] at h1
  cases h1

end Records
