import Verif.Proofs.Honest
import Verif.Spec.ToyEnv
/-
C28: exceptions that are no `Exception` are never swallowed.
-/
namespace Records
variable {W : World} {p : W.St → Option Exc}

/-- C28, construction: whatever the arguments, and whichever coercer, validator, default factory, parser, `post_new` or
foreign constructor of whichever class of the hierarchy raised `e`, `C(...)` raises `e` itself. -/
theorem C28_construct (hW : W.Reports p) {E : Env W} (hE : E.Reports p) {C : RecClass W} (hC : Reporting p C) (n : Nat)
    (arg : Option W.Obj) (kw : Dict W.Obj) (s : LState W) (e : Exc) (h0 : p s.user = none)
    (h : p (callN E C n arg kw s).2.user = some e) : (callN E C n arg kw s).1 = .error e :=
  (Reports.callN hE (hC.rep hW) n arg kw s h0 e h).1

/-- C28, `C.parse(v)` -/
theorem C28_parse (hW : W.Reports p) {E : Env W} (hE : E.Reports p) {C : RecClass W} (hC : Reporting p C) (n : Nat)
    (v : W.Obj) (s : LState W) (e : Exc) (h0 : p s.user = none) (h : p (parseN E C n v s).2.user = some e) :
    (parseN E C n v s).1 = .error e :=
  (Reports.parseN hE (hC.rep hW) n v s h0 e h).1

/-- C28, a single field: the filler made from any type hint, with any tokens -/
theorem C28_fill (hW : W.Reports p) {d : Style} {pre : List (Option Int × Tok W)} {t : Hint W} {f : F W} (ht : t.Reports p)
    (hp : ∀ q ∈ pre, q.2.Reports p) (hf : makeFiller d pre t = .ok f) (v : W.Obj) (s : LState W) (e : Exc)
    (h0 : p s.user = none) (h : p (f.call v s).2.user = some e) : (f.call v s).1 = .error e :=
  ((makeFiller_rep hW ht hp hf).call v s h0 e h).1

/-- C28, `C.from_mapping`, with any selection -/
theorem C28_from_mapping (hW : W.Reports p) {E : Env W} (hE : E.Reports p) {C : RecClass W} (hC : Reporting p C) (n : Nat)
    (sel : Sel W.Obj) (maps : List (Dict W.Obj)) (kw : Dict W.Obj) (s : LState W) (e : Exc) (h0 : p s.user = none)
    (h : p (fromMapping (fun m => callN E C n none m) sel maps kw s).2.user = some e) :
    (fromMapping (fun m => callN E C n none m) sel maps kw s).1 = .error e :=
  (Reports.fromMapping (fun m => .callN hE (hC.rep hW) n none m) sel maps kw s h0 e h).1

/-- C28, `C.from_instance`, of an object whose attribute access reports, with any selection -/
theorem C28_from_instance (hW : W.Reports p) {E : Env W} (hE : E.Reports p) {C : RecClass W} (hC : Reporting p C) (n : Nat)
    (sel : Sel W.Obj) (v : Carrier W) (hv : ∀ k, Reports p (v.attr k)) (maps : List (Dict W.Obj)) (kw : Dict W.Obj)
    (s : LState W) (e : Exc) (h0 : p s.user = none)
    (h : p (fromInstance C (fun m => callN E C n none m) sel v maps kw s).2.user = some e) :
    (fromInstance C (fun m => callN E C n none m) sel v maps kw s).1 = .error e :=
  (Reports.fromInstance (hC.rep hW) (fun m => .callN hE (hC.rep hW) n none m) sel hv maps kw s h0 e h).1

/-- C28, `C.from_json`, with any selection -/
theorem C28_from_json (hW : W.Reports p) {E : Env W} (hE : E.Reports p) {C : RecClass W} (hC : Reporting p C) (n : Nat)
    (sel : Sel W.Obj) (v : W.Obj) (kw : Dict W.Obj) (s : LState W) (e : Exc) (h0 : p s.user = none)
    (h : p (fromJson E (fun m => callN E C n none m) sel v kw s).2.user = some e) :
    (fromJson E (fun m => callN E C n none m) sel v kw s).1 = .error e :=
  (Reports.fromJson hE (fun m => .callN hE (hC.rep hW) n none m) sel v kw s h0 e h).1

/-- C28, `C.to_dict(obj, ...)`: attribute access and default factories -/
theorem C28_to_dict (hW : W.Reports p) {C : RecClass W} (hC : Reporting p C) (obj : Carrier W)
    (hv : ∀ k, Reports p (obj.attr k)) (o : ExportOpts) (sel : Sel W.Obj) (s : LState W) (e : Exc) (h0 : p s.user = none)
    (h : p (toDict C obj o sel s).2.user = some e) : (toDict C obj o sel s).1 = .error e :=
  (Reports.toDict (hC.rep hW) hv o sel s h0 e h).1

/-- C28, the built-in tokens: `Eval`, `MapCoercion`, `Falsish`, `Loose`, `LooseUnpack`, `LooseUnpackMap` and the assertion
validators report if the functions and classes they are given do. -/
theorem C28_builtin_tokens (hW : W.Reports p) :
    (∀ ev : String → M W W.Obj, (∀ t, Reports p (ev t)) → ∀ v, Reports p (evalCoercer ev v)) ∧
    (∀ (vm : List (W.Obj × W.Obj)) (fm : List (W.Obj × M W W.Obj)), (∀ q ∈ fm, Reports p q.2) →
      ∀ v, Reports p (mapCoercion vm fm v)) ∧
    (∀ c a kw v, Reports p (falsish c a kw v)) ∧
    (∀ con c a kw v, Reports p (loose con c a kw v)) ∧
    (∀ con c a kw v, Reports p (looseUnpack con c a kw v)) ∧
    (∀ con c a kw v, Reports p (looseUnpackMap con c a kw v)) ∧
    (∀ (c : AssertCfg) (emit : Bool → M W Unit) (assert_ : W.Obj → M W Bool), (∀ b, Reports p (emit b)) →
      (∀ v, Reports p (assert_ v)) → ∀ v, Reports p (c.inner emit assert_ v)) := by
  refine ⟨?_, ?_, ?_, ?_, ?_, ?_, ?_⟩
  · intro ev hev v
    unfold evalCoercer
    split
    · exact .throw _
    · exact .tryExcept (hev _) (fun _ h => h) fun _ => .throw _
  · intro vm fm hfm v
    unfold mapCoercion
    split
    · exact .throw _
    · exact .pure _
    · split
      · exact .throw _
      · rename_i f h
        unfold pyLookup at h
        split at h
        · injection h with h
          cases h1 : fm.find? fun kv => decide (kv.1 = v) || W.eq kv.1 v with
          | none => rw [h1] at h; cases h
          | some q => rw [h1] at h; cases h; exact hfm q (List.mem_of_find?_eq_some h1)
        · cases h
      · exact .throw _
  · intro c a kw v
    unfold falsish
    exact .ite (fun _ => hW.construct _ _ _) fun _ => .throw _
  · intro con c a kw v
    unfold loose
    split
    · exact .ite (fun _ => .throw _) fun _ => hW.construct _ _ _
    · exact hW.construct _ _ _
  · intro con c a kw v
    unfold looseUnpack
    refine .ite (fun _ => .throw _) fun _ => ?_
    split
    · exact .ite (fun _ => .throw _) fun _ => hW.construct _ _ _
    · exact .ite (fun _ => .throw _) fun _ => hW.construct _ _ _
    · exact hW.construct _ _ _
  · intro con c a kw v
    have hc : Reports p (looseUnpackMap.call c a kw v) := by
      unfold looseUnpackMap.call
      split
      · exact .throw _
      · exact .ite (fun _ => .throw _) fun _ => hW.construct _ _ _
    unfold looseUnpackMap
    split
    · exact .ite (fun _ => .throw _) fun _ => .ite (fun _ => .throw _) fun _ => hc
    · exact .ite (fun _ => .throw _) fun _ => hc
  · intro c emit assert_ he ha v
    unfold AssertCfg.inner
    refine .bind (ha v) fun b => .ite (fun _ => .bind ?_ fun _ => .pure _) fun _ => .pure _
    unfold AssertCfg.raise
    split
    · exact he _
    · exact he _
    · split
      · exact .throw _
      · exact .throw _

end Records

/-! ### Examples -/
namespace Records.Toy.Ki

/-- KeyboardInterrupt -/
def ki : Exc := ⟨.base 0, none⟩

/-- it is on record when 99 was logged -/
def rec (l : List Nat) : Option Exc := if 99 ∈ l then some ki else none

theorem log_reports (n : Nat) (h : n ≠ 99) : Reports (W := W) rec (log n) := by
  intro s hs e he
  exfalso
  have h1 : rec (show List Nat from s.user) = none := hs
  have h2 : rec ((show List Nat from s.user) ++ [n]) = some e := he
  unfold rec at h1 h2
  split at h1
  · cases h1
  · rename_i h3
    rw [if_neg] at h2
    · cases h2
    · intro h4
      rcases List.mem_append.1 h4 with h4 | h4
      · exact h3 h4
      · exact h (List.mem_singleton.1 h4).symm

theorem ki_reports (v : TObj) : Reports (W := W) rec (err 99 ki v) := by
  intro s hs e he
  have h1 : rec (show List Nat from s.user) = none := hs
  have h2 : rec ((show List Nat from s.user) ++ [99]) = some e := he
  unfold rec at h2
  split at h2
  · cases h2; exact ⟨rfl, rfl⟩
  · cases h2

theorem construct_quiet (c : TCls) (a : List TObj) (kw : List (String × TObj)) (s : List Nat) :
    (W.construct c a kw s).2 = s := by
  simp only [W]
  split <;> rfl

theorem W_reports : World.Reports (W := W) rec :=
  ⟨fun _ _ => .quiet fun _ => rfl, fun _ _ _ => .quiet fun _ => rfl, fun _ _ => .quiet fun _ => rfl,
    fun _ _ _ => .quiet fun _ => rfl, fun c a kw => .quiet fun s => construct_quiet c a kw s.user⟩

theorem asDict_quiet (v : TObj) (s : LState W) : (asDict v s).2 = s := by
  unfold asDict; split <;> rfl

theorem getattr_quiet (v : TObj) (n : String) (s : LState W) : (getattr v n s).2 = s := by
  unfold getattr
  split
  · rename_i l
    generalize Dict.get? (strEntries (pairs (unspine l))) n = o
    cases o <;> rfl
  · rfl

theorem loads_quiet (v : TObj) (kw : Dict TObj) (s : LState W) : (loads v kw s).2 = s := by
  unfold loads; split <;> rfl

theorem env_reports : Env.Reports (W := W) rec env := by
  have q : ∀ {α : Type} (x : M W α), (∀ s, (x s).2 = s) → Reports (W := W) rec x :=
    fun x h => .quiet fun s => by rw [h s]
  exact ⟨fun v n => q _ (getattr_quiet v n), fun v => q _ (asDict_quiet v), fun v => q _ (asDict_quiet v),
    fun v => q _ (asDict_quiet v), fun v kw => q _ (loads_quiet v kw)⟩

/-- `x: Union[Annotated[int, c1, c2], str]`, where `c1` is interrupted and `c2` would give 5;
`y: int` with an interrupted default factory; an interrupted user parser; an interrupted `post_new` -/
def sp : ClassSpec W :=
  { cid := .record 0, style := .check, unary := some true
    anns := [("x", .plain (.union [.annotated (.cls .int) [ctok (err 99 ki), ctok (ret 2 (.int 5))], .cls .str])),
      ("y", .plain (.cls .int))]
    attrs := [("y", .factory (err 99 ki .none))]
    parsers := [.user fun v => M.bind (err 99 ki v) fun _ => M.throw .typeError, .fromMapping]
    postNew := fun i => M.bind (err 99 ki .none) fun _ => M.pure (i, none) }

def C : RecClass W := clsOf sp noClass

theorem C_mk : mkClass sp = .ok C := rfl

theorem sp_reports : sp.Reports rec := by
  have c1 : ∀ o c, (fun _ => Except.ok (err 99 ki)) (o : Option W.Cls) = Except.ok (ε := Exc) c →
      ∀ v, Reports (W := W) rec (c v) := by
    intro o c h v; cases h; exact ki_reports v
  have c2 : ∀ o c, (fun _ => Except.ok (ret 2 (.int 5))) (o : Option W.Cls) = Except.ok (ε := Exc) c →
      ∀ v, Reports (W := W) rec (c v) := by
    intro o c h v; cases h; exact .bind (log_reports 2 (by decide)) fun _ => .pure _
  refine ⟨?_, ?_, nofun, nofun, ?_, fun i => .bind (ki_reports _) fun _ => .pure _⟩
  · intro a ha
    cases ha with
    | head =>
      simp only [FHint.Reports, Hint.Reports, Hint.ReportsL]
      refine ⟨⟨trivial, ?_⟩, trivial, trivial⟩
      intro t ht
      cases ht with
      | head => simp only [ctok, Tok.Reports, CTok.Reports]; exact c1
      | tail _ ht =>
        cases List.mem_singleton.1 ht
        simp only [ctok, Tok.Reports, CTok.Reports]; exact c2
    | tail _ ha =>
      cases List.mem_singleton.1 ha
      simp only [FHint.Reports, Hint.Reports]
  · intro a ha
    cases List.mem_singleton.1 ha
    exact ki_reports _
  · intro q hq
    cases hq with
    | head => exact fun v => .bind (ki_reports v) fun _ => .throw _
    | tail _ hq => cases List.mem_singleton.1 hq; trivial

theorem C_reporting : Reporting rec C := .intro sp C sp_reports nofun C_mk

/-- the coercer: neither the next coercer nor the union member `str` replaces the interrupt -/
example : callN env C 3 none [("x", .str "a"), ("y", .int 1)] s0 = (.error ki, ⟨([99] : List Nat), s0.lit⟩) := rfl
example : (callN env C 3 none [("x", .str "a"), ("y", .int 1)] s0).1 = .error ki :=
  C28_construct W_reports env_reports C_reporting 3 none _ s0 ki rfl rfl

/-- the default factory -/
example : (callN env C 3 none [("x", .int 1)] s0).1 = .error ki :=
  C28_construct W_reports env_reports C_reporting 3 none _ s0 ki rfl rfl

/-- `post_new` -/
example : (callN env C 3 none [("x", .int 1), ("y", .int 1)] s0).1 = .error ki :=
  C28_construct W_reports env_reports C_reporting 3 none _ s0 ki rfl rfl

/-- the user parser -/
example : (parseN env C 3 (dict1 "x" (.int 1)) s0).1 = .error ki :=
  C28_parse W_reports env_reports C_reporting 3 _ s0 ki rfl rfl
example : (callN env C 3 (some (.int 1)) [] s0).1 = .error ki :=
  C28_construct W_reports env_reports C_reporting 3 _ _ s0 ki rfl rfl

/-- an `Exception` in the same place is replaced by the other union member -/
example : (match makeFiller (W := W) .check [] (.union [.annotated (.cls .int) [ctok (err 1 .valueError)], .cls .str]) with
    | .ok f => some (f.call (.str "a") s0).1
    | .error _ => none) = some (.ok (.str "a")) := rfl
example : (match makeFiller (W := W) .check [] (.union [.annotated (.cls .int) [ctok (err 99 ki)], .cls .str]) with
    | .ok f => some (f.call (.str "a") s0).1
    | .error _ => none) = some (.error ki) := rfl

end Records.Toy.Ki
