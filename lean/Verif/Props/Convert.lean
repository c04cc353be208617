import Verif.Spec.Convert
import Verif.Props.Parse
import Verif.Props.New
import Verif.Props.Roundtrip
set_option linter.unusedSimpArgs false
/-
C105: calling a class on one of its own instances.
-/
namespace Records
open Spec
variable {W : World}

theorem refuses_run {E : Env W} {C : RecClass W} {v : W.Obj} (hd : NoData E v) (call : Dict W.Obj → M W (Res W)) {p : Parser W}
    (hp : p.Refuses v) (hi : p ≠ .fromInstance) : ∃ e : Exc, e.isException = true ∧ ∀ s, p.run E C call v s = (.error e, s) := by
  cases p with
  | fromInstance => exact absurd rfl hi
  | fromMapping =>
    obtain ⟨e, he, h⟩ := hd.mapping
    refine ⟨e, he, fun s => ?_⟩
    show M.bind (E.chainView v) _ s = _
    rw [M.bind_error (h s)]
  | fromJson =>
    obtain ⟨e, he, h⟩ := hd.text
    refine ⟨e, he, fun s => ?_⟩
    show fromJson E call Sel.empty v [] s = _
    unfold fromJson
    rw [clash_false (by simp)]
    rw [if_neg (by simp), M.bind_error (h s)]
  | user f => exact hp

theorem runAll_fail {P : Type} {run : P → M W (Res W)} {ps : List P}
    (h : ∀ p ∈ ps, ∃ e : Exc, e.isException = true ∧ ∀ s, run p s = (.error e, s)) {l : List P} {s : LState W} {rs : List (Res W)}
    {s' : LState W} (hl : RunAll run l s rs s') : RunAll run (ps ++ l) s rs s' := by
  induction ps with
  | nil => exact hl
  | cons p ps ih =>
    obtain ⟨e, he, h1⟩ := h p (by simp)
    exact .fail (h1 s) he (ih fun q hq => h q (by simp [hq]))

/-- `parse` of an object that only `from_instance` can accept -/
theorem parse_own {E : Env W} {C : RecClass W} {v : W.Obj} (hd : NoData E v) (hp : FromOwn C v) (call : Dict W.Obj → M W (Res W))
    {s s' : LState W} {r : Res W} (h : Parser.run E C call v .fromInstance s = (.ok r, s')) :
    parseWith E C call v s = (.ok r, s') := by
  obtain ⟨l1, l2, hps, hn, hr⟩ := hp
  have hf : ∀ p ∈ l1 ++ l2, ∃ e : Exc, e.isException = true ∧ ∀ s, p.run E C call v s = (.error e, s) := fun p hp =>
    refuses_run hd call (hr p hp) (by rintro rfl; exact hn hp)
  have h2 : RunAll (Parser.run E C call v) l2 s' [] s' := by
    have := runAll_fail (run := Parser.run E C call v) (fun p h => hf p (List.mem_append_right _ h)) (.nil s')
    rwa [List.append_nil] at this
  have : RunAll (Parser.run E C call v) C.parsers s [r] s' := by
    rw [hps]
    exact runAll_fail (fun p h => hf p (List.mem_append_left _ h)) (.ok h h2)
  exact parseWith_all this

theorem parse_frozen {E : Env W} {C : RecClass W} (hf : C.frozen = true) {v : W.Obj} (hd : NoData E v) (hp : FromOwn C v)
    (hi : W.isInstance v C.cid = true) (call : Dict W.Obj → M W (Res W)) (s : LState W) :
    parseWith E C call v s = (.ok (.old v), s) := by
  refine parse_own hd hp call ?_
  show M.bind (fromInstance C call Sel.empty (Carrier.ofObj E v) [] []) _ s = _
  have := C65_same_object hf call (a := {}) ⟨trivial, trivial, trivial, trivial, trivial, trivial⟩ rfl (v := Carrier.ofObj E v) hi
  rw [show fromInstance C call Sel.empty (Carrier.ofObj E v) [] [] = M.pure none from this]
  rfl

theorem callN_positional (E : Env W) (C : RecClass W) (n : Nat) (v : W.Obj) :
    callN E C (n + 1) (some v) [] = construct E C (parseN E C n) (some v) [] := by
  have hi : ∀ r : Res W, callCls.init C [] r = M.pure r := by
    intro r
    unfold callCls.init
    cases r.isInst C.cid <;> rfl
  funext s
  show M.bind (construct E C (parseN E C n) (some v) []) (callCls.init C []) s = _
  rcases h : construct E C (parseN E C n) (some v) [] s with ⟨r, s'⟩
  cases r with
  | ok r => rw [M.bind_ok h, hi]; rfl
  | error e => rw [M.bind_error h]

/-- C105: for a frozen class whose number of required fields is not one, calling the class on an instance of it (or of a subclass)
returns that object. -/
theorem C105_frozen {E : Env W} {C : RecClass W} (hf : C.frozen = true) (hu : C.unary = true) (hr : C.required.length ≠ 1) {v : W.Obj}
    (hn : W.isNone v = false) (hd : NoData E v) (hp : FromOwn C v) (hi : W.isInstance v C.cid = true) (n : Nat) (s : LState W) :
    callN E C (n + 1) (some v) [] s = (.ok (.old v), s) := by
  rw [callN_positional]
  refine (C55_parsed_no_field hu hr v).2.1 _ (parse_frozen hf hd hp hi _ s) ?_
  show ¬ W.isNone v = Bool.true
  rw [hn]; nofun

/-- C105: for a class that is not frozen the result is a fresh record, equal to the argument, if every filler keeps the stored value. -/
theorem C105_copy {E : Env W} {H : Hasher W} (hW : EqOK W) (hH : HashContract H) {C : RecClass W} (hC : Creatable C)
    (hf : C.frozen = false) (hu : C.unary = true) (hr : C.required.length ≠ 1) (hpost : PlainPost C) (hfree : FreeNames C) {v : W.Obj}
    {i : Inst W} (hv : IsRec E v i) (hd : NoData E v) (hp : FromOwn C v) (hi : Full C i) (hc : i.cid = C.cid)
    (hkeep : ∀ k f w, (k, f) ∈ C.fields → i.dict.get? k = some w → f.Keeps w) (n : Nat) (s : LState W) :
    ∃ j s', callN E C (n + 2) (some v) [] s = (.ok (.new j), s') ∧ Copied E H C i (shown C i) j := by
  obtain ⟨j, s', hj, hcop⟩ := C79_not_frozen (E := E) hW hH hC hf hpost hfree hi hc hkeep n s
  refine ⟨j, s', ?_, hcop⟩
  rw [callN_positional]
  refine (C55_parsed_no_field hu hr v).2.1 _ (parse_own hd hp _ ?_) (by simp [Res.isNone])
  have hcar : Carrier.ofObj E v = Carrier.ofInst E i := by
    unfold Carrier.ofObj Carrier.ofInst
    rw [funext hv.attr, hv.inst]
  unfold copyInst at hj
  rw [hf, if_neg (by simp)] at hj
  show M.bind (fromInstance C _ Sel.empty (Carrier.ofObj E v) [] []) _ s = _
  rw [hcar, M.bind_ok hj]
  rfl

/-- C105: for a class with exactly one required field and parsing off (the default), the argument becomes the value of that field, also if
it is an instance of the class. -/
theorem C105_stored {E : Env W} {C : RecClass W} (hC : Creatable C) (hpost : PlainPost C) (hu : C.unary = false) {key : String} (hr : C.required = [key])
    {f : Field W} (hf : (key, f) ∈ C.fields) {v : W.Obj} {n : Nat} {s s' : LState W} {r : Res W}
    (h : callN E C (n + 1) (some v) [] s = (.ok r, s')) :
    ∃ i w s1, r = .new i ∧ f.filler.call v s = (.ok w, s1) ∧ i.dict.get? key = some w := by
  rw [callN_positional, ((C55_not_parsed (parseN E C n) (.inr hu) v s).1 key hr).2 (by simp)] at h
  obtain ⟨out, s1, defs, s2, i, x, h1, _, h2, h3, h4⟩ := newFields_ok hC.wf (kw := [(key, v)]) (by simp [Dict.WF, Dict.keys]) h
  rw [hpost] at h3
  cases h3
  cases h4
  cases h1 with
  | cons hg hc h1 =>
    cases h1
    have := Dict.mem_get? C.fields hC.wf.nodup key f hf
    rw [this] at hg
    cases hg
    refine ⟨_, _, _, rfl, hc, ?_⟩
    simp [RecClass.fresh, Dict.get?]

/-- C105: for a class with exactly one required field and parsing switched on: if the field refuses the instance, the instance is returned;
if the field accepts it, the call is ambiguous. -/
theorem C105_single {E : Env W} {C : RecClass W} (hC : Creatable C) (hf : C.frozen = true) (hu : C.unary = true) {key : String}
    (hr : C.required = [key]) {f : Field W} (hk : (key, f) ∈ C.fields) {v : W.Obj} (hn : W.isNone v = false) (hd : NoData E v)
    (hp : FromOwn C v) (hi : W.isInstance v C.cid = true) (n : Nat) {s s1 : LState W} :
    (∀ e, f.filler.call v s = (.error e, s1) → e.isException = true → callN E C (n + 1) (some v) [] s = (.ok (.old v), s1)) ∧
    (∀ r, construct E C (parseN E C n) none [(key, v)] s = (.ok r, s1) → callN E C (n + 1) (some v) [] s = (.error .typeError, s1)) := by
  have hn' : ¬ (Res.old v : Res W).isNone := by
    show ¬ W.isNone v = Bool.true
    rw [hn]; nofun
  have hparse : parseN E C n v s = (.ok (.old v), s) := parse_frozen hf hd hp hi _ s
  rw [callN_positional]
  exact ⟨fun e h he => C56_fill_failure hC hu hr hparse hn' hk h he, fun r h => C55_ambiguous hC hu hr hparse hn' h⟩

end Records

/-! ### concrete cases -/
namespace Records

theorem attr_plain {W : World} {E : Env W} {i : Inst W} {k : String} (h : E.clsAttr i.cid k = none) :
    (M.ofExcept (i.attr E k) : M W W.Obj) = match i.dict.get? k with | some v => M.pure v | none => M.throw .attributeError := by
  unfold Inst.attr
  rw [h]
  cases i.dict.get? k <;> rfl

end Records

namespace Records.Toy.Cv
open Spec

theorem noData (n : Nat) (l : List (String × TObj)) : NoData (W := W) env (inst n l) :=
  ⟨⟨.typeError, rfl, fun _ => rfl⟩, ⟨.typeError, rfl, fun _ => rfl⟩⟩

theorem builtin {C : RecClass W} (h : C.parsers = [.fromInstance, .fromJson, .fromMapping]) (v : TObj) : FromOwn (W := W) C v := by
  refine ⟨[], [.fromJson, .fromMapping], h, nofun, ?_⟩
  intro p hp
  rcases hp with _ | ⟨_, _ | ⟨_, h⟩⟩
  · trivial
  · trivial
  · cases h

/-- an instance of the frozen class `B`, which has two required fields -/
def b : TObj := inst 1 [("x", .int 1), ("y", .int 3), ("z", .str "a")]

example : callN env B 2 (some b) [] s0 = (.ok (.old b), s0) := rfl
example := C105_frozen (E := env) (C := B) rfl rfl (by decide) (v := b) rfl (noData _ _) (builtin rfl _) rfl 1 s0

/-- `class Q(RecordBase): x: int; y: int; z: int = 3` -/
def spQ : ClassSpec W :=
  { cid := .record 31, anns := [("x", .plain (.cls .int)), ("y", .plain (.cls .int)), ("z", .plain (.cls .int))],
    attrs := [("z", .value (.int 3))] }

def Q : RecClass W := clsOf spQ noClass

theorem Q_creatable : Creatable Q := .intro spQ Q ⟨by decide, by decide, nofun⟩ nofun rfl

/-- an instance of `Q` as an object, and as a record -/
def q : TObj := inst 31 [("x", .int 1), ("y", .int 2), ("z", .int 4)]
def iq : Inst W := ⟨.record 31, [("x", .int 1), ("y", .int 2), ("z", .int 4)], none⟩

theorem q_is : IsRec (W := W) env q iq where
  attr k := by
    rw [attr_plain (E := env) (i := iq) (k := k) rfl]
    have e : env.getattr q k = (match Dict.get? (strEntries (pairs (unspine (spine (unpairs
        ([("x", TObj.int 1), ("y", .int 2), ("z", .int 4)].map fun kv => (.str kv.1, kv.2))))))) k with
      | some w => M.pure w
      | none => M.throw .attributeError) := rfl
    rw [e, show strEntries (pairs (unspine (spine (unpairs ([("x", TObj.int 1), ("y", .int 2), ("z", .int 4)].map
      fun kv => (.str kv.1, kv.2)))))) = [("x", TObj.int 1), ("y", .int 2), ("z", .int 4)] from rfl]
    cases hg : Dict.get? [("x", TObj.int 1), ("y", .int 2), ("z", .int 4)] k with
    | some x => rw [show iq.dict.get? k = some x from hg]
    | none => rw [show iq.dict.get? k = Option.none from hg]
  inst := rfl
  some := rfl

theorem Q_keeps {k : String} {f : Field W} {v : TObj} (h : (k, f) ∈ Q.fields) : f.Keeps v := by
  rcases h with _ | ⟨_, _ | ⟨_, _ | ⟨_, h⟩⟩⟩
  · exact fun s => ⟨s, rfl⟩
  · exact fun s => ⟨s, rfl⟩
  · exact fun s => ⟨s, rfl⟩
  · cases h

example : callN env Q 2 (some q) [] s0 = (.ok (.new iq), s0) := rfl
example := C105_copy (E := env) (H := Trip.H) eqOK (contract 0) Q_creatable rfl rfl (by decide) (fun _ _ => rfl)
  (by unfold FreeNames; decide) (i := iq) q_is (noData _ _) (builtin rfl _) (by unfold Full; decide) rfl (fun _ _ _ h _ => Q_keeps h) 0 s0

/-- `class U(RecordBase, frozen=True): x: int` -/
def spU : ClassSpec W := { cid := .record 32, frozen := true, anns := [("x", .plain (.cls .int))] }

def U : RecClass W := clsOf spU noClass

theorem U_creatable : Creatable U := .intro spU U ⟨by decide, by decide, nofun⟩ nofun rfl

/-- an instance of `U` -/
def u : TObj := inst 32 [("x", .int 1)]

/-- the instance becomes the value of the field -/
example : callN env U 2 (some u) [] s0 = (.ok (.new ⟨.record 32, [("x", u)], some none⟩), s0) := rfl
example := C105_stored (E := env) U_creatable (fun _ _ => rfl) rfl (key := "x") rfl (.head _) (v := u) (n := 1) (s := s0) rfl

/-- `class U1(RecordBase, frozen=True, unary_parse=True): x: int`, and the same with type checks -/
def spU1 : ClassSpec W := { cid := .record 33, frozen := true, unary := some true, anns := [("x", .plain (.cls .int))] }
def spU2 : ClassSpec W := { spU1 with style := .check }

def U1 : RecClass W := clsOf spU1 noClass
def U2 : RecClass W := clsOf spU2 noClass

theorem U1_creatable : Creatable U1 := .intro spU1 U1 ⟨by decide, by decide, nofun⟩ nofun rfl
theorem U2_creatable : Creatable U2 := .intro spU2 U2 ⟨by decide, by decide, nofun⟩ nofun rfl

def u1 : TObj := inst 33 [("x", .int 1)]

example : callN env U1 2 (some u1) [] s0 = (.error .typeError, s0) :=
  (C105_single U1_creatable rfl rfl (key := "x") rfl (.head _) (v := u1) rfl (noData _ _) (builtin rfl _) rfl 1).2 _ rfl
example : callN env U2 2 (some u1) [] s0 = (.ok (.old u1), s0) :=
  (C105_single U2_creatable rfl rfl (key := "x") rfl (.head _) (v := u1) rfl (noData _ _) (builtin rfl _) rfl 1).1 _ rfl rfl

end Records.Toy.Cv

namespace Records
open Toy Toy.Cv

/-- the expectation: calling a frozen class (with the parsers it has by default) on an instance of it returns that instance -/
def C105_claim : Prop :=
  ∀ (W : World) (E : Env W) (C : RecClass W) (_ : Creatable C) (_ : C.parsers = [.fromInstance, .fromJson, .fromMapping])
    (_ : C.frozen = true) (v : W.Obj) (_ : W.isInstance v C.cid = true) (_ : NoData E v) (n : Nat) (s s' : LState W) (r : Res W),
    callN E C (n + 1) (some v) [] s = (.ok r, s') → r = .old v

theorem C105_refuted : ¬ C105_claim := by
  intro h
  have := h Toy.W env Cv.U Cv.U_creatable rfl rfl u rfl (noData _ _) 1 s0 _ _ rfl
  cases this

end Records
