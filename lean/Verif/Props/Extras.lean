import Verif.Spec.Extras
import Verif.Props.Files
import Verif.Proofs.Monad
set_option linter.unusedSimpArgs false
/-
C110: `FullMatch` and replaced modules.
-/
namespace Records
variable {W : World}

theorem Session.run_append (ss : Session W) (s : LState W) (l l' : List (Step W)) :
    ss.run s (l ++ l') = (ss.run s l).1.run (ss.run s l).2 l' := by
  induction l generalizing ss s with
  | nil => rfl
  | cons st l ih => exact ih _ _

theorem run_extras (ss : Session W) (s : LState W) (l : List (Step W)) :
    (ss.run s l).1.extras = ⟨lastJson ss.extras.json l, lastPickle ss.extras.pickle l, lastRe ss.extras.re l⟩ := by
  induction l generalizing ss s with
  | nil => rfl
  | cons st l ih =>
    unfold Session.run
    rw [ih]
    cases st with
    | fullMatch cfg p =>
      have hx : (Step.run ss s (.fullMatch cfg p)).1.extras = ss.extras := by
        simp only [Step.run]
        rcases h : FullMatch.make ss.extras cfg p s with ⟨_ | m, s'⟩ <;> rfl
      rw [hx]
      rfl
    | _ => rfl

/-- C110: reading and writing JSON uses the `json` module that was assigned last, whatever else happened. -/
theorem C110_json (ss : Session W) (s : LState W) (l : List (Step W)) (E : Env W) (C : RecClass W) (n : Nat) :
    (∀ V obj eargs ekw sel args kw t, (ss.run s l).1.extras.toJson V C obj eargs ekw sel args kw t =
      ((toJsonFn (lastJson ss.extras.json l)).run V C obj eargs ekw sel args kw t).1) ∧
    (∀ sel v kw, (ss.run s l).1.extras.fromJson E C n sel v kw =
      fromJson { E with jsonLoads := fun v kw => (lastJson ss.extras.json l).loads v [] kw }
        (fun m => callN { E with jsonLoads := fun v kw => (lastJson ss.extras.json l).loads v [] kw } C n none m) sel v kw) ∧
    (∀ v, (ss.run s l).1.extras.parse E C n v =
      parseN { E with jsonLoads := fun v kw => (lastJson ss.extras.json l).loads v [] kw } C n v) := by
  rw [run_extras]
  exact ⟨fun _ _ _ _ _ _ _ _ => rfl, fun _ _ _ => rfl, fun _ => rfl⟩

/-- C110: pickling uses the `pickle` module that was assigned last; unpickling too, and parses an object that is no instance with the
`json` module that was assigned last. -/
theorem C110_pickle (ss : Session W) (s : LState W) (l : List (Step W)) (E : Env W) (C : RecClass W) (n : Nat) :
    (∀ r args kw, (ss.run s l).1.extras.toPickle r args kw = toPickle (lastPickle ss.extras.pickle l) r args kw) ∧
    (∀ b args kw, "cls" ∉ kw.map (·.1) → "v" ∉ kw.map (·.1) → ∀ t,
      (∀ e t', (lastPickle ss.extras.pickle l).loads b args kw t = (.error e, t') →
        (ss.run s l).1.extras.fromPickle E C n b args kw t = (.error e, t')) ∧
      ∀ v t', (lastPickle ss.extras.pickle l).loads b args kw t = (.ok v, t') →
        (W.isInstance v C.cid = true → (ss.run s l).1.extras.fromPickle E C n b args kw t = (.ok (.old v), t')) ∧
        (W.isInstance v C.cid = false → (ss.run s l).1.extras.fromPickle E C n b args kw t =
          (ss.run s l).1.extras.parse E C n v t')) := by
  have hp : (ss.run s l).1.extras.pickle = lastPickle ss.extras.pickle l := by rw [run_extras]
  refine ⟨fun r args kw => by unfold Extras.toPickle; rw [hp], fun b args kw h1 h2 t => ?_⟩
  rw [← hp]
  exact C102_from_pickle ((ss.run s l).1.extras.env E) (ss.run s l).1.extras.pickle C n b args ⟨h1, h2⟩ t

/-- C110: making a `FullMatch` compiles its pattern with the `re` module that was assigned last. If that raises, so does making it, and
no validator results; otherwise the new validator has the pattern. -/
theorem C110_declared (ss : Session W) (s : LState W) (l : List (Step W)) (cfg : AssertCfg) (p : W.Obj) :
    (∀ e t', lastRe ss.extras.re l p (ss.run s l).2 = (.error e, t') →
      FullMatch.make (ss.run s l).1.extras cfg p (ss.run s l).2 = (.error e, t') ∧
      (ss.run s (l ++ [.fullMatch cfg p])) = ((ss.run s l).1, t')) ∧
    (∀ f t', lastRe ss.extras.re l p (ss.run s l).2 = (.ok f, t') →
      FullMatch.make (ss.run s l).1.extras cfg p (ss.run s l).2 = (.ok ⟨cfg, f⟩, t') ∧
      (ss.run s (l ++ [.fullMatch cfg p])) =
        ({ (ss.run s l).1 with matchers := (ss.run s l).1.matchers ++ [⟨cfg, f⟩] }, t')) := by
  have hr : (ss.run s l).1.extras.re = lastRe ss.extras.re l := by rw [run_extras]
  rw [Session.run_append]
  refine ⟨fun e t' h => ?_, fun f t' h => ?_⟩
  · have hm : FullMatch.make (ss.run s l).1.extras cfg p (ss.run s l).2 = (.error e, t') := by
      unfold FullMatch.make; rw [hr]; exact M.bind_error h
    refine ⟨hm, ?_⟩
    show ((Step.run (ss.run s l).1 (ss.run s l).2 (.fullMatch cfg p)).1, (Step.run (ss.run s l).1 (ss.run s l).2 (.fullMatch cfg p)).2) = _
    simp only [Step.run, hm]
  · have hm : FullMatch.make (ss.run s l).1.extras cfg p (ss.run s l).2 = (.ok ⟨cfg, f⟩, t') := by
      unfold FullMatch.make; rw [hr]; exact M.bind_ok h
    refine ⟨hm, ?_⟩
    show ((Step.run (ss.run s l).1 (ss.run s l).2 (.fullMatch cfg p)).1, (Step.run (ss.run s l).1 (ss.run s l).2 (.fullMatch cfg p)).2) = _
    simp only [Step.run, hm]

theorem matchers_prefix (ss : Session W) (s : LState W) (l : List (Step W)) :
    ss.matchers <+: (ss.run s l).1.matchers := by
  induction l generalizing ss s with
  | nil => exact List.prefix_rfl
  | cons st l ih =>
    unfold Session.run
    refine .trans ?_ (ih _ _)
    cases st with
    | fullMatch cfg p =>
      simp only [Step.run]
      rcases h : FullMatch.make ss.extras cfg p s with ⟨_ | m, s'⟩
      · exact List.prefix_rfl
      · exact List.prefix_append _ _
    | _ => exact List.prefix_rfl

/-- C110: a `FullMatch` keeps its pattern whatever happens later, also if `extras.re` is replaced. -/
theorem C110_kept (ss : Session W) (s : LState W) (l more : List (Step W)) {k : Nat} {m : FullMatch W}
    (h : (ss.run s l).1.matchers[k]? = some m) : (ss.run s (l ++ more)).1.matchers[k]? = some m := by
  rw [Session.run_append]
  obtain ⟨t, ht⟩ := matchers_prefix (ss.run s l).1 (ss.run s l).2 more
  rw [← ht, List.getElem?_append_left ((List.getElem?_eq_some_iff.1 h).1)]
  exact h

/-- C110: a `FullMatch` passes on exactly the values its pattern matches, unchanged; on other values it raises its error (a given
exception, else ValueError), or warns once and passes the value on; if matching raises (say, for bytes and a pattern of text) the
exception is passed on. -/
theorem C110_full_match (m : FullMatch W) (emit : Bool → M W Unit) (v : W.Obj) (s : LState W) :
    (∀ s', m.pattern v s = (.ok true, s') → m.inner emit v s = (.ok v, s')) ∧
    (∀ s', m.pattern v s = (.ok false, s') → m.cfg.warn = .off → m.inner emit v s = (.error (m.cfg.err.getD .valueError), s')) ∧
    (∀ s' s'', m.pattern v s = (.ok false, s') → m.cfg.warn ≠ .off → emit (m.cfg.warn = .logger) s' = (.ok (), s'') →
      m.inner emit v s = (.ok v, s'')) ∧
    (∀ e s', m.pattern v s = (.error e, s') → m.inner emit v s = (.error e, s')) := by
  unfold FullMatch.inner AssertCfg.inner
  refine ⟨fun s' h => ?_, fun s' h hw => ?_, fun s' s'' h hw he => ?_, fun e s' h => ?_⟩
  · rw [M.bind_ok h]; rfl
  · rw [M.bind_ok h]
    simp only [Bool.not_false, if_true, AssertCfg.raise, hw]
    cases m.cfg.err <;> rfl
  · rw [M.bind_ok h]
    simp only [Bool.not_false, if_true, AssertCfg.raise]
    cases hc : m.cfg.warn with
    | off => exact absurd hc hw
    | on => rw [hc] at he; rw [M.bind_ok (show emit false s' = _ by simpa using he)]; rfl
    | logger => rw [hc] at he; rw [M.bind_ok (show emit true s' = _ by simpa using he)]; rfl
  · rw [M.bind_error h]

end Records

/-! ### examples -/
namespace Records.Toy.Ext
open Records.Toy Records.Toy.Fl

/-- `re`: a pattern is a text that must be equal to the value; "(" is no pattern; values that are no text raise TypeError -/
def re1 : ReModule Toy.W := fun p => match (show TObj from p) with
  | .str "(" => M.throw .valueError
  | .str t => M.pure fun v => match (show TObj from v) with
    | .str u => M.pure (decide (t = u))
    | _ => M.throw .typeError
  | _ => M.throw .typeError

/-- another module: it ignores the pattern and matches every text -/
def re2 : ReModule Toy.W := fun _ => M.pure fun v => match (show TObj from v) with
  | .str _ => M.pure true
  | _ => M.throw .typeError

/-- another JSON codec: everything is the text "?" -/
def J2 : Codec Toy.W (Dict (World.Obj Toy.W)) where
  dumps _ _ _ := M.pure (TObj.str "?")
  dump _ _ _ _ := M.pure ()
  loads _ _ _ := M.pure (dict1 "x" (.int 9))
  load _ _ _ := M.pure (dict1 "x" (.int 9))

def start : Session Toy.W := ⟨⟨J, P, re1⟩, []⟩
def cfg : AssertCfg := ⟨none, .off⟩
def prog : List (Step Toy.W) :=
  [.fullMatch cfg (TObj.str "a"), .fullMatch cfg (TObj.str "("), .setRe re2, .setJson J2, .fullMatch cfg (TObj.str "a")]

def fin : Session Toy.W := (start.run s0 prog).1

/-- no validator is made of "(", so there are two -/
example : fin.matchers.length = 2 := rfl
/-- the first one still uses the old module -/
example : (fin.matchers.map fun m => (m.inner (fun _ => M.pure ()) (TObj.str "b") s0).1) = [.error .valueError, .ok (TObj.str "b")] := rfl
example : (fin.matchers.map fun m => (m.inner (fun _ => M.pure ()) (TObj.int 1) s0).1) = [.error .typeError, .error .typeError] := rfl
example : ∃ m, (start.run s0 [.fullMatch cfg (TObj.str "a")]).1.matchers[0]? = some m ∧ fin.matchers[0]? = some m :=
  ⟨_, rfl, C110_kept start s0 [.fullMatch cfg (TObj.str "a")]
    [.fullMatch cfg (TObj.str "("), .setRe re2, .setJson J2, .fullMatch cfg (TObj.str "a")] rfl⟩
example := (C110_declared start s0 [.setRe re2] cfg (TObj.str "(")).2 _ s0 rfl
example := (C110_declared start s0 [.setJson J2] cfg (TObj.str "(")).1 .valueError s0 rfl
example := C110_full_match (⟨cfg, fun _ => M.pure false⟩ : FullMatch Toy.W) (fun _ => M.pure ()) (TObj.str "b") s0

/-- `from_json` and `to_json` use the new module -/
example : (fin.extras.fromJson env Toy.A 1 Sel.empty (TObj.str "") [] s0).1 =
    .ok (.new ⟨.record 0, [("x", .int 9), ("y", .int 3)], none⟩) := rfl
example : (start.extras.toJson view Toy.A rec1 [] [] Sel.empty [] [] s0).1 = .ok (some text) := rfl
example : (fin.extras.toJson view Toy.A rec1 [] [] Sel.empty [] [] s0).1 = .ok (some (TObj.str "?")) := rfl
example := C110_json start s0 prog env Toy.A 1
example := C110_pickle start s0 prog env Toy.A 1

end Records.Toy.Ext
