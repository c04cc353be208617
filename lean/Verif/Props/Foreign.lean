import Verif.Model.Foreign
import Verif.Props.Order
/-
C107: comparing a record with an object that is no record.
-/
namespace Records
variable {W : World}

/-- the outcome of an operator that leaves the decision to one method: its answer, or `default` if it answers `NotImplemented` -/
def AnsweredBy (default : Except Exc Bool) : Except Exc (Option Bool) × LState W → Except Exc Bool × LState W
  | (.ok (some b), s) => (.ok b, s)
  | (.ok none, s) => (default, s)
  | (.error e, s) => (.error e, s)

theorem richCompare_skip (second : M W (Option Bool)) (default : Except Exc Bool) (d : M W Bool) (hd : ∀ s, d s = (default, s))
    (s : LState W) : richCompare (M.pure none) second d s = AnsweredBy default (second s) := by
  show M.bind second _ s = _
  rcases e : second s with ⟨_ | _ | b, s'⟩
  · rw [M.bind_error e]; rfl
  · rw [M.bind_ok e]; exact hd s'
  · rw [M.bind_ok e]; rfl

theorem richCompare_end (first second : M W (Option Bool)) (default : Except Exc Bool) (d : M W Bool)
    (h : ∀ s, M.bind second (fun r => match r with | some b => M.pure b | none => d) s = (default, s)) (s : LState W) :
    richCompare first second d s = AnsweredBy default (first s) := by
  unfold richCompare
  rcases e : first s with ⟨_ | _ | b, s'⟩
  · rw [M.bind_error e]; rfl
  · rw [M.bind_ok e]; exact h s'
  · rw [M.bind_ok e]; rfl

/-- C107: a record of a class that is not ordered, on the left: TypeError, the other object is not asked. -/
theorem C107_left_unordered {C : RecClass W} (ho : C.ordered = false) (op : CmpOp) (i : Inst W) (x : Foreign W) (s : LState W) :
    opLeft op C i x s = (.error .typeError, s) := by
  unfold opLeft recCmp
  rw [ho]
  rfl

/-- C107: a record of an ordered class leaves the decision to the reflected method of the other object; TypeError if it has none. -/
theorem C107_left {C : RecClass W} (ho : C.ordered = true) (op : CmpOp) (i : Inst W) (x : Foreign W) (s : LState W) :
    opLeft op C i x s = AnsweredBy (.error .typeError) (x.cmp op.swap i s) := by
  unfold opLeft recCmp
  rw [ho]
  exact richCompare_skip _ _ _ (fun _ => rfl) s

/-- C107: a record on the right: the method of the other object decides, ordered or not; unless the record's class is a subclass of the
class of the other object and not ordered: TypeError, without asking. -/
theorem C107_right (op : CmpOp) (x : Foreign W) (C : RecClass W) (i : Inst W) (s : LState W) :
    (W.isSub i.cid x.cid = false ∨ C.ordered = true → opRight op x C i s = AnsweredBy (.error .typeError) (x.cmp op i s)) ∧
    (W.isSub i.cid x.cid = true → C.ordered = false → opRight op x C i s = (.error .typeError, s)) := by
  unfold opRight
  refine ⟨?_, fun h ho => ?_⟩
  · cases h : W.isSub i.cid x.cid with
    | false =>
      intro _
      rw [if_neg (by simp)]
      refine richCompare_end _ _ _ _ (fun s => ?_) s
      unfold recCmp
      cases C.ordered <;> rfl
    | true =>
      intro ho
      rw [if_pos rfl]
      unfold recCmp
      rw [ho.resolve_left (by simp)]
      exact richCompare_skip _ _ _ (fun _ => rfl) s
  · rw [if_pos h]
    unfold recCmp
    rw [ho]
    rfl

/-- C107: for an ordered class, `record op other` and the reflected `other op' record` have the same outcome. -/
theorem C107_reflected {C : RecClass W} (ho : C.ordered = true) (op : CmpOp) (i : Inst W) (x : Foreign W) (s : LState W) :
    opLeft op C i x s = opRight op.swap x C i s := by
  rw [C107_left ho, (C107_right op.swap x C i s).1 (.inr ho)]

/-- C107: `record == other` is `False` and `record != other` is `True`, whatever the other object; it is not asked. -/
theorem C107_left_equal (i : Inst W) (x : Foreign W) (s : LState W) :
    eqLeft i x s = (.ok false, s) ∧ neLeft i x s = (.ok true, s) := ⟨rfl, rfl⟩

/-- C107: `other == record` and `other != record` are decided by the other object, unless the record's class is a subclass of its class. -/
theorem C107_right_equal (i : Inst W) (x : Foreign W) (s : LState W) :
    (W.isSub i.cid x.cid = false → eqRight x i s = AnsweredBy (.ok false) (x.eq i s) ∧ neRight x i s = AnsweredBy (.ok true) (x.ne i s)) ∧
    (W.isSub i.cid x.cid = true → eqRight x i s = (.ok false, s) ∧ neRight x i s = (.ok true, s)) := by
  unfold eqRight neRight
  refine ⟨fun h => ?_, fun h => ?_⟩
  · rw [if_neg (by simp [h]), if_neg (by simp [h])]
    exact ⟨richCompare_end _ _ _ _ (fun _ => rfl) s, richCompare_end _ _ _ _ (fun _ => rfl) s⟩
  · rw [if_pos h, if_pos h]
    exact ⟨rfl, rfl⟩

/-- the claim that `==` is symmetric -/
def C107_claim : Prop :=
  ∀ (W : World) (i : Inst W) (x : Foreign W) (s : LState W) (b c : Bool), (eqLeft i x s).1 = .ok b → (eqRight x i s).1 = .ok c → b = c

end Records

/-! ### concrete cases -/
namespace Records.Toy.Fo

/-- `unittest.mock.ANY`: equal to everything -/
def any : Foreign W := ⟨.int, fun _ _ => M.pure none, fun _ => M.pure (some true), fun _ => M.pure (some false)⟩

/-- an object that is greater than every record; it logs that it was asked -/
def top : Foreign W :=
  ⟨.int, fun op _ => M.bind (log 1) fun _ => M.pure (some (op = .gt ∨ op = .ge)), fun _ => M.pure none, fun _ => M.pure none⟩

/-- a number: no comparison with records -/
def zero : Foreign W := ⟨.int, fun _ _ => M.pure none, fun _ => M.pure none, fun _ => M.pure none⟩

/-- a record; `A` is not ordered, `A'` is -/
def a : Inst W := ⟨.record 0, [("x", .int 1), ("y", .int 3)], none⟩
def A' : RecClass W := { A with ordered := true }

example : opLeft .lt A a top s0 = (.error .typeError, s0) := C107_left_unordered rfl .lt a top s0
example : opLeft .lt A' a top s0 = (.ok true, { s0 with user := [1] }) := C107_left rfl .lt a top s0
example : opLeft .ge A' a zero s0 = (.error .typeError, s0) := C107_left rfl .ge a zero s0
example : opRight .gt top A a s0 = (.ok true, { s0 with user := [1] }) := (C107_right .gt top A a s0).1 (.inl rfl)
example : opLeft .lt A' a top s0 = opRight .gt top A' a s0 := C107_reflected rfl .lt a top s0
/-- for a class that is not ordered the reflected operators differ -/
example : opLeft .lt A a top s0 ≠ opRight .gt top A a s0 := by
  rw [C107_left_unordered rfl, show opRight .gt top A a s0 = (.ok true, { s0 with user := [1] }) from rfl]
  nofun
/-- an instance of the superclass `object` -/
example : opRight .gt { top with cid := TCls.object } A a s0 = (.error .typeError, s0) := (C107_right _ _ _ _ _).2 rfl rfl
example : eqLeft a any s0 = (.ok false, s0) ∧ eqRight any a s0 = (.ok true, s0) ∧ neRight zero a s0 = (.ok true, s0) :=
  ⟨(C107_left_equal a any s0).1, ((C107_right_equal a any s0).1 rfl).1, ((C107_right_equal a zero s0).1 rfl).2⟩

end Records.Toy.Fo

namespace Records

/-- C107: `record == ANY` is `False`, `ANY == record` is `True`. -/
theorem C107_refuted : ¬ C107_claim := fun h => by
  have := h Toy.W Toy.Fo.a Toy.Fo.any Toy.s0 false true rfl rfl
  cases this

end Records
