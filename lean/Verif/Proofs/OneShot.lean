import Verif.Model.OneShot
import Verif.Spec.OneShot
import Verif.Proofs.SelectMore
import Verif.Proofs.Monad
/- Helper lemmas about Selects made from one-shot iterators. -/
namespace Records
open Spec
set_option linter.unusedSimpArgs false
variable {W : World} {V : Type}

/-! ### sources -/

/-- the source was made from the entries `l`, and is one-shot iff `once` -/
structure Src.Of {α : Type} (once : Bool) (l : List α) (s : Src α) : Prop where
  kind : s.isMany = !once
  all : once = false → s.remaining = l

theorem Src.Of.leave {α : Type} {once : Bool} {l : List α} {s : Src α} (h : Src.Of once l s) (r : List α) :
    Src.Of once l (s.leave r) := by
  cases s with
  | many l' => exact h
  | once l' => exact ⟨h.kind, fun e => by have := h.kind; rw [e] at this; cases this⟩

theorem Src.Of.drained {α : Type} {once : Bool} {l : List α} {s : Src α} (h : Src.Of once l s) :
    (s.leave []).remaining = dropAll once l := by
  cases s with
  | many l' =>
    have hk : once = false := by have := h.kind; cases once <;> first | rfl | cases this
    subst hk
    exact h.all rfl
  | once l' =>
    have hk : once = true := by have := h.kind; cases once <;> first | rfl | cases this
    subst hk
    rfl

theorem Src.Of.empty {α : Type} {once : Bool} {l : List α} {s : Src α} (h : Src.Of once l s) (he : once = true → s.remaining = []) :
    s.remaining = dropAll once l := by
  cases once with
  | true => exact he rfl
  | false => exact h.all rfl

theorem Src.Of.leave_nil {α : Type} {once : Bool} {l : List α} {s : Src α} (h : Src.Of once l s) :
    once = true → (s.leave []).remaining = [] := by
  intro e
  have := h.drained
  rw [this, e]
  rfl

theorem Src.Of.peek {α : Type} {once : Bool} {l : List α} {s : Src α} (h : Src.Of once l s) : Src.Of once l s.peek.2 := by
  cases s with
  | many l' => exact h
  | once l' =>
    have hk : once = true := by have := h.kind; cases once <;> first | rfl | cases this
    subst hk
    cases l' <;> exact ⟨rfl, fun e => by cases e⟩

theorem pair_of {β : Type} (x : PairArg β) : Src.Of (pairOnce x) (pairEntries x) x.store := by
  rcases x with d | (l | l)
  · exact ⟨rfl, fun _ => rfl⟩
  · exact ⟨rfl, fun _ => rfl⟩
  · exact ⟨rfl, fun e => by cases e⟩

theorem key_of (x : KeyArg) : Src.Of (keyOnce x) (keyEntries x) x.store := by
  rcases x with d | (l | l)
  · exact ⟨rfl, fun _ => rfl⟩
  · exact ⟨rfl, fun _ => rfl⟩
  · exact ⟨rfl, fun e => by cases e⟩

theorem pair_rem {β : Type} (x : PairArg β) : x.store.remaining = pairEntries x := by rcases x with d | (l | l) <;> rfl
theorem key_rem (x : KeyArg) : x.store.remaining = keyEntries x := by rcases x with d | (l | l) <;> rfl

theorem pair_peek {β : Type} (x : PairArg β) :
    x.store.peek.1 = !(pairEntries x).isEmpty ∧ x.store.peek.2.remaining = dropFirst (pairOnce x) (pairEntries x) := by
  rcases x with d | (l | (_ | ⟨y, l⟩)) <;> exact ⟨rfl, rfl⟩

theorem key_peek (x : KeyArg) :
    x.store.peek.1 = !(keyEntries x).isEmpty ∧ x.store.peek.2.remaining = dropFirst (keyOnce x) (keyEntries x) := by
  rcases x with d | (l | (_ | ⟨y, l⟩)) <;> exact ⟨rfl, rfl⟩

/-! ### the Select after its truth test -/

/-- `s` was made from `a` and has been tested -/
structure Tested (a : SelectArgs V) (s : Sel V) : Prop where
  add : Src.Of (pairOnce a.add) (pairEntries a.add) s.add
  maybeAdd : Src.Of (pairOnce a.maybeAdd) (pairEntries a.maybeAdd) s.maybeAdd
  remove : Src.Of (keyOnce a.remove) (keyEntries a.remove) s.remove
  maybeRemove : Src.Of (keyOnce a.maybeRemove) (keyEntries a.maybeRemove) s.maybeRemove
  rename : Src.Of (pairOnce a.rename) (pairEntries a.rename) s.rename
  maybeRename : Src.Of (pairOnce a.maybeRename) (pairEntries a.maybeRename) s.maybeRename
  cache : s.cache = some (!(argEdits a).isEmpty)

theorem Tested.truth {a : SelectArgs V} {s : Sel V} (h : Tested a s) : s.truth = (!(argEdits a).isEmpty, s) := by
  unfold Sel.truth
  rw [h.cache]

theorem edits_ext {a b : Edits V} (h1 : a.remove = b.remove) (h2 : a.maybeRemove = b.maybeRemove) (h3 : a.rename = b.rename)
    (h4 : a.maybeRename = b.maybeRename) (h5 : a.add = b.add) (h6 : a.maybeAdd = b.maybeAdd) : a = b := by
  cases a; cases b; simp_all

/-- the first truth test -/
theorem truth_first (a : SelectArgs V) :
    a.mk'.truth.1 = (!(argEdits a).isEmpty) ∧ Tested a a.mk'.truth.2 ∧ a.mk'.truth.2.edits = firstUse a := by
  have p := fun {β : Type} (x : PairArg β) => pair_peek x
  have q := key_peek
  have o1 := pair_of a.add
  have o2 := pair_of a.maybeAdd
  have o3 := key_of a.remove
  have o4 := key_of a.maybeRemove
  have o5 := pair_of a.rename
  have o6 := pair_of a.maybeRename
  obtain ⟨p1, r1⟩ := pair_peek a.add
  obtain ⟨p2, r2⟩ := pair_peek a.maybeAdd
  obtain ⟨p3, r3⟩ := key_peek a.remove
  obtain ⟨p4, r4⟩ := key_peek a.maybeRemove
  obtain ⟨p5, r5⟩ := pair_peek a.rename
  obtain ⟨p6, r6⟩ := pair_peek a.maybeRename
  have e1 := pair_rem a.add
  have e2 := pair_rem a.maybeAdd
  have e3 := key_rem a.remove
  have e4 := key_rem a.maybeRemove
  have e5 := pair_rem a.rename
  have e6 := pair_rem a.maybeRename
  have k1 := o1.peek
  have k2 := o2.peek
  have k3 := o3.peek
  have k4 := o4.peek
  have k5 := o5.peek
  have k6 := o6.peek
  have hE : (argEdits a).isEmpty = ((keyEntries a.remove).isEmpty && (keyEntries a.maybeRemove).isEmpty
      && (pairEntries a.rename).isEmpty && (pairEntries a.maybeRename).isEmpty && (pairEntries a.add).isEmpty
      && (pairEntries a.maybeAdd).isEmpty) := rfl
  unfold Sel.truth
  simp only [SelectArgs.mk', Sel.init, p1, p2, p3, p4, p5, p6, hE]
  unfold firstUse
  have hA : (argEdits a).add = pairEntries a.add := rfl
  have hB : (argEdits a).maybeAdd = pairEntries a.maybeAdd := rfl
  have hC : (argEdits a).remove = keyEntries a.remove := rfl
  have hD : (argEdits a).maybeRemove = keyEntries a.maybeRemove := rfl
  have hF : (argEdits a).rename = pairEntries a.rename := rfl
  simp only [hA, hB, hC, hD, hF]
  cases h1 : pairEntries a.add with
  | cons x l =>
    refine ⟨by simp, ⟨k1, o2, o3, o4, o5, o6, ?_⟩, ?_⟩
    · simp [hE, h1]
    · exact edits_ext e3 e4 e5 e6 (r1.trans (by rw [h1])) e2
  | nil =>
  cases h2 : pairEntries a.maybeAdd with
  | cons x l =>
    refine ⟨by simp, ⟨o1, k2, o3, o4, o5, o6, ?_⟩, ?_⟩
    · simp [hE, h1, h2]
    · exact edits_ext e3 e4 e5 e6 (e1.trans h1) (r2.trans (by rw [h2]))
  | nil =>
  cases h3 : keyEntries a.remove with
  | cons x l =>
    refine ⟨by simp, ⟨o1, o2, k3, o4, o5, o6, ?_⟩, ?_⟩
    · simp [hE, h1, h2, h3]
    · exact edits_ext (r3.trans (by rw [h3])) e4 e5 e6 (e1.trans h1) (e2.trans h2)
  | nil =>
  cases h4 : keyEntries a.maybeRemove with
  | cons x l =>
    refine ⟨by simp, ⟨o1, o2, o3, k4, o5, o6, ?_⟩, ?_⟩
    · simp [hE, h1, h2, h3, h4]
    · exact edits_ext (e3.trans h3) (r4.trans (by rw [h4])) e5 e6 (e1.trans h1) (e2.trans h2)
  | nil =>
  cases h5 : pairEntries a.rename with
  | cons x l =>
    refine ⟨by simp, ⟨o1, o2, o3, o4, k5, o6, ?_⟩, ?_⟩
    · simp [hE, h1, h2, h3, h4, h5]
    · exact edits_ext (e3.trans h3) (e4.trans h4) (r5.trans (by rw [h5])) e6 (e1.trans h1) (e2.trans h2)
  | nil =>
  cases h6 : pairEntries a.maybeRename with
  | cons x l =>
    refine ⟨by simp, ⟨o1, o2, o3, o4, o5, k6, ?_⟩, ?_⟩
    · simp [hE, h1, h2, h3, h4, h5, h6]
    · exact edits_ext (e3.trans h3) (e4.trans h4) (e5.trans h5) r6 (e1.trans h1) (e2.trans h2)
  | nil =>
    refine ⟨by simp, ⟨o1, o2, o3, o4, o5, o6, ?_⟩, ?_⟩
    · simp [hE, h1, h2, h3, h4, h5, h6]
    · refine edits_ext (e3.trans h3) (e4.trans h4) (e5.trans h5) ?_ (e1.trans h1) (e2.trans h2)
      show a.maybeRename.store.remaining = dropFirst (pairOnce a.maybeRename) (argEdits a).maybeRename
      have : (argEdits a).maybeRename = [] := h6
      rw [e6, h6, this]
      cases pairOnce a.maybeRename <;> rfl

/-- the one-shot iterators are used up -/
structure Spent (a : SelectArgs V) (s : Sel V) : Prop extends Tested a s where
  now : s.edits = laterUse a

theorem editLoop_rest {α : Type} {f : Dict V → α → Except Exc (Dict V)} {xs : List α} {m : Dict V}
    (h : (editLoop f xs m).err = none) : (editLoop f xs m).rest = [] := by
  induction xs generalizing m with
  | nil => rfl
  | cons x xs ih =>
    unfold editLoop at h ⊢
    split
    · next hx => rw [hx] at h; exact ih h
    · next hx => rw [hx] at h; cases h

theorem Tested.edit {a : SelectArgs V} {s : Sel V} (h : Tested a s) (m : Dict V) : Tested a (s.edit m).sel := by
  unfold Sel.edit
  simp only
  repeat' split
  all_goals
    exact ⟨by first | exact h.add | exact h.add.leave _, by first | exact h.maybeAdd | exact h.maybeAdd.leave _,
      by first | exact h.remove | exact h.remove.leave _, by first | exact h.maybeRemove | exact h.maybeRemove.leave _,
      by first | exact h.rename | exact h.rename.leave _, by first | exact h.maybeRename | exact h.maybeRename.leave _, h.cache⟩

theorem Tested.edit_ok {a : SelectArgs V} {s : Sel V} (h : Tested a s) {m : Dict V} (he : (s.edit m).err = none) :
    Spent a (s.edit m).sel := by
  refine { h.edit m with now := ?_ }
  unfold Sel.edit at he ⊢
  simp only at he ⊢
  split at he
  · cases he
  next h1 =>
  split at he
  · cases he
  next h2 =>
  split at he
  · cases he
  next h3 =>
  split at he
  · cases he
  next h4 =>
  split at he
  · cases he
  next h5 =>
  simp only at he
  have g1 := editLoop_rest h1
  have g2 := editLoop_rest h2
  have g3 := editLoop_rest h3
  have g4 := editLoop_rest h4
  have g5 := editLoop_rest h5
  have g6 := editLoop_rest he
  simp only [h1, h2, h3, h4, h5, g1, g2, g3, g4, g5, g6]
  exact edits_ext h.remove.drained h.maybeRemove.drained h.rename.drained h.maybeRename.drained h.add.drained h.maybeAdd.drained

/-- rests of used up sources -/
theorem Src.Of.spent_leave {α : Type} {once : Bool} {l : List α} {s : Src α} (h : Src.Of once l s)
    (hs : s.remaining = dropAll once l) {r : List α} (hr : once = true → r = []) : (s.leave r).remaining = dropAll once l := by
  cases s with
  | many l' => exact hs
  | once l' =>
    have hk : once = true := by have := h.kind; cases once <;> first | rfl | cases this
    subst hk
    exact hr rfl

theorem editLoop_nil {α : Type} {f : Dict V → α → Except Exc (Dict V)} {m : Dict V} : (editLoop f [] m).rest = [] := rfl

theorem Spent.edit {a : SelectArgs V} {s : Sel V} (h : Spent a s) (m : Dict V) : Spent a (s.edit m).sel := by
  refine { h.toTested.edit m with now := ?_ }
  have e1 : s.remove.remaining = _ := congrArg Edits.remove h.now
  have e2 : s.maybeRemove.remaining = _ := congrArg Edits.maybeRemove h.now
  have e3 : s.rename.remaining = _ := congrArg Edits.rename h.now
  have e4 : s.maybeRename.remaining = _ := congrArg Edits.maybeRename h.now
  have e5 : s.add.remaining = _ := congrArg Edits.add h.now
  have e6 : s.maybeAdd.remaining = _ := congrArg Edits.maybeAdd h.now
  have rest : ∀ {α : Type} {f : Dict V → α → Except Exc (Dict V)} {s : Src α} {once : Bool} {l : List α} {m : Dict V},
      s.remaining = dropAll once l → once = true → (editLoop f s.remaining m).rest = [] := by
    intro α f s once l m hs ho
    subst ho
    rw [hs]
    rfl
  unfold Sel.edit
  simp only
  repeat' split
  all_goals
    exact edits_ext (by first | exact e1 | exact h.remove.spent_leave e1 (rest e1))
      (by first | exact e2 | exact h.maybeRemove.spent_leave e2 (rest e2))
      (by first | exact e3 | exact h.rename.spent_leave e3 (rest e3))
      (by first | exact e4 | exact h.maybeRename.spent_leave e4 (rest e4))
      (by first | exact e5 | exact h.add.spent_leave e5 (rest e5))
      (by first | exact e6 | exact h.maybeAdd.spent_leave e6 (rest e6))

/-! ### application -/

/-- the result of running edits -/
def ofLoop (r : Dict V × Option Exc) : Except Exc (Dict V) := match r.2 with | some e => .error e | none => .ok r.1

theorem edit_ofLoop (s : Sel V) (m : Dict V) :
    (match (s.edit m).err with | some e => .error e | none => .ok (s.edit m).dict) = ofLoop (scriptLoop s.edits.script m) := by
  rw [← edit_script]
  rfl

theorem tuples_mk (e : Edits V) : (tuples e).mk' = mkSel e := rfl

/-- every use of a Select from tuples applies all its entries -/
theorem applyS_tuples (e : Edits W.Obj) (m : Dict W.Obj) :
    ((tuples e).mk'.applyS m).1 = ofLoop (scriptLoop e.script m) := by
  rw [tuples_mk]
  obtain ⟨h1, h2, h3⟩ := truth_pure _ (mkSel_pure e)
  unfold Sel.applyS
  simp only
  rw [h1, mkSel_edits]
  cases hE : e.isEmpty with
  | true => rw [isEmpty_script hE]; rfl
  | false =>
    have := edit_ofLoop (mkSel e).truth.2 m
    rw [h3, mkSel_edits] at this
    exact this

/-- a use of a tested Select -/
theorem Tested.applyS {a : SelectArgs W.Obj} {s : Sel W.Obj} (h : Tested a s) (m : Dict W.Obj)
    (hemp : (argEdits a).isEmpty = true → s.edits.script = []) : (s.applyS m).1 = ofLoop (scriptLoop s.edits.script m) := by
  unfold Sel.applyS
  simp only
  rw [h.truth]
  cases hE : (argEdits a).isEmpty with
  | true => rw [hemp hE]; rfl
  | false => exact edit_ofLoop s m

theorem Tested.applyS_fits {a : SelectArgs W.Obj} {s : Sel W.Obj} (h : Tested a s) (m : Dict W.Obj) : Tested a (s.applyS m).2 := by
  unfold Sel.applyS
  simp only
  rw [h.truth]
  cases (argEdits a).isEmpty with
  | true => exact h
  | false => exact h.edit m

theorem Spent.applyS_spent {a : SelectArgs W.Obj} {s : Sel W.Obj} (h : Spent a s) (m : Dict W.Obj) : Spent a (s.applyS m).2 := by
  unfold Sel.applyS
  simp only
  rw [h.toTested.truth]
  cases (argEdits a).isEmpty with
  | true => exact h
  | false => exact h.edit m

theorem dropAll_nil {α : Type} (b : Bool) : dropAll b ([] : List α) = [] := by cases b <;> rfl
theorem dropFirst_nil {α : Type} (b : Bool) : dropFirst b ([] : List α) = [] := by cases b <;> rfl

theorem isEmpty_dropAll {a : SelectArgs V} (h : (argEdits a).isEmpty = true) :
    (laterUse a).script = [] ∧ (firstUse a).script = [] ∧ firstUse a = argEdits a ∧ laterUse a = argEdits a := by
  have e : (argEdits a) = {} := by
    simp only [Edits.isEmpty, Bool.and_eq_true, List.isEmpty_iff] at h
    obtain ⟨⟨⟨⟨⟨h1, h2⟩, h3⟩, h4⟩, h5⟩, h6⟩ := h
    exact edits_ext h1 h2 h3 h4 h5 h6
  have hl : laterUse a = {} := by
    unfold laterUse
    rw [e]
    exact edits_ext (dropAll_nil _) (dropAll_nil _) (dropAll_nil _) (dropAll_nil _) (dropAll_nil _) (dropAll_nil _)
  have hf : firstUse a = {} := by
    unfold firstUse
    rw [e]
    exact edits_ext rfl rfl rfl (dropFirst_nil _) rfl rfl
  rw [hl, hf, e]
  exact ⟨rfl, rfl, rfl, rfl⟩

theorem applyS_truth {a : SelectArgs W.Obj} {s : Sel W.Obj} (hs : Tested a s.truth.2) (h1 : s.truth.1 = !(argEdits a).isEmpty)
    (m : Dict W.Obj) : s.truth.2.applyS m = s.applyS m := by
  unfold Sel.applyS
  simp only
  rw [hs.truth, h1]

/-- the first use -/
theorem applyS_first (a : SelectArgs W.Obj) (m : Dict W.Obj) :
    (a.mk'.applyS m).1 = ofLoop (scriptLoop (firstUse a).script m) := by
  obtain ⟨h1, h2, h3⟩ := truth_first a
  rw [← applyS_truth h2 h1, h2.applyS m (fun he => by rw [h3]; exact (isEmpty_dropAll he).2.1), h3]

theorem applyS_first_ok {a : SelectArgs W.Obj} {m d : Dict W.Obj} (h : (a.mk'.applyS m).1 = .ok d) :
    Spent a (a.mk'.applyS m).2 := by
  obtain ⟨h1, h2, h3⟩ := truth_first a
  rw [← applyS_truth h2 h1] at h ⊢
  unfold Sel.applyS at h ⊢
  simp only at h ⊢
  rw [h2.truth] at h ⊢
  cases hE : (argEdits a).isEmpty with
  | true =>
    refine { h2 with now := ?_ }
    obtain ⟨_, _, g3, g4⟩ := isEmpty_dropAll hE
    rw [g4, ← g3]
    exact h3
  | false =>
    rw [hE] at h
    simp only [Bool.not_false, Bool.not_true, Bool.false_eq_true, if_false] at h ⊢
    refine h2.edit_ok ?_
    cases he : (a.mk'.truth.2.edit m).err with
    | none => rfl
    | some e => rw [he] at h; cases h

theorem Spent.applyS {a : SelectArgs W.Obj} {s : Sel W.Obj} (h : Spent a s) (m : Dict W.Obj) :
    (s.applyS m).1 = ((tuples (laterUse a)).mk'.applyS m).1 := by
  rw [h.toTested.applyS m (fun he => by rw [h.now]; exact (isEmpty_dropAll he).1), h.now, applyS_tuples]

/-! ### extraction -/

theorem extraction_tuples (C : RecClass W) (e : Edits W.Obj) :
    extraction C (tuples e).mk' = extraction C (mkSel e) := rfl

/-- the extraction by a tested Select is that of a Select from tuples with its entries -/
theorem Tested.extraction {a : SelectArgs W.Obj} {s : Sel W.Obj} (h : Tested a s) (C : RecClass W)
    (hemp : (argEdits a).isEmpty = true → s.edits.isEmpty = true) :
    (extractionS C s).1 = Records.extraction C (tuples s.edits).mk' := by
  obtain ⟨h1, _, _⟩ := truth_pure _ (mkSel_pure s.edits)
  rw [mkSel_edits] at h1
  unfold extractionS Records.extraction
  simp only
  rw [h.truth, tuples_mk, h1]
  cases hE : (argEdits a).isEmpty with
  | true => rw [hemp hE]; rfl
  | false =>
    cases hS : s.edits.isEmpty with
    | false => rfl
    | true =>
      simp only [Bool.not_false, Bool.not_true, Bool.false_eq_true, if_false, if_true]
      simp only [Edits.isEmpty, Bool.and_eq_true, List.isEmpty_iff] at hS
      obtain ⟨⟨⟨⟨⟨g1, g2⟩, g3⟩, g4⟩, g5⟩, g6⟩ := hS
      have g1 : s.remove.remaining = [] := g1
      have g3 : s.rename.remaining = [] := g3
      have g4 : s.maybeRename.remaining = [] := g4
      have g5 : s.add.remaining = [] := g5
      simp [g1, g3, g4, g5]

theorem Tested.extraction_fits {a : SelectArgs W.Obj} {s : Sel W.Obj} (h : Tested a s) (C : RecClass W) : Tested a (extractionS C s).2 := by
  unfold extractionS
  simp only
  rw [h.truth]
  cases (argEdits a).isEmpty with
  | true => exact h
  | false =>
    exact ⟨h.add.leave _, h.maybeAdd, h.remove.leave _, h.maybeRemove, h.rename.leave _, h.maybeRename.leave _, h.cache⟩

theorem Spent.extraction_spent {a : SelectArgs W.Obj} {s : Sel W.Obj} (h : Spent a s) (C : RecClass W) :
    Spent a (extractionS C s).2 := by
  refine { h.toTested.extraction_fits C with now := ?_ }
  have e1 : s.maybeRemove.remaining = _ := congrArg Edits.maybeRemove h.now
  have e2 : s.maybeAdd.remaining = _ := congrArg Edits.maybeAdd h.now
  unfold extractionS
  simp only
  rw [h.toTested.truth]
  cases (argEdits a).isEmpty with
  | true => exact h.now
  | false =>
    exact edits_ext h.remove.drained e1 h.rename.drained h.maybeRename.drained h.add.drained e2

/-- what is left after the extraction at the first use -/
theorem extraction_first (C : RecClass W) (a : SelectArgs W.Obj) :
    (extractionS C a.mk'.truth.2).2.edits = instanceUse a := by
  obtain ⟨h1, h2, h3⟩ := truth_first a
  have hm : a.mk'.truth.2.maybeRemove.remaining = _ := congrArg Edits.maybeRemove h3
  have hn : a.mk'.truth.2.maybeAdd.remaining = _ := congrArg Edits.maybeAdd h3
  unfold extractionS
  simp only
  rw [h2.truth]
  cases hE : (argEdits a).isEmpty with
  | true =>
    obtain ⟨_, _, g3, g4⟩ := isEmpty_dropAll hE
    unfold instanceUse
    rw [g4, g3]
    show a.mk'.truth.2.edits = _
    rw [h3, g3]
  | false =>
    exact edits_ext h2.remove.drained hm h2.rename.drained h2.maybeRename.drained h2.add.drained hn

/-! ### the functions with re-iterable Selects -/

theorem applyS_pure {sel : Sel W.Obj} (h : sel.Pure) (m : Dict W.Obj) :
    (sel.applyS m).1 = sel.applyTo m ∧ (sel.applyS m).2.Pure ∧ (sel.applyS m).2.edits = sel.edits := by
  obtain ⟨h1, h2, h3⟩ := truth_pure sel h
  unfold Sel.applyS Sel.applyTo
  simp only
  cases sel.truth.1 with
  | false => exact ⟨rfl, h2, h3⟩
  | true =>
    simp only [Bool.not_true, Bool.false_eq_true, if_false]
    rw [edit_sel _ h2]
    exact ⟨rfl, h2, h3⟩

theorem buildFromS_eq (call : Dict W.Obj → M W (Res W)) (sel : Sel W.Obj) (m : Dict W.Obj) (s : LState W) :
    (buildFromS call sel m s).1 = (match (sel.applyS m).1 with | .error e => (.error e, s) | .ok m' => call m' s) ∧
      (buildFromS call sel m s).2 = (sel.applyS m).2 := by
  unfold buildFromS
  split <;> next h => simp only [h, and_self]

theorem applyTo_tuples (e : Edits W.Obj) (m : Dict W.Obj) : (tuples e).mk'.applyTo m = ofLoop (scriptLoop e.script m) := by
  rw [← (applyS_pure (tuples_mk e ▸ mkSel_pure e) m).1, applyS_tuples]

theorem buildFrom_eq {call : Dict W.Obj → M W (Res W)} {sel : Sel W.Obj} {m : Dict W.Obj} {e : Edits W.Obj}
    (h : (sel.applyS m).1 = ofLoop (scriptLoop e.script m)) (s : LState W) :
    (buildFromS call sel m s).1 = buildFrom call (tuples e).mk' m s := by
  rw [(buildFromS_eq call sel m s).1, h]
  unfold buildFrom
  rw [applyTo_tuples]
  cases ofLoop (scriptLoop e.script m) <;> rfl

theorem bind_some {x : M W (Res W)} {s : LState W} :
    M.bind x (fun r => M.pure (some r)) s = ((x s).1.map some, (x s).2) := by
  unfold M.bind
  rcases x s with ⟨r, s'⟩
  cases r <;> rfl

/-- `from_instance` past the shortcut, in terms of what the extraction and the application do -/
theorem fromInstanceS_past {C : RecClass W} {call : Dict W.Obj → M W (Res W)} {sel : Sel W.Obj} {v : Carrier W}
    {maps : List (Dict W.Obj)} {kw : Dict W.Obj} {s : LState W} {e e' : Edits W.Obj}
    (ht : (!sel.truth.1 && C.frozen && maps.isEmpty && kw.isEmpty && v.isInst C.cid) = false)
    (hx : (extractionS C sel.truth.2).1 = extraction C (tuples e).mk')
    (ha : ∀ m, ((extractionS C sel.truth.2).2.applyS m).1 = ofLoop (scriptLoop e'.script m)) :
    (fromInstanceS C call sel v maps kw s).1 = freshInstance C call e e' v maps kw s := by
  unfold fromInstanceS freshInstance
  have hcl : clash ["self", "cls", "v", "_select"] kw = (clash ["self"] kw || clash ["cls", "v", "_select"] kw) := by
    unfold clash; simp
  rw [hcl]
  cases clash ["self"] kw with
  | true => rfl
  | false =>
    cases clash ["cls", "v", "_select"] kw with
    | true => rfl
    | false =>
      simp only [ht, Bool.false_eq_true, if_false, Bool.or_self]
      have hd : (toDictS C v {} sel.truth.2 s).1 = toDict C v {} (tuples e).mk' s := by
        unfold toDictS toDict
        simp only [hx]
      have hd2 : (toDictS C v {} sel.truth.2 s).2 = (extractionS C sel.truth.2).2 := rfl
      rcases htd : toDictS C v {} sel.truth.2 s with ⟨⟨r, s'⟩, sel'⟩
      rw [htd] at hd hd2
      simp only at hd hd2
      subst hd2
      have hb : ∀ m s', (buildFromS call (extractionS C sel.truth.2).2 m s').1 = buildFrom call (tuples e').mk' m s' :=
        fun m s' => buildFrom_eq (ha m) s'
      cases r with
      | error x => rw [M.bind_error hd.symm]
      | ok d =>
        rw [M.bind_ok hd.symm]
        rcases maps with _ | ⟨m, _ | ⟨m', l⟩⟩
        · have := hb (d.update kw) s'
          simp only [bind_some, ← this]
        · have := hb ((d.update m).update kw) s'
          simp only [bind_some, ← this]
        · rfl

theorem fromInstanceS_fresh {C : RecClass W} {call : Dict W.Obj → M W (Res W)} {sel : Sel W.Obj} {v : Carrier W}
    {maps : List (Dict W.Obj)} {kw : Dict W.Obj} {s : LState W} {e e' : Edits W.Obj} (ht : sel.truth.1 = true)
    (hx : (extractionS C sel.truth.2).1 = extraction C (tuples e).mk')
    (ha : ∀ m, ((extractionS C sel.truth.2).2.applyS m).1 = ofLoop (scriptLoop e'.script m)) :
    (fromInstanceS C call sel v maps kw s).1 = freshInstance C call e e' v maps kw s :=
  fromInstanceS_past (by rw [ht]; simp) hx ha

/-- what is left of the Select by a use -/
theorem SUse.spent {a : SelectArgs W.Obj} {sel : Sel W.Obj} (h : Spent a sel) (u : SUse W) (s : LState W) :
    Spent a (u.run sel s).1 := by
  have hb : ∀ {sel : Sel W.Obj}, Spent a sel → ∀ call m s, Spent a (buildFromS call sel m s).2 := by
    intro sel h call m s
    rw [(buildFromS_eq call sel m s).2]
    exact h.applyS_spent m
  have ht : sel.truth.2 = sel := by rw [h.toTested.truth]
  cases u with
  | mapping call maps kw =>
    have : Spent a (fromMappingS call sel maps kw s).2 := by
      unfold fromMappingS
      split
      · exact h
      · exact hb h _ _ _
    exact this
  | «instance» C call v maps kw =>
    have : Spent a (fromInstanceS C call sel v maps kw s).2 := by
      unfold fromInstanceS
      simp only
      rw [ht]
      split
      · exact h
      split
      · exact h
      split
      · exact h
      have hx := h.extraction_spent C
      have hx' : Spent a (toDictS C v {} sel s).2 := hx
      split <;> next e =>
        rw [e] at hx'
        try exact hx'
        try
          split
          · exact hb hx' _ _ _
          · exact hb hx' _ _ _
          · exact hx'
    exact this
  | json E call v kw =>
    have : Spent a (fromJsonS E call sel v kw s).2 := by
      unfold fromJsonS
      simp only
      rw [ht]
      split
      · exact h
      split
      · exact h
      split
      · exact h
      · exact hb h _ _ _
    exact this

/-- what a successful application leaves -/
theorem Tested.applyS_ok {a : SelectArgs W.Obj} {s : Sel W.Obj} (h : Tested a s)
    (hemp : (argEdits a).isEmpty = true → s.edits = laterUse a) {m d : Dict W.Obj} (hd : (s.applyS m).1 = .ok d) :
    Spent a (s.applyS m).2 := by
  unfold Sel.applyS at hd ⊢
  simp only at hd ⊢
  rw [h.truth] at hd ⊢
  cases hE : (argEdits a).isEmpty with
  | true => exact { h with now := hemp hE }
  | false =>
    rw [hE] at hd
    simp only [Bool.not_false, Bool.not_true, Bool.false_eq_true, if_false] at hd ⊢
    refine h.edit_ok ?_
    cases he : (s.edit m).err with
    | none => rfl
    | some e => rw [he] at hd; cases hd

theorem Tested.buildFromS_ok {a : SelectArgs W.Obj} {sel : Sel W.Obj} (h : Tested a sel)
    (hemp : (argEdits a).isEmpty = true → sel.edits = laterUse a) {call : Dict W.Obj → M W (Res W)} {m : Dict W.Obj}
    {s : LState W} {x : Res W} (hx : (buildFromS call sel m s).1.1 = .ok x) : Spent a (buildFromS call sel m s).2 := by
  obtain ⟨h1, h2⟩ := buildFromS_eq call sel m s
  rw [h2]
  rw [h1] at hx
  cases hd : (sel.applyS m).1 with
  | error e => rw [hd] at hx; cases hx
  | ok d => exact h.applyS_ok hemp hd

/-- what is left of a fresh Select by a use that does not raise -/
theorem SUse.first {a : SelectArgs W.Obj} (u : SUse W) (s : LState W) (hu : Succeeds a.mk' s u) :
    Spent a (u.run a.mk' s).1 := by
  obtain ⟨h1, h2, h3⟩ := truth_first a
  have hemp : (argEdits a).isEmpty = true → a.mk'.truth.2.edits = laterUse a := fun h => by
    rw [h3, (isEmpty_dropAll h).2.2.1, (isEmpty_dropAll h).2.2.2]
  have happ : ∀ m, a.mk'.applyS m = a.mk'.truth.2.applyS m := fun m => (applyS_truth h2 h1 m).symm
  have hbuild : ∀ call m s, buildFromS call a.mk' m s = buildFromS call a.mk'.truth.2 m s := by
    intro call m s
    unfold buildFromS
    rw [happ]
  cases u with
  | mapping call maps kw =>
    have : ∀ x, (fromMappingS call a.mk' maps kw s).1.1 = .ok x → Spent a (fromMappingS call a.mk' maps kw s).2 := by
      intro x
      unfold fromMappingS
      split
      · intro h; cases h
      · rw [hbuild]
        exact h2.buildFromS_ok hemp
    obtain ⟨x, hx⟩ := hu
    exact this x hx
  | «instance» C call v maps kw =>
    have : ∀ x, (fromInstanceS C call a.mk' v maps kw s).1.1 = .ok x → Spent a (fromInstanceS C call a.mk' v maps kw s).2 := by
      intro x
      unfold fromInstanceS
      simp only
      split
      · intro h; cases h
      split
      · intro h; cases h
      split
      · next hc =>
        intro _
        simp only [Bool.and_eq_true, Bool.not_eq_true'] at hc
        have hE : (argEdits a).isEmpty = true := by
          rw [h1] at hc
          simpa using hc.1.1.1.1
        exact { h2 with now := hemp hE }
      have hf : Tested a (toDictS C v {} a.mk'.truth.2 s).2 := h2.extraction_fits C
      have he : (argEdits a).isEmpty = true → (toDictS C v {} a.mk'.truth.2 s).2.edits = laterUse a := fun h => by
        have := (Spent.extraction_spent { h2 with now := hemp h } C).now
        exact this
      split
      · intro h; cases h
      · next d s' sel e =>
        rw [e] at hf he
        have hb : ∀ m x, (match buildFromS call sel m s' with
            | ((r, s''), sel) => ((r.map some, s''), sel) : (Except Exc (Option (Res W)) × LState W) × Sel W.Obj).1.1 = .ok x →
            Spent a (buildFromS call sel m s').2 := by
          intro m x hx
          cases hr : (buildFromS call sel m s').1.1 with
          | error e =>
            rcases hbb : buildFromS call sel m s' with ⟨⟨r, s2⟩, sel2⟩
            rw [hbb] at hx hr
            simp only at hx hr
            rw [hr] at hx
            cases hx
          | ok y => exact hf.buildFromS_ok he hr
        split
        · exact hb _ _
        · exact hb _ _
        · intro h; cases h
    obtain ⟨x, hx⟩ := hu
    exact this x hx
  | json E call v kw =>
    have : ∀ x, (fromJsonS E call a.mk' v kw s).1.1 = .ok x → Spent a (fromJsonS E call a.mk' v kw s).2 := by
      intro x
      unfold fromJsonS
      simp only
      split
      · intro h; cases h
      split
      · intro h; cases h
      split
      · intro h; cases h
      · exact h2.buildFromS_ok hemp
    obtain ⟨x, hx⟩ := hu
    exact this x hx

theorem usesS_spent {a : SelectArgs W.Obj} {sel : Sel W.Obj} (h : Spent a sel) (us : List (SUse W)) (s : LState W) :
    Spent a (usesS us sel s).1 := by
  induction us generalizing sel s with
  | nil => exact h
  | cons u us ih => exact ih (SUse.spent h u s) _

/-- a call on a dict nobody else has -/
theorem call_applyS (sel : Sel W.Obj) (d : Dict W.Obj) :
    (match (sel.call [d] (.dict 0)).ret with
      | .error e => Except.error e
      | .ok m => .ok (m.items (sel.call [d] (.dict 0)).heap) : Except Exc (Dict W.Obj)) = (sel.applyS d).1 := by
  unfold Sel.call Sel.applyS
  simp only
  cases sel.truth.1 with
  | false => rfl
  | true =>
    simp only [Bool.not_true, Bool.false_eq_true, if_false]
    show (match (match (sel.truth.2.edit d).err with
      | some e => (⟨Except.error e, [(sel.truth.2.edit d).dict], (sel.truth.2.edit d).sel⟩ : CallRes W.Obj)
      | none => ⟨.ok (.dict 0), [(sel.truth.2.edit d).dict], (sel.truth.2.edit d).sel⟩).ret with
      | .error e => Except.error e
      | .ok m => .ok (m.items (match (sel.truth.2.edit d).err with
        | some e => (⟨Except.error e, [(sel.truth.2.edit d).dict], (sel.truth.2.edit d).sel⟩ : CallRes W.Obj)
        | none => ⟨.ok (.dict 0), [(sel.truth.2.edit d).dict], (sel.truth.2.edit d).sel⟩).heap) : Except Exc (Dict W.Obj)) = _
    cases (sel.truth.2.edit d).err <;> rfl

theorem Tested.drained {a : SelectArgs V} {s : Sel V} (h : Tested a s) : Spent a s.drained where
  add := h.add.leave _
  maybeAdd := h.maybeAdd.leave _
  remove := h.remove.leave _
  maybeRemove := h.maybeRemove.leave _
  rename := h.rename.leave _
  maybeRename := h.maybeRename.leave _
  cache := h.cache
  now := edits_ext h.remove.drained h.maybeRemove.drained h.rename.drained h.maybeRename.drained h.add.drained h.maybeAdd.drained

end Records
