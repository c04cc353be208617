import Verif.Model.Select
import Verif.Spec.Select
import Verif.Proofs.Dict
/- Helper lemmas about the Select model. -/
namespace Records
open Spec
set_option linter.unusedSimpArgs false
variable {V : Type}

/-- The Select built from six tuples. -/
def mkSel (e : Edits V) : Sel V :=
  Sel.init (.iterable (.many e.add)) (.iterable (.many e.maybeAdd)) (.iterable (.many e.remove))
    (.iterable (.many e.maybeRemove)) (.iterable (.many e.rename)) (.iterable (.many e.maybeRename))

/-- `f` implements the abstract edit `E x` -/
def Sim {α : Type} (f : Dict V → α → Except Exc (Dict V)) (E : α → Edit V) : Prop :=
  ∀ m x, Dict.WF m → match (E x).apply (Dict.get? m) with
    | .error k => f m x = .error ⟨k, none⟩
    | .ok g => ∃ m', f m x = .ok m' ∧ Dict.WF m' ∧ Dict.get? m' = g

theorem sim_remove : Sim (V := V) editRemove .remove := by
  intro m x hm
  obtain ⟨o, h⟩ : ∃ o, Dict.get? m x = o := ⟨_, rfl⟩
  cases o <;> simp only [Edit.apply, editRemove, Dict.has, h]
  · simp [Exc.keyError]
  · refine ⟨m.erase x, by simp, hm.erase x, ?_⟩
    funext k; rw [Dict.get?_erase _ hm]; rfl

theorem sim_maybeRemove : Sim (V := V) editMaybeRemove .maybeRemove := by
  intro m x hm
  simp only [Edit.apply, editMaybeRemove]
  refine ⟨m.erase x, rfl, hm.erase x, ?_⟩
  funext k; rw [Dict.get?_erase _ hm]; rfl

theorem get?_rename (m : Dict V) (hm : m.WF) (s d : String) (v : V) :
    Dict.get? ((m.erase s).set d v) = (AMap.upd (AMap.upd (Dict.get? m) s none) d (some v)) := by
  funext k
  rw [Dict.get?_set, Dict.get?_erase _ hm]
  simp only [AMap.upd]

theorem sim_rename : Sim (V := V) editRename (fun p => .rename p.1 p.2) := by
  intro m x hm
  obtain ⟨s, d⟩ := x
  obtain ⟨o, h⟩ : ∃ o, Dict.get? m d = o := ⟨_, rfl⟩
  obtain ⟨o2, h2⟩ : ∃ o, Dict.get? m s = o := ⟨_, rfl⟩
  cases o <;> cases o2 <;> simp only [Edit.apply, editRename, Dict.has, h, h2]
  · simp [Exc.keyError]
  · exact ⟨(m.erase s).set d _, by simp, (hm.erase s).set d _, get?_rename m hm s d _⟩
  · simp [Exc.valueError]
  · simp [Exc.valueError]

theorem sim_maybeRename : Sim (V := V) editMaybeRename (fun p => .maybeRename p.1 p.2) := by
  intro m x hm
  obtain ⟨s, d⟩ := x
  obtain ⟨o, h⟩ : ∃ o, Dict.get? m d = o := ⟨_, rfl⟩
  obtain ⟨o2, h2⟩ : ∃ o, Dict.get? m s = o := ⟨_, rfl⟩
  cases o <;> cases o2 <;> simp only [Edit.apply, editMaybeRename, Dict.has, h, h2]
  · exact ⟨m, rfl, hm, rfl⟩
  · exact ⟨(m.erase s).set d _, by simp, (hm.erase s).set d _, get?_rename m hm s d _⟩
  · exact ⟨m, rfl, hm, rfl⟩
  · simp [Exc.valueError]

theorem get?_upd (m : Dict V) (k : String) (v : V) :
    Dict.get? (m.set k v) = AMap.upd (Dict.get? m) k (some v) := by
  funext k'; rw [Dict.get?_set]; rfl

theorem sim_add : Sim (V := V) editAdd (fun p => .add p.1 p.2) := by
  intro m x hm
  obtain ⟨k, v⟩ := x
  obtain ⟨o, h⟩ : ∃ o, Dict.get? m k = o := ⟨_, rfl⟩
  cases o <;> simp only [Edit.apply, editAdd, Dict.has, h]
  · exact ⟨m.set k v, by simp, hm.set k v, get?_upd m k v⟩
  · simp [Exc.valueError]

theorem sim_maybeAdd : Sim (V := V) editMaybeAdd (fun p => .maybeAdd p.1 p.2) := by
  intro m x hm
  obtain ⟨k, v⟩ := x
  obtain ⟨o, h⟩ : ∃ o, Dict.get? m k = o := ⟨_, rfl⟩
  cases o <;> simp only [Edit.apply, editMaybeAdd, Dict.has, h]
  · exact ⟨m.set k v, by simp, hm.set k v, get?_upd m k v⟩
  · exact ⟨m, by simp, hm, rfl⟩

/-- what a loop result says about a script result -/
def LoopAgree {α : Type} (r : Except ExcKind (AMap V)) (l : LoopRes V α) : Prop :=
  match r with
  | .error k => l.err = some ⟨k, none⟩
  | .ok g => l.err = none ∧ Dict.WF l.dict ∧ Dict.get? l.dict = g

theorem loop_sim {α : Type} {f : Dict V → α → Except Exc (Dict V)} {E : α → Edit V} (h : Sim f E)
    (xs : List α) (m : Dict V) (hm : m.WF) :
    LoopAgree (runScript (xs.map E) (Dict.get? m)) (editLoop f xs m) := by
  induction xs generalizing m with
  | nil => exact ⟨rfl, hm, rfl⟩
  | cons x xs ih =>
    have hx := h m x hm
    simp only [List.map_cons, runScript, editLoop]
    revert hx
    cases hE : (E x).apply (Dict.get? m) with
    | error k => intro hx; simp only [hx, LoopAgree]
    | ok g =>
      intro hx
      obtain ⟨m', h1, h2, h3⟩ := hx
      simp only [h1]
      subst h3
      exact ih m' h2

theorem runScript_append (a b : List (Edit V)) (m : AMap V) :
    runScript (a ++ b) m = (runScript a m).bind (runScript b) := by
  induction a generalizing m with
  | nil => rfl
  | cons e a ih =>
    simp only [List.cons_append, runScript]
    cases e.apply m with
    | error k => rfl
    | ok m' => exact ih m'

/-- what an edit result says about a script result -/
def EditAgree (r : Except ExcKind (AMap V)) (l : EditRes V) : Prop :=
  match r with
  | .error k => l.err = some ⟨k, none⟩
  | .ok g => l.err = none ∧ Dict.WF l.dict ∧ Dict.get? l.dict = g

/-- the current entries of a Select -/
def Sel.edits (s : Sel V) : Edits V where
  remove := s.remove.remaining
  maybeRemove := s.maybeRemove.remaining
  rename := s.rename.remaining
  maybeRename := s.maybeRename.remaining
  add := s.add.remaining
  maybeAdd := s.maybeAdd.remaining

theorem edit_sim (s : Sel V) (m : Dict V) (hm : m.WF) :
    EditAgree (runScript s.edits.script (Dict.get? m)) (s.edit m) := by
  simp only [Edits.script, runScript_append, Sel.edit, Sel.edits]
  have h1 := loop_sim sim_remove s.remove.remaining m hm
  revert h1
  cases hr1 : runScript (s.remove.remaining.map Edit.remove) (Dict.get? m) with
  | error k => intro h1; simp only [LoopAgree] at h1; simp [h1, EditAgree, Except.bind]
  | ok g1 =>
  intro h1; simp only [LoopAgree] at h1; obtain ⟨e1, w1, rfl⟩ := h1
  simp only [e1, Except.bind]
  have h2 := loop_sim sim_maybeRemove s.maybeRemove.remaining _ w1
  revert h2
  cases hr2 : runScript (s.maybeRemove.remaining.map Edit.maybeRemove) (Dict.get? (editLoop editRemove s.remove.remaining m).dict) with
  | error k => intro h2; simp only [LoopAgree] at h2; simp [h2, EditAgree]
  | ok g2 =>
  intro h2; simp only [LoopAgree] at h2; obtain ⟨e2, w2, rfl⟩ := h2
  simp only [e2]
  generalize (editLoop editMaybeRemove s.maybeRemove.remaining _).dict = m2 at *
  have h3 := loop_sim sim_rename s.rename.remaining _ w2
  revert h3
  cases hr3 : runScript (s.rename.remaining.map (fun p => Edit.rename p.1 p.2)) (Dict.get? m2) with
  | error k => intro h3; simp only [LoopAgree] at h3; simp [h3, EditAgree]
  | ok g3 =>
  intro h3; simp only [LoopAgree] at h3; obtain ⟨e3, w3, rfl⟩ := h3
  simp only [e3]
  generalize (editLoop editRename s.rename.remaining _).dict = m3 at *
  have h4 := loop_sim sim_maybeRename s.maybeRename.remaining _ w3
  revert h4
  cases hr4 : runScript (s.maybeRename.remaining.map (fun p => Edit.maybeRename p.1 p.2)) (Dict.get? m3) with
  | error k => intro h4; simp only [LoopAgree] at h4; simp [h4, EditAgree]
  | ok g4 =>
  intro h4; simp only [LoopAgree] at h4; obtain ⟨e4, w4, rfl⟩ := h4
  simp only [e4]
  generalize (editLoop editMaybeRename s.maybeRename.remaining _).dict = m4 at *
  have h5 := loop_sim sim_add s.add.remaining _ w4
  revert h5
  cases hr5 : runScript (s.add.remaining.map (fun p => Edit.add p.1 p.2)) (Dict.get? m4) with
  | error k => intro h5; simp only [LoopAgree] at h5; simp [h5, EditAgree]
  | ok g5 =>
  intro h5; simp only [LoopAgree] at h5; obtain ⟨e5, w5, rfl⟩ := h5
  simp only [e5]
  generalize (editLoop editAdd s.add.remaining _).dict = m5 at *
  exact loop_sim sim_maybeAdd s.maybeAdd.remaining _ w5

/-! ### truth -/

/-- no entries at all -/
def _root_.Records.Spec.Edits.isEmpty (e : Edits V) : Bool :=
  e.remove.isEmpty && e.maybeRemove.isEmpty && e.rename.isEmpty && e.maybeRename.isEmpty
    && e.add.isEmpty && e.maybeAdd.isEmpty

/-- all sources re-iterable, and the cached truth value (if any) is right -/
def Sel.Pure (s : Sel V) : Prop :=
  s.add.isMany ∧ s.maybeAdd.isMany ∧ s.remove.isMany ∧ s.maybeRemove.isMany ∧ s.rename.isMany ∧
  s.maybeRename.isMany ∧ (∀ b, s.cache = some b → b = !s.edits.isEmpty)

theorem peek_many {α : Type} {s : Src α} (h : s.isMany) : s.peek = (!s.remaining.isEmpty, s) := by
  cases s with
  | many l => rfl
  | once l => simp [Src.isMany] at h

theorem leave_many {α : Type} {s : Src α} (h : s.isMany) (l : List α) : s.leave l = s := by
  cases s with
  | many l => rfl
  | once l => simp [Src.isMany] at h

theorem mkSel_pure (e : Edits V) : (mkSel e).Pure := by
  simp [Sel.Pure, mkSel, Sel.init, PairArg.store, KeyArg.store, Src.isMany]

theorem mkSel_edits (e : Edits V) : (mkSel e).edits = e := by
  simp [Sel.edits, mkSel, Sel.init, PairArg.store, KeyArg.store, Src.remaining]

theorem truth_pure (s : Sel V) (h : s.Pure) :
    s.truth.1 = (!s.edits.isEmpty) ∧ s.truth.2.Pure ∧ s.truth.2.edits = s.edits := by
  obtain ⟨ha, hma, hr, hmr, hre, hmre, hc⟩ := h
  unfold Sel.truth
  cases hcache : s.cache with
  | some b =>
    simp only
    exact ⟨hc b hcache, ⟨ha, hma, hr, hmr, hre, hmre, hc⟩, trivial⟩
  | none =>
    simp only [peek_many ha, peek_many hma, peek_many hr, peek_many hmr, peek_many hre, peek_many hmre]
    have key : ∀ b, b = (!s.edits.isEmpty) → Sel.Pure { s with cache := some b } := by
      intro b hb
      exact ⟨ha, hma, hr, hmr, hre, hmre, fun b' hb' => by simp at hb'; subst hb'; exact hb⟩
    have ed : ∀ b : Bool, Sel.edits { s with cache := some b } = s.edits := fun b => rfl
    have hE : s.edits.isEmpty = (s.remove.remaining.isEmpty && s.maybeRemove.remaining.isEmpty
      && s.rename.remaining.isEmpty && s.maybeRename.remaining.isEmpty && s.add.remaining.isEmpty
      && s.maybeAdd.remaining.isEmpty) := rfl
    clear hc
    simp only [hE] at key ⊢
    revert key
    cases s.add.remaining.isEmpty <;> cases s.maybeAdd.remaining.isEmpty <;> cases s.remove.remaining.isEmpty <;>
      cases s.maybeRemove.remaining.isEmpty <;> cases s.rename.remaining.isEmpty <;>
      cases s.maybeRename.remaining.isEmpty <;> exact fun key => ⟨rfl, key _ rfl, ed _⟩

theorem isEmpty_script {e : Edits V} (h : e.isEmpty = true) : e.script = [] := by
  simp only [Edits.isEmpty, Bool.and_eq_true, List.isEmpty_iff] at h
  simp [Edits.script, h]

/-! ### call -/

/-- the object exists on the heap -/
def MObj.Valid (h : Heap V) : MObj → Prop
  | .dict a => a < h.length
  | .chain as => ∀ a ∈ as, a < h.length

/-- all dicts on the heap are dicts -/
def Heap.WF (h : Heap V) : Prop := ∀ d ∈ h, Dict.WF d

/-- What the caller sees of a call: the entries of the returned mapping, or the exception. -/
def CallRes.outcome (r : CallRes V) : Except Exc (Dict V) := r.ret.map (MObj.items r.heap)

theorem Heap.at_wf {h : Heap V} (hh : h.WF) (a : Nat) : (h.at a).WF := by
  unfold Heap.at
  rw [List.getD_eq_getElem?_getD]
  cases he : h[a]? with
  | none => simp [Dict.WF]
  | some d => exact hh d (List.mem_of_getElem? he)

theorem chainItems_wf (maps : List (Dict V)) : (chainItems maps).WF := by
  unfold chainItems
  suffices ∀ (d : Dict V), d.WF → ∀ ms : List (Dict V), (ms.foldl (fun d m => d.update m) d).WF by
    exact this [] (by simp [Dict.WF]) _
  intro d hd ms
  induction ms generalizing d with
  | nil => exact hd
  | cons m ms ih => exact ih _ (hd.update m)

theorem items_wf {h : Heap V} (hh : h.WF) (m : MObj) : (m.items h).WF := by
  cases m with
  | dict a => exact Heap.at_wf hh a
  | chain as => exact chainItems_wf _

theorem at_set_self (h : Heap V) (a : Nat) (ha : a < h.length) (d : Dict V) : Heap.at (h.set a d) a = d := by
  simp [Heap.at, List.getD_eq_getElem?_getD, ha]

theorem at_set_ne (h : Heap V) (a b : Nat) (hab : a ≠ b) (d : Dict V) : Heap.at (h.set a d) b = h.at b := by
  simp [Heap.at, List.getD_eq_getElem?_getD, List.getElem?_set, hab]

theorem at_append_length (h : Heap V) (d : Dict V) : Heap.at (h ++ [d]) h.length = d := by
  simp [Heap.at, List.getD_eq_getElem?_getD]

theorem at_append_lt (h : Heap V) (d : Dict V) (a : Nat) (ha : a < h.length) : Heap.at (h ++ [d]) a = h.at a := by
  simp [Heap.at, List.getD_eq_getElem?_getD, List.getElem?_append, ha]

/-- the outcome of a pure Select is the outcome of its edit loops -/
theorem call_outcome (s : Sel V) (hs : s.Pure) (h : Heap V) (m : MObj) (hv : m.Valid h) :
    (s.call h m).outcome =
      if s.edits.isEmpty then .ok (m.items h)
      else match (s.truth.2.edit (m.items h)).err with
        | some e => .error e
        | none => .ok (s.truth.2.edit (m.items h)).dict := by
  obtain ⟨h1, h2, h3⟩ := truth_pure s hs
  unfold Sel.call CallRes.outcome
  simp only
  rw [h1]
  cases hE : s.edits.isEmpty with
  | true => simp [Except.map]
  | false =>
    simp only [Bool.not_false, Bool.not_true, Bool.false_eq_true, if_false]
    cases m with
    | dict a =>
      simp only [MObj.items]
      cases (Sel.edit s.truth.2 (h.at a)).err with
      | some e => rfl
      | none => simp only [Except.map, MObj.items]; rw [at_set_self]; exact hv
    | chain as =>
      simp only [MObj.items]
      rw [at_append_length]
      cases (Sel.edit s.truth.2 (chainItems (as.map h.at))).err with
      | some e => rfl
      | none => simp only [Except.map, MObj.items]; rw [at_set_self]; simp

theorem call_sim (s : Sel V) (hs : s.Pure) (h : Heap V) (hh : h.WF) (m : MObj) (hv : m.Valid h) :
    match runScript s.edits.script (Dict.get? (m.items h)) with
    | .error k => (s.call h m).outcome = .error ⟨k, none⟩
    | .ok g => ∃ d, (s.call h m).outcome = .ok d ∧ d.WF ∧ ∀ k, d.get? k = g k := by
  obtain ⟨h1, h2, h3⟩ := truth_pure s hs
  rw [call_outcome s hs h m hv]
  cases hE : s.edits.isEmpty with
  | true =>
    rw [isEmpty_script hE]
    exact ⟨_, rfl, items_wf hh m, fun k => rfl⟩
  | false =>
    simp only [Bool.false_eq_true, if_false]
    have := edit_sim s.truth.2 (m.items h) (items_wf hh m)
    rw [h3] at this
    revert this
    cases runScript s.edits.script (Dict.get? (m.items h)) with
    | error k => intro this; simp only [EditAgree] at this; simp [this]
    | ok g =>
      intro this; simp only [EditAgree] at this; obtain ⟨e, w, rfl⟩ := this
      exact ⟨_, by rw [e], w, fun k => rfl⟩

end Records
