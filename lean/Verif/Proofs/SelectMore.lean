import Verif.Proofs.Select
import Verif.Spec.SelectArgs
/- More helper lemmas about the Select model: arguments, merge, loops as one script, counting. -/
namespace Records
open Spec
variable {V : Type}

theorem pair_store {β : Type} {a : PairArg β} (h : pairReiterable a) : a.store = .many (pairEntries a) := by
  cases a with
  | mapping d => rfl
  | iterable s => cases s with
    | many l => rfl
    | once l => exact h.elim

theorem key_store {a : KeyArg} (h : keyReiterable a) : a.store = .many (keyEntries a) := by
  cases a with
  | str d => rfl
  | iterable s => cases s with
    | many l => rfl
    | once l => exact h.elim

theorem mk'_eq {a : SelectArgs V} (h : Reiterable a) : a.mk' = mkSel (argEdits a) := by
  obtain ⟨h1, h2, h3, h4, h5, h6⟩ := h
  simp [SelectArgs.mk', mkSel, Sel.init, pair_store, key_store, *, argEdits]
  simp [PairArg.store, KeyArg.store]

theorem mk'_pure {a : SelectArgs V} (h : Reiterable a) : a.mk'.Pure := mk'_eq h ▸ mkSel_pure _
theorem mk'_edits {a : SelectArgs V} (h : Reiterable a) : a.mk'.edits = argEdits a := by
  rw [mk'_eq h, mkSel_edits]

/-- one edit on a dict -/
def editOne (m : Dict V) : Edit V → Except Exc (Dict V)
  | .remove k => editRemove m k
  | .maybeRemove k => editMaybeRemove m k
  | .rename s d => editRename m (s, d)
  | .maybeRename s d => editMaybeRename m (s, d)
  | .add k v => editAdd m (k, v)
  | .maybeAdd k v => editMaybeAdd m (k, v)

/-- run a script on a dict in place: dict afterwards and exception -/
def scriptLoop : List (Edit V) → Dict V → Dict V × Option Exc
  | [], m => (m, none)
  | x :: xs, m => match editOne m x with
    | .ok m' => scriptLoop xs m'
    | .error e => (m, some e)

theorem scriptLoop_append (a b : List (Edit V)) (m : Dict V) :
    scriptLoop (a ++ b) m = match (scriptLoop a m).2 with
      | some e => ((scriptLoop a m).1, some e)
      | none => scriptLoop b (scriptLoop a m).1 := by
  induction a generalizing m with
  | nil => rfl
  | cons x a ih =>
    simp only [List.cons_append, scriptLoop]
    cases editOne m x with
    | error e => rfl
    | ok m' => exact ih m'

theorem editOne_sim (m : Dict V) (hm : Dict.WF m) (x : Edit V) : match x.apply (Dict.get? m) with
    | .error k => editOne m x = .error ⟨k, none⟩
    | .ok g => ∃ m', editOne m x = .ok m' ∧ Dict.WF m' ∧ Dict.get? m' = g := by
  cases x with
  | remove k => exact sim_remove m k hm
  | maybeRemove k => exact sim_maybeRemove m k hm
  | rename s d => exact sim_rename m (s, d) hm
  | maybeRename s d => exact sim_maybeRename m (s, d) hm
  | add k v => exact sim_add m (k, v) hm
  | maybeAdd k v => exact sim_maybeAdd m (k, v) hm

theorem scriptLoop_ok (xs : List (Edit V)) (m : Dict V) (hm : Dict.WF m) (g : AMap V)
    (h : runScript xs (Dict.get? m) = .ok g) :
    ∃ m', scriptLoop xs m = (m', none) ∧ Dict.WF m' ∧ Dict.get? m' = g := by
  induction xs generalizing m with
  | nil => cases h; exact ⟨m, rfl, hm, rfl⟩
  | cons x xs ih =>
    have hs := editOne_sim m hm x
    simp only [runScript] at h
    cases ha : x.apply (Dict.get? m) with
    | error k => rw [ha] at h; cases h
    | ok g' =>
      rw [ha] at h hs
      obtain ⟨m', e, w, rfl⟩ := hs
      simp only [scriptLoop, e]
      exact ih m' w h

theorem scriptLoop_halfway (pre : List (Edit V)) (e : Edit V) (post : List (Edit V)) (m : Dict V) (hm : Dict.WF m)
    (g : AMap V) (k : ExcKind) (h : runScript pre (Dict.get? m) = .ok g) (he : e.apply g = .error k) :
    ∃ m', scriptLoop (pre ++ e :: post) m = (m', some ⟨k, none⟩) ∧ Dict.get? m' = g := by
  obtain ⟨m', e1, w, rfl⟩ := scriptLoop_ok pre m hm g h
  refine ⟨m', ?_, rfl⟩
  have hs := editOne_sim m' w e
  rw [he] at hs
  rw [scriptLoop_append, e1]
  simp only [scriptLoop, hs]

theorem editLoop_script {α : Type} (f : Dict V → α → Except Exc (Dict V)) (E : α → Edit V)
    (h : ∀ m x, f m x = editOne m (E x)) (xs : List α) (m : Dict V) :
    (editLoop f xs m).dict = (scriptLoop (xs.map E) m).1 ∧ (editLoop f xs m).err = (scriptLoop (xs.map E) m).2 := by
  induction xs generalizing m with
  | nil => exact ⟨rfl, rfl⟩
  | cons x xs ih =>
    simp only [editLoop, List.map_cons, scriptLoop, h m x]
    cases editOne m (E x) with
    | error e => exact ⟨rfl, rfl⟩
    | ok m' => exact ih m'

theorem edit_script (s : Sel V) (m : Dict V) :
    ((s.edit m).dict, (s.edit m).err) = scriptLoop s.edits.script m := by
  have A1 := editLoop_script (V := V) editRemove .remove (fun _ _ => rfl) s.remove.remaining
  have A2 := editLoop_script (V := V) editMaybeRemove .maybeRemove (fun _ _ => rfl) s.maybeRemove.remaining
  have A3 := editLoop_script (V := V) editRename (fun p => .rename p.1 p.2) (fun _ _ => rfl) s.rename.remaining
  have A4 := editLoop_script (V := V) editMaybeRename (fun p => .maybeRename p.1 p.2) (fun _ _ => rfl)
    s.maybeRename.remaining
  have A5 := editLoop_script (V := V) editAdd (fun p => .add p.1 p.2) (fun _ _ => rfl) s.add.remaining
  have A6 := editLoop_script (V := V) editMaybeAdd (fun p => .maybeAdd p.1 p.2) (fun _ _ => rfl) s.maybeAdd.remaining
  simp only [Edits.script, List.append_assoc, scriptLoop_append, Sel.edits, Sel.edit]
  simp only [A1, A2, A3, A4, A5, A6]
  generalize scriptLoop (List.map Edit.remove s.remove.remaining) m = r
  obtain ⟨d, e⟩ := r
  cases e with
  | some e => rfl
  | none =>
  simp only
  generalize scriptLoop (List.map Edit.maybeRemove s.maybeRemove.remaining) d = r
  obtain ⟨d, e⟩ := r
  cases e with
  | some e => rfl
  | none =>
  simp only
  generalize scriptLoop (List.map (fun p => Edit.rename p.fst p.snd) s.rename.remaining) d = r
  obtain ⟨d, e⟩ := r
  cases e with
  | some e => rfl
  | none =>
  simp only
  generalize scriptLoop (List.map (fun p => Edit.maybeRename p.fst p.snd) s.maybeRename.remaining) d = r
  obtain ⟨d, e⟩ := r
  cases e with
  | some e => rfl
  | none =>
  simp only
  generalize scriptLoop (List.map (fun p => Edit.add p.fst p.snd) s.add.remaining) d = r
  obtain ⟨d, e⟩ := r
  cases e with
  | some e => rfl
  | none => rfl

/-- what `call` does depends only on the edit lists -/
theorem call_pure (s : Sel V) (hs : s.Pure) (h : Heap V) (m : MObj) :
    ((s.call h m).ret, (s.call h m).heap) =
      if s.edits.isEmpty then (.ok m, h) else
      let (a, h) : Nat × Heap V := match m with
        | .dict a => (a, h)
        | .chain as => (h.length, h ++ [chainItems (as.map h.at)])
      let r := scriptLoop s.edits.script (h.at a)
      (match r.2 with
        | some e => .error e
        | none => .ok (.dict a), h.set a r.1) := by
  obtain ⟨h1, h2, h3⟩ := truth_pure s hs
  unfold Sel.call
  simp only
  rw [h1]
  cases hE : s.edits.isEmpty with
  | true => simp
  | false =>
    simp only [Bool.not_false, Bool.not_true, Bool.false_eq_true, if_false]
    have := edit_script s.truth.2
    rw [h3] at this
    cases m with
    | dict a =>
      simp only [← this]
      cases (Sel.edit s.truth.2 (h.at a)).err <;> rfl
    | chain as =>
      simp only [← this]
      cases (Sel.edit s.truth.2 (Heap.at (h ++ [chainItems (as.map h.at)]) h.length)).err <;> rfl

theorem call_congr (s t : Sel V) (hs : s.Pure) (ht : t.Pure) (he : s.edits = t.edits) (h : Heap V) (m : MObj) :
    (s.call h m).ret = (t.call h m).ret ∧ (s.call h m).heap = (t.call h m).heap := by
  have h1 := call_pure s hs h m
  have h2 := call_pure t ht h m
  rw [he] at h1
  rw [← h2] at h1
  simpa using h1

theorem leave_pure (s : Sel V) (hs : s.Pure) : s.drained = s := by
  obtain ⟨ha, hma, hr, hmr, hre, hmre, hc⟩ := hs
  simp [Sel.drained, leave_many, *]

/-- the iterables after the edit loops are the same again -/
theorem edit_sel (s : Sel V) (hs : s.Pure) (m : Dict V) : (s.edit m).sel = s := by
  obtain ⟨ha, hma, hr, hmr, hre, hmre, hc⟩ := hs
  simp only [Sel.edit, leave_many, *]
  repeat' split
  all_goals rfl

theorem call_sel (s : Sel V) (hs : s.Pure) (h : Heap V) (m : MObj) :
    (s.call h m).sel.Pure ∧ (s.call h m).sel.edits = s.edits := by
  obtain ⟨h1, h2, h3⟩ := truth_pure s hs
  unfold Sel.call
  simp only
  rw [h1]
  cases hE : s.edits.isEmpty with
  | true => simp [h2, h3]
  | false =>
    simp only [Bool.not_false, Bool.not_true, Bool.false_eq_true, if_false]
    split <;> simp [edit_sel _ h2, h2, h3]

theorem Edits.append_empty_left {a b : Edits V} (h : a.isEmpty = true) : a.append b = b := by
  simp only [Edits.isEmpty, Bool.and_eq_true, List.isEmpty_iff] at h
  simp [Edits.append, h]

theorem Edits.append_empty_right {a b : Edits V} (h : b.isEmpty = true) : a.append b = a := by
  simp only [Edits.isEmpty, Bool.and_eq_true, List.isEmpty_iff] at h
  simp [Edits.append, h]

theorem Edits.append_assoc (a b c : Edits V) : (a.append b).append c = a.append (b.append c) := by
  simp [Edits.append]

theorem merge1_pure (s t : Sel V) (hs : s.Pure) (ht : t.Pure) :
    (s.merge1 t).1.Pure ∧ (s.merge1 t).1.edits = s.edits.append t.edits ∧
    (s.merge1 t).2.1.Pure ∧ (s.merge1 t).2.1.edits = s.edits ∧
    (s.merge1 t).2.2.Pure ∧ (s.merge1 t).2.2.edits = t.edits := by
  obtain ⟨h1, h2, h3⟩ := truth_pure s hs
  obtain ⟨g1, g2, g3⟩ := truth_pure t ht
  unfold Sel.merge1
  simp only [h1, g1]
  cases hE : s.edits.isEmpty with
  | true => simp [Edits.append_empty_left hE, ht, h2, h3]
  | false =>
  cases hF : t.edits.isEmpty with
  | true => simp [Edits.append_empty_right hF, g2, g3, h2, h3]
  | false =>
    simp only [Bool.not_false, Bool.not_true, Bool.false_eq_true, if_false]
    rw [leave_pure _ h2, leave_pure _ g2]
    refine ⟨?_, ?_, h2, h3, g2, g3⟩
    · simp [Sel.Pure, Src.isMany]
    · rw [← h3, ← g3]; simp [Sel.edits, Src.remaining, Edits.append]

theorem foldl_merge1 (l : List (Sel V)) (hl : ∀ o ∈ l, o.Pure) (s : Sel V) (hs : s.Pure) :
    (l.foldl (fun r o => (r.merge1 o).1) s).Pure ∧
    (l.foldl (fun r o => (r.merge1 o).1) s).edits = l.foldl (fun e o => e.append o.edits) s.edits := by
  induction l generalizing s with
  | nil => exact ⟨hs, rfl⟩
  | cons o l ih =>
    have h := merge1_pure s o hs (hl o (by simp))
    have := ih (fun o ho => hl o (by simp [ho])) (s.merge1 o).1 h.1
    simpa [h.2.1] using this

/-- entries of `merge`'s arguments, in order -/
def mergeArgs (others : List (Sel V)) (kw : Option (Sel V)) : List (Sel V) := others ++ kw.toList

theorem merge_eq (s : Sel V) (others : List (Sel V)) (kw : Option (Sel V)) (h : mergeArgs others kw ≠ []) :
    s.merge others kw = .ok ((mergeArgs others kw).foldl (fun r o => (r.merge1 o).1) s) := by
  unfold Sel.merge mergeArgs at *
  cases others <;> cases kw <;> simp_all

/-! ### Scripts that can be run one after the other -/

theorem script_before {a b : Edits V} (h : a.before b) : (a.append b).script = a.script ++ b.script := by
  obtain ⟨r1, m1, n1, p1, a1, q1⟩ := a
  obtain ⟨r2, m2, n2, p2, a2, q2⟩ := b
  have key : ∀ {α β : Type} (E : α → Edit V) (F : β → Edit V) (xs : List α) (ys : List β),
      (∀ x ∈ xs, E x ∈ Edits.script ⟨r1, m1, n1, p1, a1, q1⟩) →
      (∀ y ∈ ys, F y ∈ Edits.script ⟨r2, m2, n2, p2, a2, q2⟩) →
      (∀ x y, (F y).phase < (E x).phase) → ys ≠ [] → xs = [] := by
    intro α β E F xs ys hx hy hp
    cases xs with
    | nil => exact fun _ => rfl
    | cons x xs =>
      cases ys with
      | nil => exact fun h => (h rfl).elim
      | cons y ys =>
        exfalso
        have := h _ (hx x (by simp)) _ (hy y (by simp))
        have := hp x y
        omega
  have M : ∀ x ∈ m1, Edit.maybeRemove x ∈ Edits.script ⟨r1, m1, n1, p1, a1, q1⟩ := by
    intro x hx; simp [Edits.script, hx]
  have N : ∀ x ∈ n1, Edit.rename x.1 x.2 ∈ Edits.script ⟨r1, m1, n1, p1, a1, q1⟩ := by
    intro x hx; simp [Edits.script, hx]
  have P : ∀ x ∈ p1, Edit.maybeRename x.1 x.2 ∈ Edits.script ⟨r1, m1, n1, p1, a1, q1⟩ := by
    intro x hx; simp [Edits.script, hx]
  have A : ∀ x ∈ a1, Edit.add x.1 x.2 ∈ Edits.script ⟨r1, m1, n1, p1, a1, q1⟩ := by
    intro x hx; simp [Edits.script, hx]
  have Q : ∀ x ∈ q1, Edit.maybeAdd x.1 x.2 ∈ Edits.script ⟨r1, m1, n1, p1, a1, q1⟩ := by
    intro x hx; simp [Edits.script, hx]
  have R' : ∀ x ∈ r2, Edit.remove x ∈ Edits.script ⟨r2, m2, n2, p2, a2, q2⟩ := by
    intro x hx; simp [Edits.script, hx]
  have M' : ∀ x ∈ m2, Edit.maybeRemove x ∈ Edits.script ⟨r2, m2, n2, p2, a2, q2⟩ := by
    intro x hx; simp [Edits.script, hx]
  have N' : ∀ x ∈ n2, Edit.rename x.1 x.2 ∈ Edits.script ⟨r2, m2, n2, p2, a2, q2⟩ := by
    intro x hx; simp [Edits.script, hx]
  have P' : ∀ x ∈ p2, Edit.maybeRename x.1 x.2 ∈ Edits.script ⟨r2, m2, n2, p2, a2, q2⟩ := by
    intro x hx; simp [Edits.script, hx]
  have A' : ∀ x ∈ a2, Edit.add x.1 x.2 ∈ Edits.script ⟨r2, m2, n2, p2, a2, q2⟩ := by
    intro x hx; simp [Edits.script, hx]
  have t : ∀ {α β : Type} {E : α → Edit V} {F : β → Edit V} {n m : Nat}, (∀ x, (E x).phase = n) →
      (∀ y, (F y).phase = m) → m < n → ∀ x y, (F y).phase < (E x).phase := by
    intro α β E F n m h1 h2 h3 x y; rw [h1, h2]; exact h3
  by_cases h0 : r2 = []
  · subst h0
    by_cases h1 : m2 = []
    · subst h1
      by_cases h2 : n2 = []
      · subst h2
        by_cases h3 : p2 = []
        · subst h3
          by_cases h4 : a2 = []
          · subst h4; simp [Edits.append, Edits.script]
          · have := key _ _ _ _ Q A' (fun _ _ => by simp [Edit.phase]) h4
            subst this; simp [Edits.append, Edits.script]
        · have e1 := key _ _ _ _ Q P' (fun _ _ => by simp [Edit.phase]) h3
          have e2 := key _ _ _ _ A P' (fun _ _ => by simp [Edit.phase]) h3
          subst e1 e2; simp [Edits.append, Edits.script]
      · have e1 := key _ _ _ _ Q N' (fun _ _ => by simp [Edit.phase]) h2
        have e2 := key _ _ _ _ A N' (fun _ _ => by simp [Edit.phase]) h2
        have e3 := key _ _ _ _ P N' (fun _ _ => by simp [Edit.phase]) h2
        subst e1 e2 e3; simp [Edits.append, Edits.script]
    · have e1 := key _ _ _ _ Q M' (fun _ _ => by simp [Edit.phase]) h1
      have e2 := key _ _ _ _ A M' (fun _ _ => by simp [Edit.phase]) h1
      have e3 := key _ _ _ _ P M' (fun _ _ => by simp [Edit.phase]) h1
      have e4 := key _ _ _ _ N M' (fun _ _ => by simp [Edit.phase]) h1
      subst e1 e2 e3 e4; simp [Edits.append, Edits.script]
  · have e1 := key _ _ _ _ Q R' (fun _ _ => by simp [Edit.phase]) h0
    have e2 := key _ _ _ _ A R' (fun _ _ => by simp [Edit.phase]) h0
    have e3 := key _ _ _ _ P R' (fun _ _ => by simp [Edit.phase]) h0
    have e4 := key _ _ _ _ N R' (fun _ _ => by simp [Edit.phase]) h0
    have e5 := key _ _ _ _ M R' (fun _ _ => by simp [Edit.phase]) h0
    subst e1 e2 e3 e4 e5; simp [Edits.append, Edits.script]

theorem isEmpty_iff_script (e : Edits V) : e.isEmpty = true ↔ e.script = [] := by
  simp [Edits.isEmpty, Edits.script, and_assoc]

/-! ### Counting -/

theorem loop_remove (xs : List String) (m : Dict V) (hm : m.WF) (h : (scriptLoop (xs.map Edit.remove) m).2 = none) :
    (scriptLoop (xs.map Edit.remove) m).1 = m.filter (fun kv => kv.1 ∉ xs) ∧ xs.Nodup ∧ ∀ k ∈ xs, k ∈ m.keys := by
  induction xs generalizing m with
  | nil => exact ⟨(List.filter_eq_self.2 (by simp)).symm, by simp, by simp⟩
  | cons x xs ih =>
    simp only [List.map_cons, scriptLoop, editOne, editRemove] at h ⊢
    cases hx : m.has x with
    | false => simp [hx] at h
    | true =>
      simp only [hx, if_true] at h ⊢
      obtain ⟨h1, h2, h3⟩ := ih (m.erase x) (hm.erase x) h
      refine ⟨?_, ?_, ?_⟩
      · rw [h1, Dict.erase_eq_filter _ hm, List.filter_filter]
        congr 1; funext kv; simp [Bool.and_comm]
      · rw [List.nodup_cons]
        exact ⟨fun hx' => ((Dict.mem_keys_erase _ hm x x).1 (h3 x hx')).1 rfl, h2⟩
      · intro k hk
        rcases List.mem_cons.1 hk with rfl | hk
        · exact (Dict.has_iff _ _).1 hx
        · exact ((Dict.mem_keys_erase _ hm _ _).1 (h3 k hk)).2

theorem loop_maybeRemove (xs : List String) (m : Dict V) (hm : m.WF) :
    scriptLoop (xs.map Edit.maybeRemove) m = (m.filter (fun kv => kv.1 ∉ xs), none) := by
  induction xs generalizing m with
  | nil => simp [scriptLoop]; exact (List.filter_eq_self.2 (by simp)).symm
  | cons x xs ih =>
    simp only [List.map_cons, scriptLoop, editOne, editMaybeRemove]
    rw [ih (m.erase x) (hm.erase x), Dict.erase_eq_filter _ hm, List.filter_filter]
    congr 2; funext kv; simp [Bool.and_comm]

theorem values_erase_perm (m : Dict V) (s : String) (v : V) (h : m.get? s = some v) :
    (m.values).Perm (v :: (m.erase s).values) := by
  induction m with
  | nil => simp at h
  | cons kv m ih =>
    obtain ⟨k, w⟩ := kv
    simp only [Dict.get?_cons, Dict.erase] at h ⊢
    by_cases hk : k = s
    · simp only [hk, if_true] at h ⊢; cases h; exact List.Perm.refl _
    · simp only [hk, if_false] at h ⊢
      exact ((ih h).cons w).trans (List.Perm.swap _ _ _)

/-- what a performed rename does to the dict -/
theorem rename_perm (m : Dict V) (hm : m.WF) (s d : String) (v : V) (h : m.get? s = some v) (hd : d ∉ m.keys) :
    (((m.erase s).set d v).values).Perm m.values := by
  have : d ∉ (m.erase s).keys := fun h' => hd ((Dict.mem_keys_erase _ hm _ _).1 h').2
  rw [Dict.set_of_not_mem _ _ _ this, Dict.values_append]
  exact (List.perm_append_comm.trans (by simpa using (values_erase_perm m s v h).symm))

theorem loop_rename (xs : List (String × String)) (m : Dict V) (hm : m.WF)
    (h : (scriptLoop (xs.map (fun p => Edit.rename p.1 p.2)) m).2 = none) :
    (scriptLoop (xs.map (fun p => Edit.rename p.1 p.2)) m).1.WF ∧
    (scriptLoop (xs.map (fun p => Edit.rename p.1 p.2)) m).1.values.Perm m.values := by
  induction xs generalizing m with
  | nil => exact ⟨hm, List.Perm.refl _⟩
  | cons x xs ih =>
    simp only [List.map_cons, scriptLoop, editOne, editRename] at h ⊢
    cases hx : m.has x.2 with
    | true => simp [hx] at h
    | false =>
      simp only [hx, if_false, Bool.false_eq_true] at h ⊢
      cases hv : m.get? x.1 with
      | none => simp [hv] at h
      | some v =>
        simp only [hv] at h ⊢
        obtain ⟨h1, h2⟩ := ih _ ((hm.erase x.1).set x.2 v) h
        exact ⟨h1, h2.trans (rename_perm m hm _ _ _ hv ((Dict.has_eq_false_iff _ _).1 hx))⟩

theorem loop_maybeRename (xs : List (String × String)) (m : Dict V) (hm : m.WF)
    (h : (scriptLoop (xs.map (fun p => Edit.maybeRename p.1 p.2)) m).2 = none) :
    (scriptLoop (xs.map (fun p => Edit.maybeRename p.1 p.2)) m).1.WF ∧
    (scriptLoop (xs.map (fun p => Edit.maybeRename p.1 p.2)) m).1.values.Perm m.values := by
  induction xs generalizing m with
  | nil => exact ⟨hm, List.Perm.refl _⟩
  | cons x xs ih =>
    simp only [List.map_cons, scriptLoop, editOne, editMaybeRename] at h ⊢
    cases hv : m.get? x.1 with
    | none => simp only [hv] at h ⊢; exact ih m hm h
    | some v =>
      simp only [hv] at h ⊢
      cases hx : m.has x.2 with
      | true => simp [hx] at h
      | false =>
        simp only [hx, if_false, Bool.false_eq_true] at h ⊢
        obtain ⟨h1, h2⟩ := ih _ ((hm.erase x.1).set x.2 v) h
        exact ⟨h1, h2.trans (rename_perm m hm _ _ _ hv ((Dict.has_eq_false_iff _ _).1 hx))⟩

theorem loop_add (xs : List (String × V)) (m : Dict V) (hm : m.WF)
    (h : (scriptLoop (xs.map (fun p => Edit.add p.1 p.2)) m).2 = none) :
    (scriptLoop (xs.map (fun p => Edit.add p.1 p.2)) m).1 = m ++ xs ∧ Dict.WF (m ++ xs) := by
  induction xs generalizing m with
  | nil => simpa [scriptLoop] using hm
  | cons x xs ih =>
    simp only [List.map_cons, scriptLoop, editOne, editAdd] at h ⊢
    cases hx : m.has x.1 with
    | true => simp [hx] at h
    | false =>
      simp only [hx, if_false, Bool.false_eq_true] at h ⊢
      have hn := (Dict.has_eq_false_iff _ _).1 hx
      obtain ⟨h1, h2⟩ := ih _ (hm.set x.1 x.2) h
      rw [Dict.set_of_not_mem _ _ _ hn] at h1 h2
      rw [Dict.set_of_not_mem _ _ _ hn, h1]
      simp only [List.append_assoc, List.singleton_append] at h2 ⊢
      exact ⟨trivial, h2⟩

theorem firstNew_congr (l : List (String × V)) (s t : List String) (h : ∀ k, k ∈ s ↔ k ∈ t) :
    firstNew s l = firstNew t l := by
  induction l generalizing s t with
  | nil => rfl
  | cons x l ih =>
    simp only [firstNew, h]
    split
    · exact ih s t h
    · rw [ih (x.1 :: s) (x.1 :: t) (by simp [h])]

theorem loop_maybeAdd (xs : List (String × V)) (m : Dict V) :
    scriptLoop (xs.map (fun p => Edit.maybeAdd p.1 p.2)) m = (m ++ firstNew m.keys xs, none) := by
  induction xs generalizing m with
  | nil => simp [scriptLoop, firstNew]
  | cons x xs ih =>
    simp only [List.map_cons, scriptLoop, editOne, editMaybeAdd]
    cases hx : m.has x.1 with
    | true =>
      simp only [if_true, firstNew, (Dict.has_iff _ _).1 hx]
      exact ih m
    | false =>
      have hn := (Dict.has_eq_false_iff _ _).1 hx
      simp only [if_false, Bool.false_eq_true, firstNew, hn, ih, Dict.set_of_not_mem _ _ _ hn]
      rw [firstNew_congr xs (Dict.keys (m ++ [(x.1, x.2)])) (x.1 :: Dict.keys m)]
      · simp
      · intro k; simp [or_comm]

/-- the unmentioned part of the dict is untouched, in order -/
theorem one_unmentioned (m m' : Dict V) (hm : m.WF) (e : Edit V) (S : List String)
    (hS : match e with
      | .remove k | .maybeRemove k | .add k _ | .maybeAdd k _ => k ∈ S
      | .rename s d | .maybeRename s d => s ∈ S ∧ d ∈ S)
    (h : editOne m e = .ok m') :
    m'.filter (fun kv => kv.1 ∉ S) = m.filter (fun kv => kv.1 ∉ S) := by
  have er : ∀ (m : Dict V), m.WF → ∀ k ∈ S, (m.erase k).filter (fun kv => kv.1 ∉ S) = m.filter (fun kv => kv.1 ∉ S) := by
    intro m hm k hk
    rw [Dict.erase_eq_filter _ hm, List.filter_filter]
    congr 1; funext kv
    by_cases h : kv.1 = k <;> simp [h, hk]
  have st : ∀ (m : Dict V) (k : String) (v : V), k ∉ m.keys → k ∈ S →
      (m.set k v).filter (fun kv => kv.1 ∉ S) = m.filter (fun kv => kv.1 ∉ S) := by
    intro m k v hn hk
    rw [Dict.set_of_not_mem _ _ _ hn]; simp [hk]
  have rn : ∀ (m : Dict V) (_ : m.WF) (s d : String) (v : V), d ∉ m.keys → s ∈ S → d ∈ S →
      ((m.erase s).set d v).filter (fun kv => kv.1 ∉ S) = m.filter (fun kv => kv.1 ∉ S) := by
    intro m hm s d v hn hs hd
    rw [st _ _ _ (fun h => hn ((Dict.mem_keys_erase _ hm _ _).1 h).2) hd, er m hm s hs]
  cases e with
  | remove k =>
    simp only [editOne, editRemove] at h
    split at h <;> cases h
    exact er m hm k hS
  | maybeRemove k =>
    simp only [editOne, editMaybeRemove] at h; cases h
    exact er m hm k hS
  | rename s d =>
    simp only [editOne, editRename] at h
    cases hx : m.has d with
    | true => simp [hx] at h
    | false =>
      cases hv : m.get? s with
      | none => simp [hx, hv] at h
      | some v =>
        simp only [hx, hv, if_false, Bool.false_eq_true] at h; cases h
        exact rn m hm s d v ((Dict.has_eq_false_iff _ _).1 hx) hS.1 hS.2
  | maybeRename s d =>
    simp only [editOne, editMaybeRename] at h
    cases hv : m.get? s with
    | none => simp only [hv] at h; cases h; rfl
    | some v =>
      cases hx : m.has d with
      | true => simp [hx, hv] at h
      | false =>
        simp only [hx, hv, if_false, Bool.false_eq_true] at h; cases h
        exact rn m hm s d v ((Dict.has_eq_false_iff _ _).1 hx) hS.1 hS.2
  | add k v =>
    simp only [editOne, editAdd] at h
    cases hx : m.has k with
    | true => simp [hx] at h
    | false =>
      simp only [hx, if_false, Bool.false_eq_true] at h; cases h
      exact st m k v ((Dict.has_eq_false_iff _ _).1 hx) hS
  | maybeAdd k v =>
    simp only [editOne, editMaybeAdd] at h
    cases hx : m.has k with
    | true => simp only [hx, if_true] at h; cases h; rfl
    | false =>
      simp only [hx, if_false, Bool.false_eq_true] at h; cases h
      exact st m k v ((Dict.has_eq_false_iff _ _).1 hx) hS

theorem editOne_wf (m m' : Dict V) (hm : m.WF) (e : Edit V) (h : editOne m e = .ok m') : m'.WF := by
  have key : ∀ {α : Type} {f : Dict V → α → Except Exc (Dict V)} {E : α → Edit V}, Sim f E → ∀ x, f m x = .ok m' → m'.WF := by
    intro α f E hs x hf
    have := hs m x hm
    revert this
    cases (E x).apply (Dict.get? m) with
    | error k => intro this; rw [this] at hf; cases hf
    | ok g => intro ⟨m'', h1, h2, _⟩; rw [h1] at hf; cases hf; exact h2
  cases e with
  | remove k => exact key sim_remove k h
  | maybeRemove k => exact key sim_maybeRemove k h
  | rename s d => exact key sim_rename (s, d) h
  | maybeRename s d => exact key sim_maybeRename (s, d) h
  | add k v => exact key sim_add (k, v) h
  | maybeAdd k v => exact key sim_maybeAdd (k, v) h

/-- keys an edit mentions -/
def Edit.keysOf : Edit V → List String
  | .remove k | .maybeRemove k | .add k _ | .maybeAdd k _ => [k]
  | .rename s d | .maybeRename s d => [s, d]

theorem loop_unmentioned (es : List (Edit V)) (S : List String) (hS : ∀ e ∈ es, ∀ k ∈ Edit.keysOf e, k ∈ S)
    (m : Dict V) (hm : m.WF) :
    (scriptLoop es m).1.WF ∧
    (scriptLoop es m).1.filter (fun kv => kv.1 ∉ S) = m.filter (fun kv => kv.1 ∉ S) := by
  induction es generalizing m with
  | nil => exact ⟨hm, rfl⟩
  | cons e es ih =>
    simp only [scriptLoop]
    cases h : editOne m e with
    | error k => exact ⟨hm, rfl⟩
    | ok m' =>
      have h1 := ih (fun e he => hS e (by simp [he])) m' (editOne_wf m m' hm e h)
      refine ⟨h1.1, h1.2.trans (one_unmentioned m m' hm e S ?_ h)⟩
      have := hS e (by simp)
      cases e <;> simpa [Edit.keysOf] using this

theorem mentioned_script (e : Edits V) : ∀ x ∈ e.script, ∀ k ∈ Edit.keysOf x, k ∈ e.mentioned := by
  intro x hx k hk
  simp only [Edits.script, List.mem_append, List.mem_map] at hx
  simp only [Edits.mentioned, List.mem_append, List.mem_map]
  rcases hx with ((((⟨y, hy, rfl⟩ | ⟨y, hy, rfl⟩) | ⟨y, hy, rfl⟩) | ⟨y, hy, rfl⟩) | ⟨y, hy, rfl⟩) | ⟨y, hy, rfl⟩ <;>
    simp only [Edit.keysOf, List.mem_cons, List.not_mem_nil, or_false] at hk
  · subst hk; simp [hy]
  · subst hk; simp [hy]
  · rcases hk with rfl | rfl
    · have : ∃ a ∈ e.rename, a.1 = y.1 := ⟨y, hy, rfl⟩
      simp only [this, true_or, or_true]
    · have : ∃ a ∈ e.rename, a.2 = y.2 := ⟨y, hy, rfl⟩
      simp only [this, true_or, or_true]
  · rcases hk with rfl | rfl
    · have : ∃ a ∈ e.maybeRename, a.1 = y.1 := ⟨y, hy, rfl⟩
      simp only [this, true_or, or_true]
    · have : ∃ a ∈ e.maybeRename, a.2 = y.2 := ⟨y, hy, rfl⟩
      simp only [this, true_or, or_true]
  · subst hk; have : ∃ a ∈ e.add, a.1 = y.1 := ⟨y, hy, rfl⟩
    simp only [this, true_or, or_true]
  · subst hk; have : ∃ a ∈ e.maybeAdd, a.1 = y.1 := ⟨y, hy, rfl⟩
    simp only [this, or_true]

theorem loop_none_append {a b : List (Edit V)} {m : Dict V} (h : (scriptLoop (a ++ b) m).2 = none) :
    (scriptLoop a m).2 = none ∧ scriptLoop (a ++ b) m = scriptLoop b (scriptLoop a m).1 := by
  rw [scriptLoop_append] at h ⊢
  cases h' : (scriptLoop a m).2 with
  | some e => simp [h'] at h
  | none => exact ⟨rfl, rfl⟩

theorem script_count (e : Edits V) (m : Dict V) (hm : m.WF) (h : (scriptLoop e.script m).2 = none) :
    ∃ d0, scriptLoop ({ e with maybeAdd := [] } : Edits V).script m = (d0, none) ∧
      (scriptLoop e.script m).1 = d0 ++ firstNew d0.keys e.maybeAdd ∧
      d0.values.Perm (Dict.values (m.filter fun kv => kv.1 ∉ e.remove ∧ kv.1 ∉ e.maybeRemove) ++ Dict.values e.add) ∧
      e.remove.Nodup ∧ (∀ k ∈ e.remove, k ∈ m.keys) := by
  have hs : e.script = ({ e with maybeAdd := [] } : Edits V).script ++ e.maybeAdd.map (fun p => .maybeAdd p.1 p.2) := by
    simp [Edits.script]
  rw [hs] at h ⊢
  obtain ⟨h5, hx⟩ := loop_none_append h
  rw [hx, loop_maybeAdd]
  refine ⟨_, Prod.ext rfl h5, rfl, ?_⟩
  have hs2 : ({ e with maybeAdd := [] } : Edits V).script =
    (((e.remove.map Edit.remove ++ e.maybeRemove.map Edit.maybeRemove) ++ e.rename.map (fun p => .rename p.1 p.2)) ++
    e.maybeRename.map (fun p => .maybeRename p.1 p.2)) ++ e.add.map (fun p => .add p.1 p.2) := by
    simp [Edits.script]
  rw [hs2] at h5 ⊢
  obtain ⟨h4, e5⟩ := loop_none_append h5
  rw [e5] at h5 ⊢
  obtain ⟨h3, e4⟩ := loop_none_append h4
  rw [e4] at h4 h5 ⊢
  obtain ⟨h2, e3⟩ := loop_none_append h3
  rw [e3] at h3 h4 h5 ⊢
  obtain ⟨h1, e2⟩ := loop_none_append h2
  rw [e2] at h2 h3 h4 h5 ⊢
  obtain ⟨f1, f2, f3⟩ := loop_remove _ m hm h1
  refine ⟨?_, f2, f3⟩
  rw [f1] at h2 h3 h4 h5 ⊢
  have w1 : Dict.WF (m.filter fun kv => kv.1 ∉ e.remove) :=
    List.Nodup.sublist (List.Sublist.map _ (List.filter_sublist)) hm
  rw [loop_maybeRemove _ _ w1] at h3 h4 h5 ⊢
  simp only at h3 h4 h5 ⊢
  rw [List.filter_filter] at h3 h4 h5 ⊢
  have w2 : Dict.WF (m.filter fun kv => decide (kv.1 ∉ e.maybeRemove) && decide (kv.1 ∉ e.remove)) :=
    List.Nodup.sublist (List.Sublist.map _ (List.filter_sublist)) hm
  obtain ⟨w3, p3⟩ := loop_rename _ _ w2 h3
  obtain ⟨w4, p4⟩ := loop_maybeRename _ _ w3 h4
  obtain ⟨e6, w5⟩ := loop_add _ _ w4 h5
  refine (List.Perm.of_eq (congrArg Dict.values e6)).trans ?_
  rw [Dict.values_append]
  refine List.Perm.append_right _ (p4.trans (p3.trans ?_))
  have : (fun kv : String × V => decide (kv.1 ∉ e.maybeRemove) && decide (kv.1 ∉ e.remove)) =
    (fun kv => decide (kv.1 ∉ e.remove ∧ kv.1 ∉ e.maybeRemove)) := by
    funext kv; simp [Bool.and_comm]
  rw [this]

end Records
