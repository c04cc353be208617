import Verif.Spec.Special
import Verif.Proofs.Program
/- Lemmas on the special methods of record classes. -/
namespace Records
open Spec
variable {W : World}

theorem update_lastDef (d : Dict (Meth W)) (l : List (String × Meth W)) (k : String) :
    (Dict.update d l).get? k = match lastDef l k with | some m => some m | none => d.get? k := by
  induction l generalizing d with
  | nil => rfl
  | cons a l ih =>
    rw [Dict.update_cons, ih]
    unfold lastDef
    rw [List.reverse_cons, List.find?_append]
    cases hf : l.reverse.find? (fun d => decide (d.1 = k)) with
    | some b => rfl
    | none =>
      rw [Dict.get?_set]
      simp only [Option.none_or]
      by_cases h : a.1 = k
      · subst h; simp
      · have h' : ¬ k = a.1 := fun e => h e.symm
        simp [h, h']

theorem lastDef_some {l : List (String × Meth W)} {k : String} {m : Meth W} (h : lastDef l k = some m) : (k, m) ∈ l := by
  unfold lastDef at h
  split at h
  · next d hd =>
    cases h
    have h1 := List.mem_of_find?_eq_some hd
    have h2 := List.find?_some hd
    simp only [decide_eq_true_eq] at h2
    rw [← h2]
    exact List.mem_reverse.1 h1
  · cases h

theorem lastDef_none {l : List (String × Meth W)} {k : String} (h : lastDef l k = none) : ¬ Defines l k := by
  rintro ⟨m, hm⟩
  unfold lastDef at h
  split at h
  · cases h
  · next hd =>
    have := List.find?_eq_none.1 hd (k, m) (List.mem_reverse.2 hm)
    simp at this

theorem bodyDict_get? {body : List (String × Meth W)} {n : String} (hn : n ≠ "__hash__") : (bodyDict body).get? n = lastDef body n := by
  have hu : (Dict.update [] body).get? n = lastDef body n := by
    rw [update_lastDef]
    cases lastDef body n <;> rfl
  unfold bodyDict
  simp only
  split
  · rw [Dict.get?_set, if_neg hn, hu]
  · exact hu

theorem special_init (E : PyEnv W) (B : Bodies W) (c : PyClass W) : (special E B c).get? "__init__" = ownInit E B c := by
  unfold special ownInit
  split
  · rfl
  split
  · rfl
  split
  · exact bodyDict_get? (by decide)
  · split
    all_goals rw [Dict.get?_set, if_neg (by decide), Dict.get?_set, if_neg (by decide)]; exact bodyDict_get? (by decide)

theorem lookup_init {E : PyEnv W} {B : Bodies W} {tbl : List (PyClass W)} (ht : Table E tbl) {c : PyClass W} (hc : c ∈ tbl) (m : Meth W) :
    lookupSpecial E B tbl "__init__" c.cid = some m ↔ HasInit E B tbl c m := by
  unfold lookupSpecial HasInit
  rw [findClass_of_mem ht.nodup hc]
  simp only [special_init]
  exact firstOf_some ht.nodup

/-- of two elements in this order, the first comes before the second -/
theorem before_of_sublist {α : Type} {a b : α} {pre post : List α} (h : [a, b].Sublist (pre ++ b :: post))
    (hn : (pre ++ b :: post).Nodup) : a ∈ pre := by
  induction pre with
  | nil =>
    rw [List.nil_append] at h hn
    have hb : b ∉ post := (List.nodup_cons.1 hn).1
    cases h with
    | cons _ h => exact absurd (h.subset (by simp)) hb
    | cons_cons _ h => exact absurd (h.subset (by simp)) hb
  | cons x pre ih =>
    rw [List.cons_append] at h hn
    cases h with
    | cons _ h => exact List.mem_cons_of_mem _ (ih h (List.nodup_cons.1 hn).2)
    | cons_cons _ h => exact List.mem_cons_self

theorem record_in {E : PyEnv W} {tbl : List (PyClass W)} (ht : Table E tbl) : E.recordClass ∈ tbl ∧ E.objectClass ∈ tbl := by
  obtain ⟨r, rfl⟩ := ht.start
  exact ⟨by simp, by simp⟩

/-- the initializer is unique -/
theorem init_unique {E : PyEnv W} {tbl : List (PyClass W)} (ht : Table E tbl) {B : Bodies W} {c : PyClass W} {m m' : Meth W}
    (h : HasInit E B tbl c m) (h' : HasInit E B tbl c m') : m = m' := by
  have := (firstOf_some ht.nodup).2 h
  rw [(firstOf_some ht.nodup).2 h'] at this
  cases this
  rfl

/-- `object` is a superclass of every class -/
theorem object_in {E : PyEnv W} {tbl : List (PyClass W)} (h : Reach E tbl) : ∀ c ∈ tbl, E.object ∈ c.mro := by
  induction h with
  | init =>
    intro c hc
    rcases List.mem_cons.1 hc with rfl | hc
    · exact List.mem_singleton.2 rfl
    · rw [List.mem_singleton.1 hc]
      exact List.mem_cons_of_mem _ (List.mem_singleton.2 rfl)
  | stmt tbl st c hr hf hb _ hnew ih =>
    intro k hk
    rcases List.mem_append.1 hk with hk | hk
    · exact ih k hk
    · rw [List.mem_singleton.1 hk]
      obtain ⟨l, hl, -, hbases, hmro, -⟩ := newClass_ok hnew
      rw [hmro]
      refine List.mem_cons_of_mem _ ?_
      have ht := hr.table
      have hex : ∃ kb ∈ tbl, kb.cid ∈ c.bases := by
        rw [hbases]
        cases hs : st.bases with
        | nil => exact ⟨_, (record_in ht).2, List.mem_singleton.2 rfl⟩
        | cons b bs =>
          obtain ⟨kb, hkb, he⟩ := hb b (by rw [hs]; exact List.mem_cons_self)
          exact ⟨kb, hkb, by rw [he]; exact List.mem_cons_self⟩
      obtain ⟨kb, hkb, hbm⟩ := hex
      have := (c3_sound hl).2.1 _ (List.mem_append_left _ (List.mem_map.2 ⟨kb.cid, hbm, rfl⟩))
      rw [findClass_of_mem ht.nodup hkb] at this
      exact this.subset (ih kb hkb)

theorem init_any {E : PyEnv W} {tbl : List (PyClass W)} (hr : Reach E tbl) (B : Bodies W) {c : PyClass W} (hc : c ∈ tbl) :
    ∃ m, HasInit E B tbl c m := by
  have ht := hr.table
  cases h : firstOf tbl (ownInit E B) c.mro with
  | some m => exact ⟨m, (firstOf_some ht.nodup).1 h⟩
  | none =>
    have := (firstOf_none ht.nodup).1 h _ (object_in hr c hc) E.objectClass (record_in ht).2 rfl
    unfold ownInit at this
    have he : E.objectClass.cid = E.object := rfl
    rw [if_pos he] at this
    cases this

theorem has_lastDef {body : List (String × Meth W)} {n : String} :
    (Dict.update [] body).has n = true ↔ Defines body n := by
  unfold Dict.has
  have hu : (Dict.update [] body).get? n = lastDef body n := by
    rw [update_lastDef]
    cases lastDef body n <;> rfl
  rw [hu]
  cases h : lastDef body n with
  | some m => exact ⟨fun _ => ⟨m, lastDef_some h⟩, fun _ => rfl⟩
  | none => exact ⟨nofun, fun hd => absurd hd (lastDef_none h)⟩

theorem has_bodyDict {body : List (String × Meth W)} {n : String} :
    (bodyDict body).has n = true ↔ Defines body n ∨ n = "__hash__" ∧ Defines body "__eq__" := by
  by_cases hn : n = "__hash__"
  · subst hn
    rw [show bodyDict body = (if ((Dict.update [] body).has "__eq__" && !(Dict.update [] body).has "__hash__") = true
      then (Dict.update [] body).set "__hash__" .absent else Dict.update [] body) from rfl]
    split
    · next h =>
      simp only [Bool.and_eq_true] at h
      refine ⟨fun _ => .inr ⟨rfl, has_lastDef.1 h.1⟩, fun _ => ?_⟩
      unfold Dict.has
      rw [Dict.get?_set, if_pos rfl]
      rfl
    · next h =>
      rw [has_lastDef]
      refine ⟨.inl, ?_⟩
      rintro (h' | ⟨_, h'⟩)
      · exact h'
      · refine Classical.byContradiction fun hno => h ?_
        rw [Bool.and_eq_true]
        refine ⟨has_lastDef.2 h', ?_⟩
        cases hh : (Dict.update [] body).has "__hash__" with
        | false => rfl
        | true => exact absurd (has_lastDef.1 hh) hno
  · have : (bodyDict body).has n = (Dict.update [] body).has n := by
      unfold Dict.has
      rw [bodyDict_get? hn, update_lastDef]
      cases lastDef body n <;> rfl
    rw [this, has_lastDef]
    exact ⟨.inl, fun h => h.elim id fun h => absurd h.1 hn⟩

end Records
