import Verif.Model.Program
import Verif.Spec.Class
import Verif.Proofs.ClassMore
/-
Lemmas on programs: soundness of the C3 merge and the invariants of class tables.
-/
namespace Records

section
variable {α : Type} [DecidableEq α]

theorem c3Head_some {all l : List (List α)} {x : α} (h : c3Head all l = some x) :
    (∃ t, (x :: t) ∈ l) ∧ ∀ s ∈ all, x ∉ s.tail := by
  induction l with
  | nil => cases h
  | cons s l ih =>
    cases s with
    | nil =>
      obtain ⟨⟨t, ht⟩, h2⟩ := ih h
      exact ⟨⟨t, List.mem_cons_of_mem _ ht⟩, h2⟩
    | cons y t =>
      unfold c3Head at h
      split at h
      · obtain ⟨⟨t, ht⟩, h2⟩ := ih h
        exact ⟨⟨t, List.mem_cons_of_mem _ ht⟩, h2⟩
      · next hn =>
        cases h
        refine ⟨⟨t, List.mem_cons_self⟩, fun s hs hx => hn ?_⟩
        exact List.any_eq_true.2 ⟨s, hs, by simpa using hx⟩

theorem c3Merge_sound {n : Nat} {ls : List (List α)} {r : List α} (h : c3Merge n ls = some r) :
    r.Nodup ∧ (∀ s ∈ ls, s.Sublist r) ∧ (∀ y ∈ r, ∃ s ∈ ls, y ∈ s) := by
  have hemp : ∀ ls : List (List α), ls.all (·.isEmpty) = true → ∀ s ∈ ls, s.Sublist ([] : List α) := by
    intro ls h s hs
    have := List.all_eq_true.1 h s hs
    rw [List.isEmpty_iff.1 this]
    exact List.Sublist.refl _
  induction n generalizing ls r with
  | zero =>
    unfold c3Merge at h
    split at h
    · next he => cases h; exact ⟨List.nodup_nil, hemp ls he, nofun⟩
    · cases h
  | succ n ih =>
    unfold c3Merge at h
    split at h
    · next he => cases h; exact ⟨List.nodup_nil, hemp ls he, nofun⟩
    · split at h
      · cases h
      · next x hx =>
        obtain ⟨⟨t, ht⟩, hno⟩ := c3Head_some hx
        cases hm : c3Merge n (c3Drop x ls) with
        | none => simp [hm] at h
        | some r' =>
          simp only [hm, Option.map_some, Option.some.injEq] at h
          subst h
          obtain ⟨h1, h2, h3⟩ := ih hm
          have hmem : ∀ s' ∈ c3Drop x ls, ∃ s ∈ ls, (∀ y ∈ s', y ∈ s) ∧ x ∉ s' := by
            intro s' hs'
            obtain ⟨s, hs, rfl⟩ := List.mem_map.1 hs'
            refine ⟨s, hs, ?_⟩
            cases s with
            | nil => simp
            | cons y t =>
              have := hno _ hs
              simp only [List.tail_cons] at this
              dsimp only
              split
              · exact ⟨fun z hz => List.mem_cons_of_mem _ hz, this⟩
              · next hne => exact ⟨fun z hz => hz, by simp [this, Ne.symm hne]⟩
          refine ⟨List.nodup_cons.2 ⟨?_, h1⟩, ?_, ?_⟩
          · intro hx'
            obtain ⟨s', hs', hxs⟩ := h3 x hx'
            obtain ⟨_, _, _, hn⟩ := hmem s' hs'
            exact hn hxs
          · intro s hs
            have hd := h2 _ (List.mem_map.2 ⟨s, hs, rfl⟩)
            cases s with
            | nil => exact List.nil_sublist _
            | cons y t =>
              dsimp only at hd
              split at hd
              · next he => subst he; exact hd.cons_cons _
              · exact hd.cons _
          · intro y hy
            rcases List.mem_cons.1 hy with rfl | hy
            · exact ⟨_, ht, List.mem_cons_self⟩
            · obtain ⟨s', hs', hys⟩ := h3 y hy
              obtain ⟨s, hs, hsub, _⟩ := hmem s' hs'
              exact ⟨s, hs, hsub y hys⟩

theorem c3Head_none {all ls : List (List α)} (h : c3Head all ls = none) : ∀ x t, x :: t ∈ ls → ∃ s ∈ all, x ∈ s.tail := by
  induction ls with
  | nil => intro x t hm; cases hm
  | cons s l ih =>
    intro x t hm
    cases s with
    | nil =>
      rcases List.mem_cons.1 hm with h1 | h1
      · cases h1
      · exact ih h x t h1
    | cons y u =>
      unfold c3Head at h
      split at h
      · next hy =>
        rcases List.mem_cons.1 hm with h1 | h1
        · cases h1
          obtain ⟨s, hs, hx⟩ := List.any_eq_true.1 hy
          exact ⟨s, hs, by simpa using hx⟩
        · exact ih h x t h1
      · cases h

/-- merging succeeds if any order keeps the order of all lists -/
theorem c3Merge_complete {n : Nat} {ls : List (List α)} (hn : (ls.map List.length).sum ≤ n) {r : List α} (hr : r.Nodup)
    (hs : ∀ s ∈ ls, s.Sublist r) : ∃ r', c3Merge n ls = some r' := by
  have hlen : ∀ (ls : List (List α)), (ls.map List.length).sum = 0 → ls.all (·.isEmpty) = true := by
    intro ls h
    induction ls with
    | nil => rfl
    | cons s l ih =>
      simp only [List.map_cons, List.sum_cons] at h
      have h1 : s.length = 0 := by omega
      rw [List.all_cons, ih (by omega)]
      cases s <;> simp_all
  induction n generalizing ls with
  | zero => exact ⟨[], by unfold c3Merge; rw [if_pos (hlen ls (by omega))]⟩
  | succ n ih =>
    unfold c3Merge
    by_cases he : ls.all (·.isEmpty) = true
    · exact ⟨[], by rw [if_pos he]⟩
    · rw [if_neg he]
      cases hh : c3Head ls ls with
      | none =>
        exfalso
        -- the head of some list that comes first in `r`
        have key : ∀ r' : List α, (∀ s ∈ ls, s.Sublist r') → r'.Nodup → ls.all (·.isEmpty) = true := by
          intro r'
          induction r' with
          | nil =>
            intro h _
            rw [List.all_eq_true]
            intro s hm
            have := List.sublist_nil.1 (h s hm)
            simp [this]
          | cons x r' ih' =>
            intro h hnd
            by_cases hx : ∃ t, x :: t ∈ ls
            · obtain ⟨t, ht⟩ := hx
              obtain ⟨s, hsm, hxs⟩ := c3Head_none hh x t ht
              have hsub := h s hsm
              cases s with
              | nil => cases hxs
              | cons y u =>
                simp only [List.tail_cons] at hxs
                cases hsub with
                | cons _ h1 => exact absurd (h1.subset (List.mem_cons_of_mem _ hxs)) (List.nodup_cons.1 hnd).1
                | cons_cons _ h1 => exact absurd (h1.subset hxs) (List.nodup_cons.1 hnd).1
            · refine ih' (fun s hsm => ?_) (List.nodup_cons.1 hnd).2
              have hsub := h s hsm
              cases hsub with
              | cons _ h1 => exact h1
              | cons_cons _ h1 => exact absurd ⟨_, hsm⟩ hx
        exact he (key r hs hr)
      | some x =>
        obtain ⟨⟨t, ht⟩, -⟩ := c3Head_some hh
        have hlt : ∀ l : List (List α), ((c3Drop x l).map List.length).sum ≤ (l.map List.length).sum ∧
            (x :: t ∈ l → ((c3Drop x l).map List.length).sum < (l.map List.length).sum) := by
          intro l
          induction l with
          | nil => exact ⟨Nat.le_refl _, nofun⟩
          | cons s l ih1 =>
            obtain ⟨i1, i2⟩ := ih1
            simp only [c3Drop] at i1 i2
            cases s with
            | nil =>
              simp only [c3Drop, List.map_cons, List.sum_cons, List.length_nil]
              refine ⟨by omega, fun hm => ?_⟩
              rcases List.mem_cons.1 hm with h1 | h1
              · cases h1
              · have := i2 h1; omega
            | cons y u =>
              by_cases hy : y = x
              · simp only [c3Drop, List.map_cons, List.sum_cons, hy, if_true, List.length_cons]
                exact ⟨by omega, fun _ => by omega⟩
              · simp only [c3Drop, List.map_cons, List.sum_cons, hy, if_false, List.length_cons]
                refine ⟨by omega, fun hm => ?_⟩
                rcases List.mem_cons.1 hm with h1 | h1
                · cases h1; exact absurd rfl hy
                · have := i2 h1; omega
        obtain ⟨r', hr'⟩ := ih (ls := c3Drop x ls) (by have := (hlt ls).2 ht; omega) (fun s' hs' => by
          obtain ⟨s, hsm, rfl⟩ := List.mem_map.1 hs'
          have hsub := hs s hsm
          cases s with
          | nil => exact List.nil_sublist _
          | cons y u =>
            dsimp only
            split
            · exact (List.sublist_cons_self _ _).trans hsub
            · exact hsub)
        exact ⟨x :: r', by simp [hr']⟩

theorem c3_complete {ls : List (List α)} {r : List α} (hr : r.Nodup) (hs : ∀ s ∈ ls, s.Sublist r) : ∃ r', c3 ls = some r' :=
  c3Merge_complete (Nat.le_refl _) hr hs

/-- the merged order has every element once, keeps the order of each of the lists, and adds nothing -/
theorem c3_sound {ls : List (List α)} {r : List α} (h : c3 ls = some r) :
    r.Nodup ∧ (∀ s ∈ ls, s.Sublist r) ∧ (∀ y ∈ r, ∃ s ∈ ls, y ∈ s) := c3Merge_sound h

end

variable {W : World}

/-! ### Lookup in tables -/

theorem findClass_some {tbl : List (PyClass W)} {c : W.Cls} {k : PyClass W} (h : findClass tbl c = some k) :
    k ∈ tbl ∧ k.cid = c := by
  unfold findClass at h
  exact ⟨List.mem_of_find?_eq_some h, by simpa using List.find?_some h⟩

theorem findClass_of_mem {tbl : List (PyClass W)} (hn : (tbl.map (·.cid)).Nodup) {k : PyClass W} (hk : k ∈ tbl) :
    findClass tbl k.cid = some k := by
  induction tbl with
  | nil => cases hk
  | cons a tbl ih =>
    rw [List.map_cons, List.nodup_cons] at hn
    unfold findClass
    rcases List.mem_cons.1 hk with rfl | hk
    · simp
    · have : a.cid ≠ k.cid := fun e => hn.1 (e ▸ List.mem_map.2 ⟨k, hk, rfl⟩)
      rw [List.find?_cons_of_neg (by simpa using this)]
      exact ih hn.2 hk

theorem findClass_none {tbl : List (PyClass W)} {c : W.Cls} (h : ∀ k ∈ tbl, k.cid ≠ c) : findClass tbl c = none :=
  List.find?_eq_none.2 fun k hk => by simpa using h k hk

/-- every class object in the table with this identity is the one found -/
theorem mem_unique {tbl : List (PyClass W)} (hn : (tbl.map (·.cid)).Nodup) {k k' : PyClass W} (hk : k ∈ tbl) (hk' : k' ∈ tbl)
    (he : k.cid = k'.cid) : k = k' := by
  have h1 := findClass_of_mem hn hk
  rw [he, findClass_of_mem hn hk'] at h1
  cases h1; rfl

theorem findClass_append {tbl : List (PyClass W)} {c : W.Cls} (h : ∃ k ∈ tbl, k.cid = c) (l : List (PyClass W)) :
    findClass (tbl ++ l) c = findClass tbl c := by
  unfold findClass
  rw [List.find?_append]
  obtain ⟨k, hk, he⟩ := h
  cases hf : List.find? (fun k => decide (k.cid = c)) tbl with
  | some _ => rfl
  | none => exact absurd he (by simpa using List.find?_eq_none.1 hf k hk)

theorem firstOf_append {β : Type} {tbl : List (PyClass W)} {g : PyClass W → Option β} {m : List W.Cls}
    (h : ∀ c ∈ m, ∃ k ∈ tbl, k.cid = c) (l : List (PyClass W)) : firstOf (tbl ++ l) g m = firstOf tbl g m := by
  induction m with
  | nil => rfl
  | cons c m ih =>
    unfold firstOf
    rw [findClass_append (h c List.mem_cons_self), ih fun d hd => h d (List.mem_cons_of_mem _ hd)]

theorem firstOf_some {β : Type} {tbl : List (PyClass W)} (hn : (tbl.map (·.cid)).Nodup) {g : PyClass W → Option β} {m : List W.Cls}
    {b : β} : firstOf tbl g m = some b ↔ ∃ pre d post, m = pre ++ d :: post ∧ (∃ k ∈ tbl, k.cid = d ∧ g k = some b) ∧
      ∀ e ∈ pre, ∀ k ∈ tbl, k.cid = e → g k = none := by
  induction m with
  | nil => simp [firstOf]
  | cons c m ih =>
    unfold firstOf
    cases hf : (findClass tbl c).bind g with
    | some b' =>
      obtain ⟨k, hk, hg⟩ := Option.bind_eq_some_iff.1 hf
      obtain ⟨hm, he⟩ := findClass_some hk
      simp only [Option.some.injEq]
      constructor
      · rintro rfl
        exact ⟨[], c, m, rfl, ⟨k, hm, he, hg⟩, nofun⟩
      · rintro ⟨pre, d, post, hs, ⟨k', hk', he', hg'⟩, hpre⟩
        cases pre with
        | nil =>
          simp only [List.nil_append, List.cons.injEq] at hs
          obtain ⟨rfl, rfl⟩ := hs
          have := mem_unique hn hm hk' (he.trans he'.symm)
          subst this
          rw [hg] at hg'; cases hg'; rfl
        | cons p pre =>
          simp only [List.cons_append, List.cons.injEq] at hs
          obtain ⟨rfl, -⟩ := hs
          have := hpre c List.mem_cons_self k hm he
          rw [hg] at this; cases this
    | none =>
      simp only
      have hc : ∀ k ∈ tbl, k.cid = c → g k = none := by
        intro k hk he
        have := findClass_of_mem hn hk
        rw [he] at this
        rw [this] at hf
        exact hf
      rw [ih]
      constructor
      · rintro ⟨pre, d, post, rfl, hk, hpre⟩
        refine ⟨c :: pre, d, post, rfl, hk, fun e he => ?_⟩
        rcases List.mem_cons.1 he with rfl | he
        · exact hc
        · exact hpre e he
      · rintro ⟨pre, d, post, hs, hk, hpre⟩
        cases pre with
        | nil =>
          simp only [List.nil_append, List.cons.injEq] at hs
          obtain ⟨rfl, rfl⟩ := hs
          obtain ⟨k, hk, he, hg⟩ := hk
          rw [hc k hk he] at hg; cases hg
        | cons p pre =>
          simp only [List.cons_append, List.cons.injEq] at hs
          obtain ⟨rfl, rfl⟩ := hs
          exact ⟨pre, d, post, rfl, hk, fun e he => hpre e (List.mem_cons_of_mem _ he)⟩

theorem firstOf_none {β : Type} {tbl : List (PyClass W)} (hn : (tbl.map (·.cid)).Nodup) {g : PyClass W → Option β} {m : List W.Cls} :
    firstOf tbl g m = none ↔ ∀ d ∈ m, ∀ k ∈ tbl, k.cid = d → g k = none := by
  induction m with
  | nil => simp [firstOf]
  | cons c m ih =>
    unfold firstOf
    cases hf : (findClass tbl c).bind g with
    | some b' =>
      obtain ⟨k, hk, hg⟩ := Option.bind_eq_some_iff.1 hf
      obtain ⟨hm, he⟩ := findClass_some hk
      refine ⟨nofun, fun h => ?_⟩
      rw [h c List.mem_cons_self k hm he] at hg; cases hg
    | none =>
      have hc : ∀ k ∈ tbl, k.cid = c → g k = none := by
        intro k hk he
        have := findClass_of_mem hn hk
        rw [he] at this
        rw [this] at hf
        exact hf
      simp only [List.mem_cons]
      rw [ih]
      constructor
      · rintro h d (rfl | hd)
        · exact hc
        · exact h d hd
      · exact fun h d hd => h d (.inr hd)

/-! ### Sorted names -/

theorem mem_insertSorted {n m : String} {l : List String} : m ∈ insertSorted n l ↔ m = n ∨ m ∈ l := by
  induction l with
  | nil => simp [insertSorted]
  | cons a l ih =>
    unfold insertSorted
    split
    · simp
    · simp only [List.mem_cons, ih]
      exact or_left_comm

theorem insertSorted_sorted {n : String} {l : List String} (h : l.Pairwise (· < ·)) (hn : n ∉ l) :
    (insertSorted n l).Pairwise (· < ·) := by
  induction l with
  | nil => simp [insertSorted]
  | cons a l ih =>
    rw [List.pairwise_cons] at h
    simp only [List.mem_cons, not_or] at hn
    unfold insertSorted
    split
    · next hlt =>
      refine List.pairwise_cons.2 ⟨fun b hb => ?_, List.pairwise_cons.2 h⟩
      rcases List.mem_cons.1 hb with rfl | hb
      · exact hlt
      · exact String.lt_trans hlt (h.1 b hb)
    · next hge =>
      refine List.pairwise_cons.2 ⟨fun b hb => ?_, ih h.2 hn.2⟩
      rcases mem_insertSorted.1 hb with rfl | hb
      · by_cases h' : a < b
        · exact h'
        · exact absurd (String.le_antisymm (String.not_lt.1 h') (String.not_lt.1 hge)) hn.1
      · exact h.1 b hb

theorem sortNames_spec (l : List String) : (sortNames l).Pairwise (· < ·) ∧ ∀ n, n ∈ sortNames l ↔ n ∈ l := by
  induction l with
  | nil => simp [sortNames]
  | cons a l ih =>
    have he : sortNames (a :: l) = if a ∈ sortNames l then sortNames l else insertSorted a (sortNames l) := rfl
    rw [he]
    split
    · next h =>
      refine ⟨ih.1, fun n => ?_⟩
      rw [ih.2 n, List.mem_cons]
      constructor
      · exact .inr
      · rintro (rfl | h')
        · exact (ih.2 _).1 h
        · exact h'
    · next h =>
      refine ⟨insertSorted_sorted ih.1 h, fun n => ?_⟩
      rw [mem_insertSorted, ih.2 n, List.mem_cons]

/-! ### Invariants of class tables -/

/-- What holds of the class table of every program. -/
structure Table (E : PyEnv W) (tbl : List (PyClass W)) : Prop where
  start : ∃ rest, tbl = E.objectClass :: E.recordClass :: rest
  nodup : (tbl.map (·.cid)).Nodup
  head : ∀ c ∈ tbl, ∃ l, c.mro = c.cid :: l
  known : ∀ c ∈ tbl, ∀ d ∈ c.mro, ∃ k ∈ tbl, k.cid = d
  once : ∀ c ∈ tbl, c.mro.Nodup
  trans : ∀ c ∈ tbl, ∀ k ∈ tbl, k.cid ∈ c.mro → k.mro.Sublist c.mro
  recd : ∀ c ∈ tbl, c.rcd.isSome = true ↔ E.recordBase ∈ c.mro ∧ c.cid ≠ E.recordBase
  creatable : ∀ c ∈ tbl, ∀ C, c.rcd = some C → Creatable C
  cid : ∀ c ∈ tbl, ∀ C, c.rcd = some C → C.cid = c.cid
  owners : ∀ c ∈ tbl, ∀ C, c.rcd = some C → ∀ kf ∈ C.fields, ∃ k ∈ tbl, k.cid = kf.2.owner
  desc : ∀ c ∈ tbl, ∀ k ∈ tbl, ∀ C D, c.rcd = some C → k.rcd = some D → k.cid ∈ c.mro → Desc D C

/-- what a class statement that succeeds makes -/
theorem newClass_ok {E : PyEnv W} {tbl : List (PyClass W)} {st : PyStmt W} {c : PyClass W} (h : newClass E tbl st = .ok c) :
    ∃ l, c3 ((c.bases.map fun b => match findClass tbl b with | some k => k.mro | none => []) ++ [c.bases]) = some l ∧
      c.cid = st.cid ∧ c.bases = (if st.bases.isEmpty then [E.object] else st.bases) ∧ c.mro = st.cid :: l ∧
      c.anns = Dict.keys (Dict.update [] st.anns) ∧ c.pre = st.pre ∧ c.postNew = st.postNew ∧ c.truthy = st.truthy ∧
      ((E.recordBase ∈ l ∧ ∃ C, mkClass (st.spec E tbl c.bases l) = .ok C ∧ c.rcd = some C ∧ c.dict = st.ownDict E) ∨
       (E.recordBase ∉ l ∧ c.rcd = none ∧ c.dict = Dict.update [] st.attrs)) := by
  unfold newClass at h
  generalize hb : (if st.bases.isEmpty then [E.object] else st.bases) = bases at h
  simp only at h
  split at h
  · cases h
  · next l hl =>
    split at h
    · next hr =>
      split at h
      · cases h
      · next C hC =>
        cases h
        exact ⟨l, hl, rfl, rfl, rfl, rfl, rfl, rfl, rfl, .inl ⟨hr, C, hC, rfl, rfl⟩⟩
    · next hr =>
      cases h
      exact ⟨l, hl, rfl, rfl, rfl, rfl, rfl, rfl, rfl, .inr ⟨hr, rfl, rfl⟩⟩

theorem spec_ok {E : PyEnv W} {tbl : List (PyClass W)} (ht : Table E tbl) {st : PyStmt W} (hf : ∀ k ∈ tbl, k.cid ≠ st.cid)
    (bases l : List W.Cls) : (st.spec E tbl bases l).OK ∧ ∀ p ∈ (st.spec E tbl bases l).parents, Creatable p := by
  have hp : ∀ p ∈ (st.spec E tbl bases l).parents, ∃ k ∈ tbl, k.rcd = some p := by
    intro p hp
    obtain ⟨b, -, hb⟩ := List.mem_filterMap.1 hp
    obtain ⟨k, hk, hr⟩ := Option.bind_eq_some_iff.1 hb
    exact ⟨k, (findClass_some hk).1, hr⟩
  refine ⟨⟨?_, ?_, ?_⟩, ?_⟩
  · exact Dict.WF.update (d := []) List.nodup_nil st.anns
  · exact Dict.WF.update (d := []) List.nodup_nil _
  · intro p hpm kf hkf he
    obtain ⟨k, hk, hr⟩ := hp p hpm
    obtain ⟨k', hk', ho⟩ := ht.owners k hk p hr kf hkf
    exact hf k' hk' (ho.trans he)
  · intro p hpm
    obtain ⟨k, hk, hr⟩ := hp p hpm
    exact ht.creatable k hk p hr

/-- every class in the order of a new class comes with one of the bases -/
theorem newClass_via {E : PyEnv W} {tbl : List (PyClass W)} (ht : Table E tbl) {bases l : List W.Cls}
    (hbs : ∀ b ∈ bases, ∃ k ∈ tbl, k.cid = b)
    (hl : c3 ((bases.map fun b => match findClass tbl b with | some k => k.mro | none => []) ++ [bases]) = some l)
    {d : W.Cls} (hd : d ∈ l) : ∃ kb ∈ tbl, kb.cid ∈ bases ∧ d ∈ kb.mro ∧ kb.mro.Sublist l := by
  obtain ⟨-, h2, h3⟩ := c3_sound hl
  have hb : ∀ kb ∈ tbl, kb.cid ∈ bases → kb.mro.Sublist l := by
    intro kb hkb hb
    have := h2 _ (List.mem_append_left _ (List.mem_map.2 ⟨kb.cid, hb, rfl⟩))
    rw [findClass_of_mem ht.nodup hkb] at this
    exact this
  obtain ⟨s, hs, hds⟩ := h3 d hd
  rcases List.mem_append.1 hs with hs | hs
  · obtain ⟨b, hbm, rfl⟩ := List.mem_map.1 hs
    obtain ⟨kb, hkb, rfl⟩ := hbs b hbm
    rw [findClass_of_mem ht.nodup hkb] at hds
    exact ⟨kb, hkb, hbm, hds, hb kb hkb hbm⟩
  · rw [List.mem_singleton] at hs
    subst hs
    obtain ⟨kb, hkb, rfl⟩ := hbs d hds
    obtain ⟨l', hl'⟩ := ht.head kb hkb
    exact ⟨kb, hkb, hds, hl' ▸ List.mem_cons_self, hb kb hkb hds⟩

theorem table_init (E : PyEnv W) : Table E [E.objectClass, E.recordClass] := by
  have hne := E.ne
  refine ⟨⟨[], rfl⟩, ?_, ?_, ?_, ?_, ?_, ?_, ?_, ?_, ?_, ?_⟩ <;>
    simp only [List.mem_cons, List.not_mem_nil, or_false, forall_eq_or_imp, forall_eq, List.map_cons, List.map_nil,
      PyEnv.objectClass, PyEnv.recordClass]
  · simp [hne.symm]
  · exact ⟨⟨_, rfl⟩, ⟨_, rfl⟩⟩
  · simp
  · simp [hne]
  · simp [hne]
  · simp [hne]
  · simp
  · simp
  · simp
  · simp

theorem table_step {E : PyEnv W} {tbl : List (PyClass W)} (ht : Table E tbl) {st : PyStmt W} {c : PyClass W}
    (hf : ∀ k ∈ tbl, k.cid ≠ st.cid) (hbs : ∀ b ∈ st.bases, ∃ k ∈ tbl, k.cid = b) (h : newClass E tbl st = .ok c) :
    Table E (tbl ++ [c]) := by
  obtain ⟨l, hl, hcid, hb, hmro, -, -, -, -, hcase⟩ := newClass_ok h
  have hobj : E.objectClass ∈ tbl ∧ E.recordClass ∈ tbl := by
    obtain ⟨rest, rfl⟩ := ht.start
    simp
  have hbs' : ∀ b ∈ c.bases, ∃ k ∈ tbl, k.cid = b := by
    intro b hbm
    rw [hb] at hbm
    split at hbm
    · rw [List.mem_singleton] at hbm
      exact ⟨_, hobj.1, hbm.symm⟩
    · exact hbs b hbm
  have hvia := fun {d} => newClass_via (d := d) ht hbs' hl
  have hkn : ∀ d ∈ l, ∃ k ∈ tbl, k.cid = d := by
    intro d hd
    obtain ⟨kb, hkb, -, hdk, -⟩ := hvia hd
    exact ht.known kb hkb d hdk
  have hnl : st.cid ∉ l := fun hm => by
    obtain ⟨k, hk, he⟩ := hkn _ hm
    exact hf k hk he
  have hok := spec_ok (E := E) ht hf c.bases l
  have hrb : E.recordBase ≠ st.cid := hf _ hobj.2
  have hmem : ∀ {P : PyClass W → Prop}, (∀ k ∈ tbl, P k) → P c → ∀ k ∈ tbl ++ [c], P k := by
    intro P h1 h2 k hk
    rcases List.mem_append.1 hk with hk | hk
    · exact h1 k hk
    · rw [List.mem_singleton] at hk; exact hk ▸ h2
  have hup : ∀ {Q : PyClass W → Prop}, (∃ k ∈ tbl, Q k) → ∃ k ∈ tbl ++ [c], Q k :=
    fun ⟨k, hk, hq⟩ => ⟨k, List.mem_append_left _ hk, hq⟩
  have hclast : c ∈ tbl ++ [c] := List.mem_append_right _ (List.mem_singleton.2 rfl)
  refine ⟨?_, ?_, ?_, ?_, ?_, ?_, ?_, ?_, ?_, ?_, ?_⟩
  · obtain ⟨rest, rfl⟩ := ht.start
    exact ⟨rest ++ [c], rfl⟩
  · rw [List.map_append, List.nodup_append]
    refine ⟨ht.nodup, by simp, ?_⟩
    intro a ha b hb'
    obtain ⟨k, hk, rfl⟩ := List.mem_map.1 ha
    simp only [List.map_cons, List.map_nil, List.mem_singleton] at hb'
    subst hb'
    rw [hcid]
    exact hf k hk
  · exact hmem ht.head ⟨l, by rw [hmro, hcid]⟩
  · refine hmem (fun k hk d hd => hup (ht.known k hk d hd)) ?_
    intro d hd
    rw [hmro] at hd
    rcases List.mem_cons.1 hd with rfl | hd
    · exact ⟨c, hclast, hcid⟩
    · exact hup (hkn d hd)
  · refine hmem ht.once ?_
    rw [hmro]
    exact List.nodup_cons.2 ⟨hnl, (c3_sound hl).1⟩
  · refine hmem (fun c' hc' => hmem (ht.trans c' hc') ?_) (hmem ?_ fun _ => List.Sublist.refl _)
    · intro hm
      obtain ⟨k, hk, he⟩ := ht.known c' hc' _ hm
      exact absurd (he.trans hcid) (hf k hk)
    · intro k hk hm
      rw [hmro] at hm ⊢
      rcases List.mem_cons.1 hm with hm | hm
      · exact absurd hm (hf k hk)
      · obtain ⟨kb, hkb, -, hdk, hs⟩ := hvia hm
        exact ((ht.trans kb hkb k hk hdk).trans hs).cons _
  · refine hmem ht.recd ?_
    rw [hmro, hcid, List.mem_cons]
    rcases hcase with ⟨hr, C, -, hC, -⟩ | ⟨hr, hC, -⟩
    · simp [hC, hr, hrb.symm]
    · simp [hC, hr, hrb]
  · refine hmem ht.creatable ?_
    intro C hC
    rcases hcase with ⟨hr, C', hmk, hC', -⟩ | ⟨hr, hC', -⟩
    · rw [hC] at hC'; cases hC'
      exact .intro _ _ hok.1 hok.2 hmk
    · rw [hC] at hC'; cases hC'
  · refine hmem ht.cid ?_
    intro C hC
    rcases hcase with ⟨hr, C', hmk, hC', -⟩ | ⟨hr, hC', -⟩
    · rw [hC] at hC'; cases hC'
      obtain ⟨_, _, -, -, -, -, -, -, -, -, -, -, h1, -⟩ := mkClass_ok hok.1 hmk
      exact h1.trans hcid.symm
    · rw [hC] at hC'; cases hC'
  · refine hmem (fun k hk C hC kf hkf => hup (ht.owners k hk C hC kf hkf)) ?_
    intro C hC kf hkf
    rcases hcase with ⟨hr, C', hmk, hC', -⟩ | ⟨hr, hC', -⟩
    · rw [hC] at hC'; cases hC'
      have wf := mkClass_wf hok.1 hmk fun p hpm => (hok.2 p hpm).wf
      have hg := Dict.mem_get? _ (show Dict.WF C.fields from wf.nodup) _ _ hkf
      rcases mkClass_field hok.1 hmk (fun p hpm => (hok.2 p hpm).wf.bound) hg with ⟨p, hpm, hpf, -, -⟩ | ⟨hh, g, -, -, he, hfg, -⟩
      · obtain ⟨b, -, hb'⟩ := List.mem_filterMap.1 hpm
        obtain ⟨k, hk, hr⟩ := Option.bind_eq_some_iff.1 hb'
        exact hup (ht.owners k (findClass_some hk).1 p hr _ hpf)
      · obtain ⟨-, -, n3, -⟩ := fieldFromHint_some he
        refine ⟨c, hclast, ?_⟩
        rw [hfg]
        exact hcid.trans n3.symm
    · rw [hC] at hC'; cases hC'
  · refine hmem (fun c' hc' => hmem (ht.desc c' hc') ?_) (hmem ?_ ?_)
    · intro C D hC hD hm
      obtain ⟨k, hk, he⟩ := ht.known c' hc' _ hm
      exact absurd (he.trans hcid) (hf k hk)
    · intro k hk C D hC hD hm
      rw [hmro] at hm
      rcases List.mem_cons.1 hm with hm | hm
      · exact absurd hm (hf k hk)
      · obtain ⟨kb, hkb, hbm, hdk, hs⟩ := hvia hm
        have hkr := (ht.recd k hk).1 (hD ▸ rfl)
        have hbr : kb.rcd.isSome = true := by
          refine (ht.recd kb hkb).2 ⟨(ht.trans kb hkb k hk hdk).subset hkr.1, fun he => ?_⟩
          have := mem_unique ht.nodup hkb hobj.2 he
          subst this
          simp only [PyEnv.recordClass, List.mem_cons, List.not_mem_nil, or_false] at hdk
          rcases hdk with hdk | hdk
          · exact hkr.2 hdk
          · have := mem_unique ht.nodup hk hobj.1 hdk
            subst this
            cases hD
        obtain ⟨B, hB⟩ := Option.isSome_iff_exists.1 hbr
        rcases hcase with ⟨hr, C', hmk, hC', -⟩ | ⟨hr, hC', -⟩
        · rw [hC] at hC'; cases hC'
          refine .step _ _ B hok.1 hok.2 hmk ?_ (ht.desc kb hkb k hk B D hB hD hdk)
          exact List.mem_filterMap.2 ⟨kb.cid, hbm, by rw [findClass_of_mem ht.nodup hkb]; exact hB⟩
        · rw [hC] at hC'; cases hC'
    · intro C D hC hD _
      rw [hC] at hD; cases hD
      exact .refl

/-- the invariants hold of the class table of every program -/
theorem Reach.table {E : PyEnv W} {tbl : List (PyClass W)} (h : Reach E tbl) : Table E tbl := by
  induction h with
  | init => exact table_init E
  | stmt tbl st c _ hf hb _ hn ih => exact table_step ih hf hb hn

/-- where a class of a program comes from -/
theorem Reach.made {E : PyEnv W} {tbl : List (PyClass W)} (h : Reach E tbl) {c : PyClass W} (hc : c ∈ tbl) :
    c = E.objectClass ∨ c = E.recordClass ∨ ∃ tbl0 rest st, tbl = tbl0 ++ rest ∧ Reach E tbl0 ∧
      (∀ k ∈ tbl0, k.cid ≠ st.cid) ∧ (∀ b ∈ st.bases, ∃ k ∈ tbl0, k.cid = b) ∧ newClass E tbl0 st = .ok c := by
  induction h with
  | init =>
    simp only [List.mem_cons, List.not_mem_nil, or_false] at hc
    rcases hc with rfl | rfl
    · exact .inl rfl
    · exact .inr (.inl rfl)
  | stmt tbl st c' h0 hf hb hi hn ih =>
    rcases List.mem_append.1 hc with hc | hc
    · rcases ih hc with h | h | ⟨tbl0, rest, st', rfl, h⟩
      · exact .inl h
      · exact .inr (.inl h)
      · exact .inr (.inr ⟨tbl0, rest ++ [c'], st', by simp, h⟩)
    · rw [List.mem_singleton] at hc
      subst hc
      exact .inr (.inr ⟨tbl, [c], st, rfl, h0, hf, hb, hn⟩)

end Records
