import Verif.Props.Order
import Verif.Spec.Sort
/-
C115: sorting records.
-/
namespace Records
variable {W : World}

/-! ### lists -/

theorem Sorter.run_congr {f g : Nat → Nat → Except Exc Bool} (h : ∀ i j, f i j = g i j) (t : Sorter) : t.run f = t.run g := by
  rw [show f = g from funext fun i => funext fun j => h i j]

/-- a list sorted by an asymmetric relation is determined by its elements -/
theorem perm_unique {α : Type} {r : α → α → Prop} (l : List α) : ∀ l' : List α, (∀ a ∈ l, ∀ b ∈ l, r a b → ¬ r b a) → l.Perm l' →
    l.Pairwise r → l'.Pairwise r → l = l' := by
  induction l with
  | nil => intro l' _ hp _ _; exact (List.nil_perm.1 hp).symm
  | cons a as ih =>
    intro l' hr hp h h'
    cases l' with
    | nil => exact absurd hp.length_eq (by simp)
    | cons b bs =>
      obtain ⟨h1, h2⟩ := List.pairwise_cons.1 h
      obtain ⟨h3, h4⟩ := List.pairwise_cons.1 h'
      have hab : a = b := by
        rcases List.mem_cons.1 (hp.mem_iff.1 (List.mem_cons_self ..) : a ∈ b :: bs) with e | ha
        · exact e
        · rcases List.mem_cons.1 (hp.mem_iff.2 (List.mem_cons_self ..) : b ∈ a :: as) with e | hb
          · exact e.symm
          · exact absurd (h3 a ha) (hr a (by simp) b (by simp [hb]) (h1 b hb))
      subst hab
      rw [ih bs (fun x hx y hy => hr x (by simp [hx]) y (by simp [hy])) (List.Perm.cons_inv hp) h2 h4]

theorem Along.length {α β : Type} {r : α → β → Prop} : ∀ {as : List α} {bs : List β}, Along r as bs → as.length = bs.length
  | [], [], _ => rfl
  | _ :: _, _ :: _, h => congrArg (· + 1) h.2.length
  | [], _ :: _, h => h.elim
  | _ :: _, [], h => h.elim

theorem Along.left {α β : Type} {r : α → β → Prop} : ∀ {as : List α} {bs : List β}, Along r as bs → ∀ a ∈ as, ∃ b ∈ bs, r a b
  | a :: _, b :: _, h, x, hx => by
    rcases List.mem_cons.1 hx with rfl | hx
    · exact ⟨b, by simp, h.1⟩
    · obtain ⟨b', h1, h2⟩ := h.2.left x hx
      exact ⟨b', by simp [h1], h2⟩

theorem Along.replace {α β : Type} {r : α → β → Prop} {x y : α} : ∀ {p q : List α} {bs : List β}, (∀ b ∈ bs, r x b → r y b) →
    Along r (p ++ x :: q) bs → Along r (p ++ y :: q) bs
  | [], _, b :: bs, hxy, h => ⟨hxy b (by simp) h.1, h.2⟩
  | _ :: _, _, b :: bs, hxy, h => ⟨h.1, Along.replace (fun b hb => hxy b (by simp [hb])) h.2⟩
  | [], _, [], _, h => h.elim
  | _ :: _, _, [], _, h => h.elim

/-- two sorted lists with equivalent elements agree position by position -/
theorem sorted_along {α : Type} {le : α → α → Prop} {D : α → Prop}
    (trans : ∀ a b c, D a → D b → D c → le a b → le b c → le a c) (l1 : List α) :
    ∀ l' l2 : List α, (∀ a ∈ l1, D a) → (∀ a ∈ l2, D a) → l1.Perm l' → Along (fun a b => le a b ∧ le b a) l' l2 →
      (∀ a, D a → le a a) → l1.Pairwise le → l2.Pairwise le → Along (fun a b => le a b ∧ le b a) l1 l2 := by
  induction l1 with
  | nil =>
    intro l' l2 _ _ hp h _ _ _
    rw [List.nil_perm.1 hp] at h
    exact h
  | cons a as ih =>
    intro l' l2 hd1 hd2 hp h hr h1 h2
    obtain ⟨b', bs', rfl⟩ : ∃ b' bs', l' = b' :: bs' := by
      cases l' with
      | nil => exact absurd hp.length_eq (by simp)
      | cons b' bs' => exact ⟨b', bs', rfl⟩
    obtain ⟨b, bs, rfl⟩ : ∃ b bs, l2 = b :: bs := by
      cases l2 with
      | nil => exact h.elim
      | cons b bs => exact ⟨b, bs, rfl⟩
    obtain ⟨h1a, h1b⟩ := List.pairwise_cons.1 h1
    obtain ⟨h2a, h2b⟩ := List.pairwise_cons.1 h2
    have da := hd1 a (by simp)
    have db := hd2 b (by simp)
    have hb' : b' ∈ a :: as := hp.mem_iff.2 (List.mem_cons_self ..)
    have db' := hd1 b' hb'
    have hle1 : le a b' := by
      rcases List.mem_cons.1 hb' with rfl | hb'
      · exact hr _ da
      · exact h1a _ hb'
    obtain ⟨c, hc, hac⟩ := h.left a (hp.mem_iff.1 (List.mem_cons_self ..))
    have hle2 : le b a := by
      rcases List.mem_cons.1 hc with rfl | hc
      · exact hac.2
      · exact trans b c a db (hd2 c (by simp [hc])) da (h2a c hc) hac.2
    have hab : le a b ∧ le b a := ⟨trans a b' b da db' db hle1 h.1.1, hle2⟩
    have hab' : le a b' ∧ le b' a := ⟨hle1, trans b' b a db' db da h.1.1 hle2⟩
    refine ⟨hab, ?_⟩
    have d1 : ∀ x ∈ as, D x := fun x hx => hd1 x (by simp [hx])
    have d2 : ∀ x ∈ bs, D x := fun x hx => hd2 x (by simp [hx])
    rcases List.mem_cons.1 (hp.mem_iff.1 (List.mem_cons_self ..) : a ∈ b' :: bs') with e | ha
    · subst e
      exact ih bs' bs d1 d2 (List.Perm.cons_inv hp) h.2 hr h1b h2b
    · obtain ⟨p, q, rfl⟩ := List.append_of_mem ha
      refine ih (p ++ b' :: q) bs d1 d2 ?_ ?_ hr h1b h2b
      · have e1 : (b' :: (p ++ a :: q)).Perm (a :: b' :: (p ++ q)) :=
          ((List.perm_middle (a := a) (l₁ := p) (l₂ := q)).cons b').trans (.swap ..)
        exact (List.Perm.cons_inv (hp.trans e1)).trans (List.perm_middle (a := b') (l₁ := p) (l₂ := q)).symm
      · exact h.2.replace fun x hx hax =>
          ⟨trans b' a x db' da (d2 x hx) hab'.2 hax.1, trans x a b' (d2 x hx) da db' hax.2 hab'.1⟩

theorem filterMap_range {α : Type} (l : List α) : (List.range l.length).filterMap (fun i => l[i]?) = l := by
  induction l with
  | nil => rfl
  | cons a l ih =>
    rw [List.length_cons, List.range_succ_eq_map, List.filterMap_cons, List.filterMap_map]
    simp only [List.getElem?_cons_zero]
    congr 1

/-! ### C115 -/

section
variable {E : Env W} {O : ObjCmp W} {C : RecClass W} {le : String → W.Obj → W.Obj → Prop} {D : String → W.Obj → Prop}

theorem askRecs_ok (ho : C.ordered = true) (hs : W.isSub C.cid C.cid = true) (hO : FieldsOrdered O C le D) {recs : List (Inst W)}
    (hr : Sortable C D recs) : ∃ lt : Nat → Nat → Bool,
      (∀ i j, askRecs E O C recs i j = if i < recs.length ∧ j < recs.length then .ok (lt i j) else .error .indexError) ∧
      (∀ i j a b, recs[i]? = some a → recs[j]? = some b → (lt i j = true ↔ LexLt le (orderNames C) a b)) ∧
      StrictWeak recs.length lt := by
  have ans : ∀ i j a b, recs[i]? = some a → recs[j]? = some b →
      ∃ r, askRecs E O C recs i j = .ok r ∧ (r = true ↔ LexLt le (orderNames C) a b) := by
    intro i j a b ha hb
    have ma := List.mem_of_getElem? ha
    have mb := List.mem_of_getElem? hb
    unfold askRecs
    rw [ha, hb]
    exact compare_same ho (hr.cls a ma) (hr.cls b mb) hs hO (hr.dom a ma) (hr.dom b mb) .lt
  let lt : Nat → Nat → Bool := fun i j => match askRecs E O C recs i j with | .ok r => r | .error _ => false
  have hlt : ∀ i j a b, recs[i]? = some a → recs[j]? = some b → (lt i j = true ↔ LexLt le (orderNames C) a b) := by
    intro i j a b ha hb
    obtain ⟨r, h1, h2⟩ := ans i j a b ha hb
    show (match askRecs E O C recs i j with | .ok r => r | .error _ => false) = true ↔ _
    rw [h1]
    exact h2
  have get : ∀ i, i < recs.length → ∃ a, recs[i]? = some a ∧ InDomain C D a := fun i hi =>
    ⟨recs[i], List.getElem?_eq_getElem hi, hr.dom _ (List.getElem_mem hi)⟩
  refine ⟨lt, ?_, hlt, ?_, ?_, ?_⟩
  · intro i j
    split
    · next h =>
      obtain ⟨a, ha, _⟩ := get i h.1
      obtain ⟨b, hb, _⟩ := get j h.2
      obtain ⟨r, h1, _⟩ := ans i j a b ha hb
      show _ = Except.ok (match askRecs E O C recs i j with | .ok r => r | .error _ => false)
      rw [h1]
    · next h =>
      unfold askRecs
      split
      · next a b ha hb =>
        exact absurd ⟨(List.getElem?_eq_some_iff.1 ha).1, (List.getElem?_eq_some_iff.1 hb).1⟩ h
      · rfl
  · intro i hi
    obtain ⟨a, ha, da⟩ := get i hi
    rw [← Bool.not_eq_true, hlt i i a a ha ha]
    rcases lex_trichotomy hO da da with h | h | h
    · exact h.2.2
    · exact h.1
    · exact h.1
  · intro i j k hi hj hk h1 h2
    obtain ⟨a, ha, da⟩ := get i hi
    obtain ⟨b, hb, db⟩ := get j hj
    obtain ⟨c, hc, dc⟩ := get k hk
    rw [hlt i j a b ha hb] at h1
    rw [hlt j k b c hb hc] at h2
    rw [hlt i k a c ha hc]
    rcases lex_trans hO da db dc (.inl h1) (.inl h2) with h | h
    · exact h
    · -- `a = c` would give `b ≤ a < b`
      have h3 := lex_trans hO db dc da (.inl h2) (.inr (lexEq_symm hO da dc h))
      rcases lex_trichotomy hO da db with t | t | t
      · rcases h3 with h3 | h3
        · exact absurd h3 t.2.2
        · exact absurd (lexEq_symm hO db da h3) t.2.1
      · exact absurd h1 t.1
      · exact absurd h1 t.1
  · intro i j k hi hj hk h
    obtain ⟨a, ha, da⟩ := get i hi
    obtain ⟨b, hb, db⟩ := get j hj
    obtain ⟨c, hc, dc⟩ := get k hk
    rw [hlt i k a c ha hc] at h
    rw [hlt i j a b ha hb, hlt j k b c hb hc]
    by_cases h1 : LexLt le (orderNames C) a b
    · exact .inl h1
    · by_cases h2 : LexLt le (orderNames C) b c
      · exact .inr h2
      · have l1 : LexLt le (orderNames C) b a ∨ LexEq (orderNames C) b a := by
          rcases lex_trichotomy hO da db with t | t | t
          · exact absurd t.1 h1
          · exact .inr (lexEq_symm hO da db t.2.1)
          · exact .inl t.2.2
        have l2 : LexLt le (orderNames C) c b ∨ LexEq (orderNames C) c b := by
          rcases lex_trichotomy hO db dc with t | t | t
          · exact absurd t.1 h2
          · exact .inr (lexEq_symm hO db dc t.2.1)
          · exact .inl t.2.2
        have l3 := lex_trans hO dc db da l2 l1
        rcases lex_trichotomy hO da dc with t | t | t
        · rcases l3 with l3 | l3
          · exact absurd l3 t.2.2
          · exact absurd (lexEq_symm hO dc da l3) t.2.1
        · exact absurd h t.1
        · exact absurd h t.1

/-- C115: any stable comparison sort of records of one ordered class with totally ordered field values terminates without an exception;
the result has the positions of the input in the lexicographic order of the non-excluded fields, and records that agree in
these fields in the order of the input. -/
theorem C115_stable (ho : C.ordered = true) (hs : W.isSub C.cid C.cid = true) (hO : FieldsOrdered O C le D) {recs : List (Inst W)}
    (hr : Sortable C D recs) {t : Sorter} (ht : StableSort recs.length t) :
    ∃ order : List Nat, sortRecs E O C t recs = .ok (order.filterMap fun i => recs[i]?) ∧ order.Perm (List.range recs.length) ∧
      order.Pairwise fun i j => ∃ a b, recs[i]? = some a ∧ recs[j]? = some b ∧
        (LexLt le (orderNames C) a b ∨ LexEq (orderNames C) a b ∧ i < j) := by
  obtain ⟨lt, h1, h2, h3⟩ := askRecs_ok (E := E) ho hs hO hr
  obtain ⟨order, h4, h5⟩ := ht.works lt h3
  refine ⟨order, ?_, h5.perm, ?_⟩
  · unfold sortRecs
    rw [Sorter.run_congr h1, h4]
    rfl
  · refine h5.sorted.imp_of_mem fun {i j} hi hj h => ?_
    have hi' := List.mem_range.1 (h5.perm.mem_iff.1 hi)
    have hj' := List.mem_range.1 (h5.perm.mem_iff.1 hj)
    refine ⟨recs[i], recs[j], List.getElem?_eq_getElem hi', List.getElem?_eq_getElem hj', ?_⟩
    have e1 := h2 i j _ _ (List.getElem?_eq_getElem hi') (List.getElem?_eq_getElem hj')
    have e2 := h2 j i _ _ (List.getElem?_eq_getElem hj') (List.getElem?_eq_getElem hi')
    rcases h with h | ⟨h, hij⟩
    · exact .inl (e1.1 h)
    · rw [← Bool.not_eq_true, e2] at h
      rcases lex_trichotomy hO (hr.dom _ (List.getElem_mem hi')) (hr.dom _ (List.getElem_mem hj')) with t | t | t
      · exact .inl t.1
      · exact .inr ⟨t.2.1, hij⟩
      · exact absurd t.2.2 h

/-- C115: the result is a permutation of the input in ascending order. -/
theorem C115_sorted (ho : C.ordered = true) (hs : W.isSub C.cid C.cid = true) (hO : FieldsOrdered O C le D) {recs : List (Inst W)}
    (hr : Sortable C D recs) {t : Sorter} (ht : StableSort recs.length t) :
    ∃ out, sortRecs E O C t recs = .ok out ∧ out.Perm recs ∧ out.Pairwise (LexLe le (orderNames C)) := by
  obtain ⟨order, h1, h2, h3⟩ := C115_stable (E := E) ho hs hO hr ht
  refine ⟨_, h1, ?_, ?_⟩
  · exact (h2.filterMap _).trans (by rw [filterMap_range])
  · rw [List.pairwise_filterMap]
    refine h3.imp fun {i j} h a ha b hb => ?_
    obtain ⟨a', b', ha', hb', h⟩ := h
    rw [ha] at ha'; rw [hb] at hb'; cases ha'; cases hb'
    exact h.imp id (·.1)

/-- C115: the result does not depend on the algorithm. -/
theorem C115_algorithm (ho : C.ordered = true) (hs : W.isSub C.cid C.cid = true) (hO : FieldsOrdered O C le D) {recs : List (Inst W)}
    (hr : Sortable C D recs) {t t' : Sorter} (ht : StableSort recs.length t) (ht' : StableSort recs.length t') :
    sortRecs E O C t recs = sortRecs E O C t' recs := by
  obtain ⟨order, h1, h2, h3⟩ := C115_stable (E := E) ho hs hO hr ht
  obtain ⟨order', h1', h2', h3'⟩ := C115_stable (E := E) ho hs hO hr ht'
  rw [h1, h1', perm_unique order order' ?_ (h2.trans h2'.symm) h3 h3']
  rintro i hi j hj ⟨a, b, ha, hb, h⟩ ⟨b', a', hb', ha', h'⟩
  rw [ha] at ha'; rw [hb] at hb'; cases ha'; cases hb'
  have da := hr.dom a (List.mem_of_getElem? ha)
  have db := hr.dom b (List.mem_of_getElem? hb)
  rcases lex_trichotomy hO da db with t | t | t
  · rcases h' with h' | h'
    · exact t.2.2 h'
    · exact t.2.1 (lexEq_symm hO db da h'.1)
  · rcases h with h | h
    · exact t.1 h
    · rcases h' with h' | h'
      · exact t.2.2 h'
      · exact Nat.lt_asymm h.2 h'.2
  · rcases h with h | h
    · exact t.1 h
    · exact t.2.1 h.1

/-- C115: sorting the same records in another order gives, position by position, records that agree in all fields that are not excluded
from the ordering. -/
theorem C115_permuted (ho : C.ordered = true) (hs : W.isSub C.cid C.cid = true) (hO : FieldsOrdered O C le D)
    {recs recs' : List (Inst W)} (hr : Sortable C D recs) (hp : recs.Perm recs') {t t' : Sorter} (ht : StableSort recs.length t)
    (ht' : StableSort recs'.length t') :
    ∃ out out', sortRecs E O C t recs = .ok out ∧ sortRecs E O C t' recs' = .ok out' ∧ Along (LexEq (orderNames C)) out out' := by
  have hr' : Sortable C D recs' := ⟨fun a h => hr.cls a (hp.mem_iff.2 h), fun a h => hr.dom a (hp.mem_iff.2 h)⟩
  obtain ⟨out, h1, h2, h3⟩ := C115_sorted (E := E) ho hs hO hr ht
  obtain ⟨out', h1', h2', h3'⟩ := C115_sorted (E := E) ho hs hO hr' ht'
  refine ⟨out, out', h1, h1', ?_⟩
  have d1 : ∀ a ∈ out, InDomain C D a := fun a h => hr.dom a (h2.mem_iff.1 h)
  have d2 : ∀ a ∈ out', InDomain C D a := fun a h => hr'.dom a (h2'.mem_iff.1 h)
  have refl : ∀ a, InDomain C D a → LexLe le (orderNames C) a a := by
    intro a da
    rcases lex_trichotomy hO da da with t | t | t
    · exact .inl t.1
    · exact .inr t.2.1
    · exact .inl t.2.2
  have self : ∀ l : List (Inst W), (∀ a ∈ l, InDomain C D a) →
      Along (fun a b => LexLe le (orderNames C) a b ∧ LexLe le (orderNames C) b a) l l := by
    intro l
    induction l with
    | nil => intro _; exact trivial
    | cons a l ih => intro h; exact ⟨⟨refl a (h a (by simp)), refl a (h a (by simp))⟩, ih fun x hx => h x (by simp [hx])⟩
  have := sorted_along (D := InDomain C D) (fun a b c da db dc h h' => lex_trans hO da db dc h h') out out' out' d1 d2
    (h2.trans (hp.trans h2'.symm)) (self out' d2) refl h3 h3'
  revert this
  have conv : ∀ l l' : List (Inst W), (∀ a ∈ l, InDomain C D a) → (∀ a ∈ l', InDomain C D a) →
      Along (fun a b => LexLe le (orderNames C) a b ∧ LexLe le (orderNames C) b a) l l' → Along (LexEq (orderNames C)) l l' := by
    intro l
    induction l with
    | nil => intro l' _ _ h; cases l' <;> exact h
    | cons a l ih =>
      intro l' h h' ha
      cases l' with
      | nil => exact ha.elim
      | cons b l' =>
        refine ⟨?_, ih l' (fun x hx => h x (by simp [hx])) (fun x hx => h' x (by simp [hx])) ha.2⟩
        have da := h a (by simp)
        have db := h' b (by simp)
        rcases lex_trichotomy hO da db with t | t | t
        · rcases ha.1.2 with u | u
          · exact absurd u t.2.2
          · exact lexEq_symm hO db da u
        · exact t.2.1
        · rcases ha.1.1 with u | u
          · exact absurd u t.1
          · exact u
  exact conv out out' d1 d2

/-- a stable sort of two or more items has to compare, and compares items of the list -/
theorem StableSort.asks {n : Nat} (hn : 2 ≤ n) {t : Sorter} (ht : StableSort n t) : ∃ i j yes no, t = .ask i j yes no ∧ i < n ∧ j < n := by
  cases t with
  | done o =>
    obtain ⟨o1, e1, h1⟩ := ht.works (fun i j => decide (i < j)) ⟨by simp, by simp; omega, by simp; omega⟩
    obtain ⟨o2, e2, h2⟩ := ht.works (fun i j => decide (j < i)) ⟨by simp, by simp; omega, by simp; omega⟩
    cases e1; cases e2
    have hl := h1.perm.length_eq
    rw [List.length_range] at hl
    match o, hl, h1.sorted, h2.sorted with
    | [], hl, _, _ => simp at hl; omega
    | [_], hl, _, _ => simp at hl; omega
    | a :: b :: l, _, s1, s2 =>
      have r1 := (List.pairwise_cons.1 s1).1 b (by simp)
      have r2 := (List.pairwise_cons.1 s2).1 b (by simp)
      simp at r1 r2
      omega
  | ask i j yes no =>
    refine ⟨i, j, yes, no, rfl, ?_⟩
    obtain ⟨o, e, _⟩ := ht.works (fun _ _ => false) ⟨by simp, by simp, by simp⟩
    by_cases h : i < n ∧ j < n
    · exact h
    · simp only [Sorter.run] at e
      rw [if_neg h] at e
      cases e

/-- C115: two or more records of a class that is not ordered cannot be sorted, by any algorithm. -/
theorem C115_unordered (hS : SubOK W) (ho : C.ordered = false) {recs : List (Inst W)} (h2 : 2 ≤ recs.length) {t : Sorter}
    (ht : StableSort recs.length t) : sortRecs E O C t recs = .error .typeError := by
  obtain ⟨i, j, yes, no, rfl, hi, hj⟩ := ht.asks h2
  unfold sortRecs
  simp only [Sorter.run]
  have : askRecs E O C recs i j = .error .typeError := by
    unfold askRecs
    rw [List.getElem?_eq_getElem hi, List.getElem?_eq_getElem hj]
    exact C74_unordered hS (fun _ => rfl) (.inl ho) .lt
  rw [this]
  rfl
end

/-! ### the hypotheses are met: insertion sort, for every length -/

namespace Toy.Sort
open Toy.Order

/-- insert position `x` into the sorted list `rev.reverse ++ acc`, where it belongs before all of `acc` -/
def insTree (x : Nat) (k : List Nat → Sorter) : List Nat → List Nat → Sorter
  | [], acc => k (x :: acc)
  | y :: rev, acc => .ask x y (insTree x k rev (y :: acc)) (k (rev.reverse ++ y :: x :: acc))

def insSort : Nat → Nat → List Nat → Sorter
  | 0, _, l => .done l
  | f + 1, i, l => insTree i (insSort f (i + 1)) l.reverse []

theorem insTree_run {n : Nat} {lt : Nat → Nat → Bool} (h : StrictWeak n lt) {x : Nat} (hx : x < n) {k : List Nat → Sorter} (rev : List Nat) :
    ∀ acc, StableOrder x lt (rev.reverse ++ acc) → (∀ y ∈ acc, lt x y = true) →
      ∃ l, StableOrder (x + 1) lt l ∧
        (insTree x k rev acc).run (fun i j => if i < n ∧ j < n then .ok (lt i j) else .error .indexError)
          = (k l).run (fun i j => if i < n ∧ j < n then .ok (lt i j) else .error .indexError) := by
  induction rev with
  | nil =>
    intro acc hs ha
    refine ⟨x :: acc, ⟨?_, ?_⟩, rfl⟩
    · rw [List.range_succ]
      exact ((hs.perm.cons x).trans (List.perm_append_singleton x (List.range x)).symm)
    · exact List.pairwise_cons.2 ⟨fun y hy => .inl (ha y hy), hs.sorted⟩
  | cons y rev ih =>
    intro acc hs ha
    have e : (y :: rev).reverse ++ acc = rev.reverse ++ y :: acc := by simp
    rw [e] at hs
    have lt_x : ∀ z ∈ rev.reverse ++ y :: acc, z < x := fun z hz => List.mem_range.1 (hs.perm.mem_iff.1 hz)
    have hy : y < x := lt_x y (by simp)
    rw [show insTree x k (y :: rev) acc = .ask x y (insTree x k rev (y :: acc)) (k (rev.reverse ++ y :: x :: acc)) from rfl]
    cases hb : lt x y with
    | true =>
      obtain ⟨l, h1, h2⟩ := ih (y :: acc) hs (fun z hz => by
        rcases List.mem_cons.1 hz with rfl | hz
        · exact hb
        · exact ha z hz)
      refine ⟨l, h1, ?_⟩
      rw [← h2]
      simp only [Sorter.run]
      rw [if_pos ⟨hx, Nat.lt_trans hy hx⟩, hb]
    | false =>
      refine ⟨rev.reverse ++ y :: x :: acc, ⟨?_, ?_⟩, ?_⟩
      · rw [List.range_succ]
        have p1 : (rev.reverse ++ y :: x :: acc).Perm (x :: (rev.reverse ++ y :: acc)) := by
          have := List.perm_middle (a := x) (l₁ := rev.reverse ++ [y]) (l₂ := acc)
          simpa using this
        exact (p1.trans (hs.perm.cons x)).trans (List.perm_append_singleton x (List.range x)).symm
      · obtain ⟨s1, s2, s3⟩ := List.pairwise_append.1 hs.sorted
        obtain ⟨s4, s5⟩ := List.pairwise_cons.1 s2
        refine List.pairwise_append.2 ⟨s1, List.pairwise_cons.2 ⟨?_, List.pairwise_cons.2 ⟨fun z hz => .inl (ha z hz), s5⟩⟩, ?_⟩
        · intro z hz
          rcases List.mem_cons.1 hz with rfl | hz
          · exact .inr ⟨hb, hy⟩
          · exact s4 z hz
        · intro z hz w hw
          rcases List.mem_cons.1 hw with rfl | hw
          · exact s3 z hz _ (by simp)
          · rcases List.mem_cons.1 hw with rfl | hw
            · have hzx := lt_x z (by simp [List.mem_reverse.1 hz])
              refine .inr ⟨?_, hzx⟩
              have hzy := s3 z hz y (by simp)
              cases hc : lt w z with
              | false => rfl
              | true =>
                rcases hzy with hzy | hzy
                · rw [h.trans w z y hx (Nat.lt_trans hzx hx) (Nat.lt_trans hy hx) hc hzy] at hb
                  cases hb
                · rcases h.incomp w y z hx (Nat.lt_trans hy hx) (Nat.lt_trans hzx hx) hc with h1 | h1
                  · rw [h1] at hb; cases hb
                  · rw [h1] at hzy; cases hzy.1
            · exact s3 z hz w (by simp [hw])
      · simp only [Sorter.run]
        rw [if_pos ⟨hx, Nat.lt_trans hy hx⟩, hb]

theorem insSort_run {n : Nat} {lt : Nat → Nat → Bool} (h : StrictWeak n lt) (f : Nat) : ∀ i l, i + f = n → StableOrder i lt l →
    ∃ order, (insSort f i l).run (fun i j => if i < n ∧ j < n then .ok (lt i j) else .error .indexError) = .ok order ∧
      StableOrder n lt order := by
  induction f with
  | zero => intro i l e hl; subst e; exact ⟨l, rfl, hl⟩
  | succ f ih =>
    intro i l e hl
    obtain ⟨l', h1, h2⟩ := insTree_run h (x := i) (by omega) (k := insSort f (i + 1)) l.reverse [] (by simpa using hl) (by simp)
    obtain ⟨order, h3, h4⟩ := ih (i + 1) l' (by omega) h1
    refine ⟨order, ?_, h4⟩
    show (insTree i (insSort f (i + 1)) l.reverse []).run _ = _
    rw [h2, h3]

/-- insertion sort is a stable sort, whatever the length -/
theorem insSort_stable (n : Nat) : StableSort n (insSort n 0 []) :=
  ⟨fun _ h => insSort_run h n 0 [] (Nat.zero_add n) ⟨.refl _, .nil⟩⟩

/-- another algorithm for two items: compares the other way round, and twice -/
theorem other_stable : StableSort 2 (.ask 1 0 (.done [1, 0]) (.ask 0 1 (.done [0, 1]) (.done [0, 1]))) := by
  refine ⟨fun lt h => ?_⟩
  simp only [Sorter.run]
  cases h1 : lt 1 0 with
  | true => exact ⟨[1, 0], by simp, .swap 0 1 [], by simp [h1]⟩
  | false =>
    refine ⟨[0, 1], ?_, .refl _, by simp [h1]⟩
    cases lt 0 1 <;> simp

theorem sortable (l : List (Int × Int × Int)) :
    Sortable (W := Toy.W) P (fun _ v => ∃ i, num v = some i) (l.map fun p => mkP p.1 p.2.1 p.2.2) where
  cls a ha := by
    obtain ⟨p, _, rfl⟩ := List.mem_map.1 ha
    rfl
  dom a ha := by
    obtain ⟨p, _, rfl⟩ := List.mem_map.1 ha
    exact mkP_dom _ _ _

/-- ordered by `x`, then `y`; the excluded `n` plays no part: the two records with `x = 1`, `y = 3` stay in order -/
example : sortRecs env O P (insSort 4 0 []) [mkP 2 0 0, mkP 1 9 3, mkP 1 5 3, mkP 1 7 2]
    = .ok [mkP 1 7 2, mkP 1 9 3, mkP 1 5 3, mkP 2 0 0] := rfl
example := C115_stable (E := env) (C := P) rfl rfl P_ordered (sortable [(2, 0, 0), (1, 9, 3), (1, 5, 3), (1, 7, 2)]) (insSort_stable 4)
example := C115_sorted (E := env) (C := P) rfl rfl P_ordered (sortable [(2, 0, 0), (1, 9, 3), (1, 5, 3), (1, 7, 2)]) (insSort_stable 4)
example : sortRecs env O P (insSort 2 0 []) [mkP 2 0 0, mkP 1 9 3]
    = sortRecs env O P (.ask 1 0 (.done [1, 0]) (.ask 0 1 (.done [0, 1]) (.done [0, 1]))) [mkP 2 0 0, mkP 1 9 3] :=
  C115_algorithm (E := env) (C := P) rfl rfl P_ordered (sortable [(2, 0, 0), (1, 9, 3)]) (insSort_stable 2) other_stable
example := C115_permuted (E := env) (C := P) rfl rfl P_ordered (sortable [(1, 9, 3), (1, 5, 3)]) (recs' := [mkP 1 5 3, mkP 1 9 3])
  (.swap ..) (insSort_stable 2) other_stable
example : sortRecs (W := Toy.W) env O A (insSort 2 0 []) [mkA (.int 1) (.int 2), mkA (.int 0) (.int 2)] = .error .typeError :=
  C115_unordered subOK rfl (by decide) (insSort_stable 2)
/-- … where the results are not equal: the excluded field tells them apart -/
example : sortRecs env O P (insSort 2 0 []) [mkP 1 9 3, mkP 1 5 3] = .ok [mkP 1 9 3, mkP 1 5 3] ∧
    sortRecs env O P (insSort 2 0 []) [mkP 1 5 3, mkP 1 9 3] = .ok [mkP 1 5 3, mkP 1 9 3] := ⟨rfl, rfl⟩

end Toy.Sort

/-- C115: records of an ordered class with a field that is excluded from the ordering but not from comparisons have no sorted form of their
own: "the result depends only on which records are in the list" is refuted. -/
theorem C115_refuted : ¬ ∀ (W : World) (E : Env W) (O : ObjCmp W) (C : RecClass W) (le : String → W.Obj → W.Obj → Prop)
    (D : String → W.Obj → Prop) (t : Sorter) (recs recs' : List (Inst W)), C.ordered = true → W.isSub C.cid C.cid = true →
    FieldsOrdered O C le D → Sortable C D recs → recs.Perm recs' → StableSort recs.length t →
    sortRecs E O C t recs = sortRecs E O C t recs' := by
  intro h
  have := h Toy.W Toy.env Toy.Order.O Toy.Order.P _ _ (Toy.Sort.insSort 2 0 []) [Toy.Order.mkP 1 9 3, Toy.Order.mkP 1 5 3]
    [Toy.Order.mkP 1 5 3, Toy.Order.mkP 1 9 3] rfl rfl Toy.Order.P_ordered (Toy.Sort.sortable [(1, 9, 3), (1, 5, 3)]) (.swap ..)
    (Toy.Sort.insSort_stable 2)
  have e : (Except.ok [Toy.Order.mkP 1 9 3, Toy.Order.mkP 1 5 3] : Except Exc (List (Inst Toy.W)))
      = .ok [Toy.Order.mkP 1 5 3, Toy.Order.mkP 1 9 3] := this
  injection e with e
  injection e with e _
  have e' : (Toy.Order.mkP 1 9 3).dict.get? "n" = (Toy.Order.mkP 1 5 3).dict.get? "n" := by rw [e]
  have e'' : some (Toy.TObj.int 9) = some (Toy.TObj.int 5) := e'
  simp at e''

end Records
