import Verif.Spec.Comparing
import Verif.Props.Copies
import Verif.Props.Nested
/-
C132: comparing records that contain each other.
-/
namespace Records
variable {W : World}

namespace Comparing

theorem firstNo_true {l : List (Except Exc Bool)} : firstNo l = .ok true ↔ ∀ c ∈ l, c = .ok true := by
  induction l with
  | nil => exact ⟨fun _ _ h => (nomatch h), fun _ => rfl⟩
  | cons c l ih =>
    rcases c with e | _ | _
    · exact ⟨fun h => (nomatch h), fun h => absurd (h _ (List.mem_cons_self ..)) (by simp)⟩
    · exact ⟨fun h => (nomatch h), fun h => absurd (h _ (List.mem_cons_self ..)) (by simp)⟩
    · show firstNo l = _ ↔ _
      rw [ih]
      exact ⟨fun h c hc => (List.mem_cons.1 hc).elim id (h c), fun h c hc => h c (List.mem_cons_of_mem _ hc)⟩

theorem firstNo_mem (l : List (Except Exc Bool)) : firstNo l = .ok true ∨ firstNo l ∈ l := by
  induction l with
  | nil => exact .inl rfl
  | cons c l ih =>
    rcases c with e | _ | _
    · exact .inr (List.mem_cons_self ..)
    · exact .inr (List.mem_cons_self ..)
    · exact ih.imp id (List.mem_cons_of_mem _)

theorem firstNo_mono {α : Type} {f g : α → Except Exc Bool} {l : List α} (h : ∀ q ∈ l, ∀ b, f q = .ok b → g q = .ok b) {b : Bool}
    (hf : firstNo (l.map f) = .ok b) : firstNo (l.map g) = .ok b := by
  induction l with
  | nil => exact hf
  | cons q l ih =>
    simp only [List.map_cons] at hf ⊢
    rcases e : f q with x | _ | _
    · rw [e] at hf; cases hf
    · rw [e] at hf; rw [h q (List.mem_cons_self ..) _ e]; exact hf
    · rw [e] at hf
      rw [h q (List.mem_cons_self ..) _ e]
      exact ih (fun q hq => h q (List.mem_cons_of_mem _ hq)) hf

theorem attr_get {E : Env W} {i : Inst W} {k : String} {v : W.Obj} (h : i.dict.get? k = some v) : i.attr E k = .ok v := by
  unfold Inst.attr
  rw [h]

theorem full_get {C : RecClass W} {i : Inst W} (hi : Full C i) {k : String} (hk : k ∈ C.fields.map (·.1)) : ∃ v, i.dict.get? k = some v :=
  Option.isSome_iff_exists.1 ((Dict.get?_isSome_iff ..).2 (hi k hk))

/-- the records in these nodes have all their fields -/
def NodeFull (cls : W.Cls → RecClass W) (p : Node W) : Prop := ∀ i, p = .record i → Full (cls i.cid) i

/-- what a question means -/
def Means (cls : W.Cls → RecClass W) (p q : Node W) : Ask W → Prop
  | .known b => b = false → ¬ SameShape p q
  | .item x y => x ≠ y → ComparedIn cls p q x y
  | .field x y => ComparedIn cls p q x y
  | .fail _ => False

theorem asks_means {E : Env W} {cls : W.Cls → RecClass W} {p q : Node W} (hp : NodeFull cls p) (hq : NodeFull cls q) :
    ∀ c ∈ asks E cls p q, Means cls p q c := by
  have other : ∀ {c : Ask W}, ¬ SameShape p q → c ∈ [Ask.known (W := W) false] → Means cls p q c := by
    intro c hn hc
    rw [List.mem_singleton.1 hc]
    exact fun _ => hn
  have zip : ∀ {xs ys : List W.Obj} {c : Ask W}, c ∈ List.zipWith Ask.item xs ys →
      ∃ (n : Nat) (x y : W.Obj), xs[n]? = some x ∧ ys[n]? = some y ∧ c = .item x y := by
    intro xs ys c hc
    obtain ⟨n, hn⟩ := List.getElem?_of_mem hc
    rw [List.getElem?_zipWith] at hn
    cases h1 : xs[n]? with
    | none => rw [h1] at hn; cases hn
    | some x => cases h2 : ys[n]? with
      | none => rw [h1, h2] at hn; cases hn
      | some y => rw [h1, h2] at hn; cases hn; exact ⟨n, x, y, h1, h2, rfl⟩
  intro c hc
  cases p with
  | atom => cases q <;> exact other nofun hc
  | list xs =>
    cases q with
    | list ys =>
      simp only [asks] at hc
      split at hc
      · obtain ⟨n, x, y, h1, h2, rfl⟩ := zip hc
        exact fun hne => .list h1 h2 hne
      · next hl => exact other (fun h => by cases h with | list h => exact hl h) hc
    | _ => exact other nofun hc
  | tuple xs =>
    cases q with
    | tuple ys =>
      rcases List.mem_append.1 hc with hc | hc
      · obtain ⟨n, x, y, h1, h2, rfl⟩ := zip hc
        exact fun hne => .tuple h1 h2 hne
      · rw [List.mem_singleton.1 hc]
        intro hl h
        cases h with
        | tuple h => exact absurd h (of_decide_eq_false hl)
    | _ => exact other nofun hc
  | dict m =>
    cases q with
    | dict m' =>
      simp only [asks] at hc
      split at hc
      · obtain ⟨⟨k, x⟩, hm, rfl⟩ := List.mem_map.1 hc
        unfold askEntry
        cases h : m'.get? k with
        | none =>
          simp only
          intro _ hs
          cases hs with
          | dict _ hk => exact (Dict.get?_eq_none_iff ..).1 h (hk k (List.mem_map.2 ⟨_, hm, rfl⟩))
        | some y =>
          simp only
          exact fun hne => .dict hm h hne
      · next hl => exact other (fun h => by cases h with | dict h _ => exact hl h) hc
    | _ => exact other nofun hc
  | record i =>
    cases q with
    | record j =>
      simp only [asks] at hc
      split at hc
      · next he =>
        obtain ⟨k, hk, rfl⟩ := List.mem_map.1 hc
        obtain ⟨v, hv⟩ := full_get (hp i rfl) hk
        obtain ⟨w, hw⟩ := full_get (hq j rfl) (he ▸ hk)
        unfold askField
        simp only [attr_get hv, attr_get hw]
        exact .record he hk hv hw
      · next he => exact other (fun h => by cases h with | record h => exact he h) hc
    | _ => exact other nofun hc

theorem asks_shape {E : Env W} {cls : W.Cls → RecClass W} {p q : Node W} (hs : ¬ SameShape p q) : .known false ∈ asks E cls p q := by
  have other : Ask.known (W := W) false ∈ [Ask.known (W := W) false] := List.mem_singleton.2 rfl
  cases p with
  | atom => cases q <;> exact other
  | list xs =>
    cases q with
    | list ys =>
      simp only [asks]
      rw [if_neg fun h => hs (.list h)]
      exact other
    | _ => exact other
  | tuple xs =>
    cases q with
    | tuple ys => exact List.mem_append_right _ (by rw [decide_eq_false fun h => hs (.tuple h)]; exact other)
    | _ => exact other
  | dict m =>
    cases q with
    | dict m' =>
      simp only [asks]
      split
      · next hl =>
        apply Classical.byContradiction
        intro hno
        refine hs (.dict hl fun k hk => ?_)
        apply Classical.byContradiction
        intro hk'
        obtain ⟨⟨k1, x⟩, hm, rfl⟩ := List.mem_map.1 hk
        refine hno (List.mem_map.2 ⟨_, hm, ?_⟩)
        unfold askEntry
        simp only [(Dict.get?_eq_none_iff ..).2 hk']
      · exact other
    | _ => exact other
  | record i =>
    cases q with
    | record j =>
      simp only [asks]
      rw [if_neg fun h => hs (.record h)]
      exact other
    | _ => exact other

theorem asks_compared {E : Env W} {cls : W.Cls → RecClass W} {p q : Node W} (hs : SameShape p q) {x y : W.Obj} (h : ComparedIn cls p q x y) :
    (x ≠ y ∧ .item x y ∈ asks E cls p q) ∨ .field x y ∈ asks E cls p q := by
  have zip : ∀ {xs ys : List W.Obj} {n : Nat}, xs[n]? = some x → ys[n]? = some y → Ask.item x y ∈ List.zipWith Ask.item xs ys := by
    intro xs ys n h1 h2
    refine List.mem_of_getElem? (i := n) ?_
    rw [List.getElem?_zipWith, h1, h2]
  cases h with
  | list h1 h2 hne =>
    cases hs with
    | list hl =>
      simp only [asks]
      rw [if_pos hl]
      exact .inl ⟨hne, zip h1 h2⟩
  | tuple h1 h2 hne => exact .inl ⟨hne, List.mem_append_left _ (zip h1 h2)⟩
  | dict hm hg hne =>
    cases hs with
    | dict hl _ =>
      simp only [asks]
      rw [if_pos hl]
      refine .inl ⟨hne, List.mem_map.2 ⟨_, hm, ?_⟩⟩
      unfold askEntry
      simp only [hg]
  | record he hk hv hw =>
    simp only [asks]
    rw [if_pos he]
    refine .inr (List.mem_map.2 ⟨_, hk, ?_⟩)
    unfold askField
    simp only [attr_get hv, attr_get hw]

theorem eqN_leaves {E : Env W} {cls : W.Cls → RecClass W} {h : W.Obj → Node W} {n : Nat} {a b : W.Obj} (hl : BothLeaves h a b) :
    eqN E cls h (n + 1) a b = .ok (W.eq a b) := by
  rw [eqN, hl.1, hl.2]

theorem eqN_parts {E : Env W} {cls : W.Cls → RecClass W} {h : W.Obj → Node W} {n : Nat} {a b : W.Obj} (hl : ¬ BothLeaves h a b) :
    eqN E cls h (n + 1) a b = firstNo ((asks E cls (h a) (h b)).map (Ask.answer (eqN E cls h n))) := by
  rw [eqN]
  split
  · next h1 h2 => exact absurd ⟨h1, h2⟩ hl
  · rfl

theorem shape_parts {h : W.Obj → Node W} {a b : W.Obj} (hs : SameShape (h a) (h b)) : ¬ BothLeaves h a b := by
  rintro ⟨h1, h2⟩
  rw [h1, h2] at hs
  cases hs

theorem compared_parts {cls : W.Cls → RecClass W} {h : W.Obj → Node W} {a b x y : W.Obj} (hs : ComparedIn cls (h a) (h b) x y) : ¬ BothLeaves h a b := by
  rintro ⟨h1, h2⟩
  rw [h1, h2] at hs
  cases hs

theorem nodeFull {cls : W.Cls → RecClass W} {h : W.Obj → Node W} {a : W.Obj} (hf : OrdinaryIn cls h a) : NodeFull cls (h a) := fun i hi =>
  (hf a i (.refl _) hi).1

theorem compared_child {cls : W.Cls → RecClass W} {p q : Node W} {x y : W.Obj} (hc : ComparedIn cls p q x y) : x ∈ p.children ∧ y ∈ q.children := by
  cases hc with
  | list h h' _ => exact ⟨List.mem_of_getElem? h, List.mem_of_getElem? h'⟩
  | tuple h h' _ => exact ⟨List.mem_of_getElem? h, List.mem_of_getElem? h'⟩
  | dict h h' _ => exact ⟨List.mem_map.2 ⟨_, h, rfl⟩, List.mem_map.2 ⟨_, Dict.get?_eq_some_mem _ _ _ h', rfl⟩⟩
  | record _ _ h h' => exact ⟨List.mem_map.2 ⟨_, Dict.get?_eq_some_mem _ _ _ h, rfl⟩, List.mem_map.2 ⟨_, Dict.get?_eq_some_mem _ _ _ h', rfl⟩⟩

theorem full_left {cls : W.Cls → RecClass W} {h : W.Obj → Node W} {a b x y : W.Obj} (hf : OrdinaryIn cls h a)
    (hc : ComparedIn cls (h a) (h b) x y) : OrdinaryIn cls h x := fun r i hr => hf r i (.step (compared_child hc).1 hr)

theorem full_right {cls : W.Cls → RecClass W} {h : W.Obj → Node W} {a b x y : W.Obj} (hf : OrdinaryIn cls h b)
    (hc : ComparedIn cls (h a) (h b) x y) : OrdinaryIn cls h y := fun r i hr => hf r i (.step (compared_child hc).2 hr)

theorem eqN_succ {E : Env W} {cls : W.Cls → RecClass W} {h : W.Obj → Node W} : ∀ (n : Nat) (a b : W.Obj) (r : Bool),
    eqN E cls h n a b = .ok r → eqN E cls h (n + 1) a b = .ok r := by
  intro n
  induction n with
  | zero => intro a b r hr; cases hr
  | succ n ih =>
    intro a b r hr
    by_cases hl : BothLeaves h a b
    · rw [eqN_leaves hl] at hr ⊢; exact hr
    · rw [eqN_parts hl] at hr ⊢
      refine firstNo_mono (fun q _ b hq => ?_) hr
      cases q with
      | known c => exact hq
      | fail e => exact hq
      | field x y => exact ih x y b hq
      | item x y =>
        simp only [Ask.answer] at hq ⊢
        split
        · next e => rw [if_pos e] at hq; exact hq
        · next e => rw [if_neg e] at hq; exact ih x y b hq

theorem eqN_le {E : Env W} {cls : W.Cls → RecClass W} {h : W.Obj → Node W} {n m : Nat} (hnm : n ≤ m) {a b : W.Obj} {r : Bool}
    (hr : eqN E cls h n a b = .ok r) : eqN E cls h m a b = .ok r := by
  induction hnm with
  | refl => exact hr
  | step _ ih => exact eqN_succ _ _ _ _ ih

theorem enough {E : Env W} {cls : W.Cls → RecClass W} {h : W.Obj → Node W} {l : List (Ask W)}
    (hl : ∀ q ∈ l, ∃ n, ∀ m, n ≤ m → q.answer (eqN E cls h m) = .ok true) :
    ∃ n, ∀ q ∈ l, q.answer (eqN E cls h n) = .ok true := by
  have key : ∃ n, ∀ q ∈ l, ∀ m, n ≤ m → q.answer (eqN E cls h m) = .ok true := by
    induction l with
    | nil => exact ⟨0, fun _ h => nomatch h⟩
    | cons q l ih =>
      obtain ⟨n1, h1⟩ := hl q (List.mem_cons_self ..)
      obtain ⟨n2, h2⟩ := ih fun q hq => hl q (List.mem_cons_of_mem _ hq)
      refine ⟨max n1 n2, fun q' hq' m hm => ?_⟩
      rcases List.mem_cons.1 hq' with rfl | hq'
      · exact h1 m (by omega)
      · exact h2 q' hq' m (by omega)
  obtain ⟨n, hn⟩ := key
  exact ⟨n, fun q hq => hn q hq n (Nat.le_refl n)⟩

end Comparing

open Comparing

/-- **C132.** The model asks what `RecordBase.__eq__` asks: with `==` of the values given, records of classes that are not frozen compare
as in C67. -/
theorem C132_record (E : Env W) (H : Hasher W) (cls : W.Cls → RecClass W) (i j : Inst W) (s : LState W) (hz : (cls i.cid).frozen = false) :
    firstNo ((asks E cls (.record i) (.record j)).map (Ask.answer fun x y => .ok (W.eq x y))) = (eqInst E H (cls i.cid) i j s).1 := by
  simp only [asks, eqInst, hz]
  by_cases he : i.cid = j.cid
  · rw [if_pos he, if_neg fun h => h he, if_neg (by simp), List.map_map]
    generalize (cls i.cid).fields.keys = ks
    induction ks with
    | nil => rfl
    | cons k ks ih =>
      simp only [List.map_cons, Function.comp, eqFields, askField]
      cases hi : i.attr E k with
      | error e => rfl
      | ok v =>
        cases hj : j.attr E k with
        | error e => rfl
        | ok w =>
          simp only [Ask.answer]
          cases hw : W.eq v w with
          | false => rfl
          | true => exact ih
  · rw [if_neg he, if_pos he]
    rfl

/-- **C132.** Once `==` returns, its answer does not depend on the recursion limit. -/
theorem C132_limit (E : Env W) (cls : W.Cls → RecClass W) (h : W.Obj → Node W) {n m : Nat} (hnm : n ≤ m) {a b : W.Obj} {r : Bool}
    (hr : eqN E cls h n a b = .ok r) : eqN E cls h m a b = .ok r :=
  eqN_le hnm hr

/-- **C132.** `==` returns True, with some recursion limit, exactly for trees of the same shape with equal leaves (up to identical
elements). -/
theorem C132_equal (E : Env W) {cls : W.Cls → RecClass W} {h : W.Obj → Node W} {a b : W.Obj} (hf : OrdinaryIn cls h a)
    (hf' : OrdinaryIn cls h b) : (∃ n, eqN E cls h n a b = .ok true) ↔ Agrees cls h a b := by
  constructor
  · rintro ⟨n, hn⟩
    induction n generalizing a b with
    | zero => cases hn
    | succ n ih =>
      by_cases hl : BothLeaves h a b
      · rw [eqN_leaves hl] at hn
        exact .leaf hl (by cases he : W.eq a b <;> simp_all)
      · rw [eqN_parts hl, firstNo_true] at hn
        have hn' : ∀ q ∈ asks E cls (h a) (h b), q.answer (eqN E cls h n) = .ok true := fun q hq => hn _ (List.mem_map.2 ⟨q, hq, rfl⟩)
        have hs : SameShape (h a) (h b) := Classical.byContradiction fun hs => by cases hn' _ (asks_shape hs)
        refine .parts hs fun x y hxy => ?_
        rcases asks_compared hs hxy with ⟨hne, hq⟩ | hq
        · have := hn' _ hq
          rw [Ask.answer, if_neg hne] at this
          exact ih (full_left hf hxy) (full_right hf' hxy) this
        · exact ih (full_left hf hxy) (full_right hf' hxy) (hn' _ hq)
  · intro hag
    induction hag with
    | leaf hl he => exact ⟨1, by rw [eqN_leaves hl, he]⟩
    | @parts a b hs _ ih =>
      have hq : ∀ q ∈ asks E cls (h a) (h b), ∃ n, ∀ m, n ≤ m → q.answer (eqN E cls h m) = .ok true := by
        intro q hq
        have hm := asks_means (nodeFull hf) (nodeFull hf') q hq
        cases q with
        | known c =>
          cases c with
          | false => exact absurd hs (hm rfl)
          | true => exact ⟨0, fun _ _ => rfl⟩
        | fail e => exact hm.elim
        | field x y =>
          obtain ⟨n, hn⟩ := ih x y hm (full_left hf hm) (full_right hf' hm)
          exact ⟨n, fun m hnm => eqN_le hnm hn⟩
        | item x y =>
          by_cases hxy : x = y
          · exact ⟨0, fun m _ => by rw [Ask.answer, if_pos hxy]⟩
          · obtain ⟨n, hn⟩ := ih x y (hm hxy) (full_left hf (hm hxy)) (full_right hf' (hm hxy))
            exact ⟨n, fun m hnm => by rw [Ask.answer, if_neg hxy]; exact eqN_le hnm hn⟩
      obtain ⟨n, hn⟩ := enough hq
      refine ⟨n + 1, ?_⟩
      rw [eqN_parts (shape_parts hs), firstNo_true]
      intro c hc
      obtain ⟨q, hq, rfl⟩ := List.mem_map.1 hc
      exact hn q hq

/-- **C132.** Objects of different kinds, lists or dicts of different lengths and records of different classes are unequal at once, whatever
is inside. -/
theorem C132_unlike (E : Env W) (cls : W.Cls → RecClass W) {h : W.Obj → Node W} {a b : W.Obj} (hu : UnlikeAtOnce (h a) (h b)) (n : Nat) :
    eqN E cls h (n + 1) a b = .ok false := by
  have hl : ¬ BothLeaves h a b := by
    rintro ⟨h1, h2⟩
    rw [h1, h2] at hu
    cases hu with
    | kind _ _ _ _ h => exact h ⟨rfl, rfl⟩
  rw [eqN_parts hl]
  have key : asks E cls (h a) (h b) = [.known false] := by
    generalize h a = p at hu
    generalize h b = q at hu
    cases hu with
    | list h => exact if_neg h
    | dict h => exact if_neg h
    | record h => exact if_neg h
    | kind h1 h2 h3 h4 _ =>
      cases p <;> cases q <;> first | rfl | exact absurd ⟨rfl, rfl⟩ (h1 _ _) | exact absurd ⟨rfl, rfl⟩ (h2 _ _) | exact absurd ⟨rfl, rfl⟩ (h3 _ _) |
        exact absurd ⟨rfl, rfl⟩ (h4 _ _)
  rw [key]
  rfl

/-- **C132.** If `==` returns False there is a difference: at the same place of both, unequal leaves or things of different shape. -/
theorem C132_differ (E : Env W) {cls : W.Cls → RecClass W} {h : W.Obj → Node W} {n : Nat} {a b : W.Obj} (hf : OrdinaryIn cls h a)
    (hf' : OrdinaryIn cls h b) (hn : eqN E cls h n a b = .ok false) : Disagrees cls h a b := by
  induction n generalizing a b with
  | zero => cases hn
  | succ n ih =>
    by_cases hl : BothLeaves h a b
    · rw [eqN_leaves hl] at hn
      exact .leaf hl (by cases he : W.eq a b <;> simp_all)
    · rw [eqN_parts hl] at hn
      rcases firstNo_mem ((asks E cls (h a) (h b)).map (Ask.answer (eqN E cls h n))) with e | hc
      · rw [e] at hn; cases hn
      · rw [hn] at hc
        obtain ⟨q, hq, e⟩ := List.mem_map.1 hc
        have hm := asks_means (nodeFull hf) (nodeFull hf') q hq
        cases q with
        | known c => cases e; exact .shape hl (hm rfl)
        | fail e => exact hm.elim
        | field x y => exact .part hm (ih (full_left hf hm) (full_right hf' hm) e)
        | item x y =>
          by_cases hxy : x = y
          · rw [Ask.answer, if_pos hxy] at e; cases e
          · rw [Ask.answer, if_neg hxy] at e
            exact .part (hm hxy) (ih (full_left hf (hm hxy)) (full_right hf' (hm hxy)) e)

/-- **C132.** No two objects agree and differ. -/
theorem C132_exclusive {cls : W.Cls → RecClass W} {h : W.Obj → Node W} {a b : W.Obj} (hd : Disagrees cls h a b) : ¬ Agrees cls h a b := by
  induction hd with
  | leaf hl he =>
    intro ha
    cases ha with
    | leaf _ e => rw [he] at e; cases e
    | parts hs _ => exact shape_parts hs hl
  | shape hl hs =>
    intro ha
    cases ha with
    | leaf hl' _ => exact hl hl'
    | parts hs' _ => exact hs hs'
  | part hc _ ih =>
    intro ha
    cases ha with
    | leaf hl _ => exact compared_parts hc hl
    | parts _ hp => exact ih (hp _ _ hc)

/-- **C132.** RecursionError is the only exception. -/
theorem C132_only (E : Env W) {cls : W.Cls → RecClass W} {h : W.Obj → Node W} {n : Nat} {a b : W.Obj} {e : Exc} (hf : OrdinaryIn cls h a)
    (hf' : OrdinaryIn cls h b) (hn : eqN E cls h n a b = .error e) : e = .recursionError := by
  induction n generalizing a b with
  | zero => cases hn; rfl
  | succ n ih =>
    by_cases hl : BothLeaves h a b
    · rw [eqN_leaves hl] at hn; cases hn
    · rw [eqN_parts hl] at hn
      rcases firstNo_mem ((asks E cls (h a) (h b)).map (Ask.answer (eqN E cls h n))) with e' | hc
      · rw [e'] at hn; cases hn
      · rw [hn] at hc
        obtain ⟨q, hq, e'⟩ := List.mem_map.1 hc
        have hm := asks_means (nodeFull hf) (nodeFull hf') q hq
        cases q with
        | known c => cases e'
        | fail e => exact hm.elim
        | field x y => exact ih (full_left hf hm) (full_right hf' hm) e'
        | item x y =>
          by_cases hxy : x = y
          · rw [Ask.answer, if_pos hxy] at e'; cases e'
          · rw [Ask.answer, if_neg hxy] at e'
            exact ih (full_left hf (hm hxy)) (full_right hf' (hm hxy)) e'

/-- **C132.** If no chain of references from one of them is longer than `R`, `==` returns when the recursion limit allows for `R + 1` nested
comparisons. -/
theorem C132_ends (E : Env W) {cls : W.Cls → RecClass W} {h : W.Obj → Node W} (R : Nat) (a b : W.Obj) (hf : OrdinaryIn cls h a)
    (hf' : OrdinaryIn cls h b) (ha : Shallow h a R) {n : Nat} (hn : R < n) : ∃ r, eqN E cls h n a b = .ok r := by
  induction n generalizing a b R with
  | zero => omega
  | succ n ih =>
    by_cases hl : BothLeaves h a b
    · exact ⟨_, eqN_leaves hl⟩
    · rw [eqN_parts hl]
      rcases firstNo_mem ((asks E cls (h a) (h b)).map (Ask.answer (eqN E cls h n))) with e | hc
      · exact ⟨_, e⟩
      · obtain ⟨q, hq, e⟩ := List.mem_map.1 hc
        rw [← e]
        have hm := asks_means (nodeFull hf) (nodeFull hf') q hq
        have key : ∀ x y, ComparedIn cls (h a) (h b) x y → ∃ r, eqN E cls h n x y = .ok r := by
          intro x y hxy
          have hx := (compared_child hxy).1
          have h1 : 1 ≤ R := ha x 1 (.step hx (.zero x))
          exact ih (R - 1) x y (full_left hf hxy) (full_right hf' hxy) (fun c k hk => by have := ha c (k + 1) (.step hx hk); omega) (by omega)
        cases q with
        | known c => exact ⟨_, rfl⟩
        | fail e => exact hm.elim
        | field x y => exact key x y hm
        | item x y =>
          by_cases hxy : x = y
          · exact ⟨true, by rw [Ask.answer, if_pos hxy]⟩
          · rw [Ask.answer, if_neg hxy]; exact key x y (hm hxy)

/-- **C132.** Counterparts whose comparison leads back to itself cannot be compared: RecursionError, whatever the recursion limit. -/
theorem C132_loops (E : Env W) {cls : W.Cls → RecClass W} {h : W.Obj → Node W} {φ : W.Obj → W.Obj → Prop}
    (hφ : Counterparts cls h φ) {a b c d : W.Obj} (hf : OrdinaryIn cls h a) (hf' : OrdinaryIn cls h b) (hab : φ a b) (hcd : a = c ∧ b = d ∨ LeadsTo cls h a b c d) (hloop : LeadsTo cls h c d c d)
    (n : Nat) : eqN E cls h n a b = .error .recursionError := by
  have no : ¬ Disagrees cls h a b := by
    intro hd
    clear hcd hf hf'
    induction hd with
    | leaf hl he =>
      rcases hφ _ _ hab with ⟨_, e⟩ | ⟨hs, _⟩
      · rw [he] at e; cases e
      · exact shape_parts hs hl
    | shape hl hs =>
      rcases hφ _ _ hab with ⟨hl', _⟩ | ⟨hs', _⟩
      · exact hl hl'
      · exact hs hs'
    | part hc _ ih =>
      rcases hφ _ _ hab with ⟨hl, _⟩ | ⟨_, hp⟩
      · exact compared_parts hc hl
      · exact ih (hp _ _ hc)
  have along : ∀ {a b x y}, LeadsTo cls h a b x y → ∃ u v, ComparedIn cls (h a) (h b) u v ∧ (u = x ∧ v = y ∨ LeadsTo cls h u v x y) := by
    intro a b x y hl
    cases hl with
    | one h => exact ⟨_, _, h, .inl ⟨rfl, rfl⟩⟩
    | more h1 h2 => exact ⟨_, _, h1, .inr h2⟩
  have yes : ¬ Agrees cls h a b := by
    intro ha
    clear hab no hf hf'
    induction ha with
    | @leaf a b hl _ =>
      have : LeadsTo cls h a b c d := by
        rcases hcd with ⟨rfl, rfl⟩ | hcd
        · exact hloop
        · exact hcd
      obtain ⟨_, _, hc, _⟩ := along this
      exact compared_parts hc hl
    | @parts a b _ _ ih =>
      have : LeadsTo cls h a b c d := by
        rcases hcd with ⟨rfl, rfl⟩ | hcd
        · exact hloop
        · exact hcd
      obtain ⟨u, v, hc, hr⟩ := along this
      exact ih u v hc hr
  rcases hr : eqN E cls h n a b with e | r
  · rw [C132_only E hf hf' hr]
  · cases r with
    | false => exact absurd (C132_differ E hf hf' hr) no
    | true => exact absurd ((C132_equal E hf hf').1 ⟨n, hr⟩) yes

theorem Comparing.part_compared {cls : W.Cls → RecClass W} {p q : Node W} (hs : SameShape p q) (hq : NodeFull cls q) {x : W.Obj} (hx : PartOf cls p x)
    (ha : ¬ PartOf cls q x) : ∃ y, ComparedIn cls p q x y := by
  cases hx with
  | list hx =>
    cases hs with
    | @list xs ys hl =>
      obtain ⟨n, hn⟩ := List.getElem?_of_mem hx
      have hlt : n < ys.length := by rw [← hl]; exact (List.getElem?_eq_some_iff.1 hn).1
      exact ⟨_, .list hn (List.getElem?_eq_getElem hlt) fun e => ha (.list (e ▸ List.getElem_mem hlt))⟩
  | tuple hx =>
    cases hs with
    | @tuple xs ys hl =>
      obtain ⟨n, hn⟩ := List.getElem?_of_mem hx
      have hlt : n < ys.length := by rw [← hl]; exact (List.getElem?_eq_some_iff.1 hn).1
      exact ⟨_, .tuple hn (List.getElem?_eq_getElem hlt) fun e => ha (.tuple (e ▸ List.getElem_mem hlt))⟩
  | dict hx =>
    cases hs with
    | dict _ hk =>
      obtain ⟨y, hy⟩ := Option.isSome_iff_exists.1 ((Dict.get?_isSome_iff ..).2 (hk _ (List.mem_map.2 ⟨_, hx, rfl⟩)))
      refine ⟨y, .dict hx hy ?_⟩
      rintro rfl
      exact ha (.dict (Dict.get?_eq_some_mem _ _ _ hy))
  | record hk hx =>
    cases hs with
    | record he =>
      obtain ⟨y, hy⟩ := full_get (hq _ rfl) (he ▸ hk)
      exact ⟨y, .record he hk hx hy⟩

theorem Comparing.immutable_child {h : W.Obj → Node W} {a c : W.Obj} (ha : Immutable h a) (hc : c ∈ (h a).children) : Immutable h c := by
  cases ha with
  | atom e => rw [e] at hc; cases hc
  | tuple e hi => rw [e] at hc; exact hi c hc

theorem Comparing.part_child {cls : W.Cls → RecClass W} {p : Node W} {x : W.Obj} (hc : PartOf cls p x) : x ∈ p.children := by
  cases hc with
  | list h => exact h
  | tuple h => exact h
  | dict h => exact List.mem_map.2 ⟨_, h, rfl⟩
  | record _ h => exact List.mem_map.2 ⟨_, Dict.get?_eq_some_mem _ _ _ h, rfl⟩

theorem Comparing.immutable_inside {cls : W.Cls → RecClass W} {h : W.Obj → Node W} {a c : W.Obj} (hc : HasInside cls h a c) :
    Immutable h a → Immutable h c := by
  induction hc with
  | one hx => exact fun ha => immutable_child ha (part_child hx)
  | more hx _ ih => exact fun ha => ih (immutable_child ha (part_child hx))

theorem Comparing.inside_trans {cls : W.Cls → RecClass W} {h : W.Obj → Node W} {a b c : W.Obj} (hab : HasInside cls h a b)
    (hbc : HasInside cls h b c) : HasInside cls h a c := by
  induction hab with
  | one hx => exact .more hx hbc
  | more hx _ ih => exact .more hx (ih hbc)

/-- an immutable object is not inside itself -/
theorem Comparing.immutable_once {cls : W.Cls → RecClass W} {h : W.Obj → Node W} {c : W.Obj} (hi : Immutable h c) : ¬ HasInside cls h c c := by
  induction hi with
  | atom e =>
    intro hc
    cases hc with
    | one hx => rw [e] at hx; cases hx
    | more hx _ => rw [e] at hx; cases hx
  | @tuple c xs e _ ih =>
    have mem : ∀ {x}, PartOf cls (h c) x → x ∈ xs := by
      intro x hx
      rw [e] at hx
      cases hx with
      | tuple hx => exact hx
    intro hc
    cases hc with
    | one hx => exact ih c (mem hx) (.one hx)
    | more hx hr => exact ih _ (mem hx) (inside_trans hr (.one hx))

theorem Comparing.inside_leads {cls : W.Cls → RecClass W} {h : W.Obj → Node W} {φ : W.Obj → W.Obj → Prop}
    (hφ : SeparateCopies cls h φ) {a c : W.Obj} (hc : HasInside cls h a c) (hn : ¬ Immutable h c) : ∀ b, φ a b →
    OrdinaryIn cls h b → ∃ d, φ c d ∧ OrdinaryIn cls h d ∧ LeadsTo cls h a b c d := by
  have step : ∀ {a b x}, PartOf cls (h a) x → ¬ Immutable h x → φ a b → OrdinaryIn cls h b → ∃ y, φ x y ∧ OrdinaryIn cls h y ∧ ComparedIn cls (h a) (h b) x y := by
    intro a b x hx hn hab hf'
    rcases hφ.alike a b hab with ⟨hl, _⟩ | ⟨hs, hp⟩
    · rw [hl.1] at hx; cases hx
    · obtain ⟨y, hy⟩ := part_compared hs (nodeFull hf') hx fun h => hn (hφ.apart a b x hab hx h)
      exact ⟨y, hp x y hy, full_right hf' hy, hy⟩
  induction hc with
  | one hx =>
    intro b hab hf'
    obtain ⟨y, h1, h0, h2⟩ := step hx hn hab hf'
    exact ⟨y, h1, h0, .one h2⟩
  | @more a x c hx hc ih =>
    intro b hab hf'
    obtain ⟨y, h1, h0, h2⟩ := step hx (fun hi => hn (immutable_inside hc hi)) hab hf'
    obtain ⟨d, h3, h5, h4⟩ := ih hn y h1 h0
    exact ⟨d, h3, h5, .more h2 h4⟩

/-- **C132.** Comparing an object that has something inside that is inside itself with a separate copy raises RecursionError, whatever the
recursion limit. -/
theorem C132_copies (E : Env W) {cls : W.Cls → RecClass W} {h : W.Obj → Node W} {φ : W.Obj → W.Obj → Prop}
    (hφ : SeparateCopies cls h φ) {a b c : W.Obj} (hf : OrdinaryIn cls h a) (hf' : OrdinaryIn cls h b) (hab : φ a b) (hac : a = c ∨ HasInside cls h a c) (hcc : HasInside cls h c c) (n : Nat) :
    eqN E cls h n a b = .error .recursionError := by
  have hn : ¬ Immutable h c := fun hi => Comparing.immutable_once hi hcc
  have hd : ∃ d, φ c d ∧ OrdinaryIn cls h d ∧ (a = c ∧ b = d ∨ LeadsTo cls h a b c d) := by
    rcases hac with rfl | hac
    · exact ⟨b, hab, hf', .inl ⟨rfl, rfl⟩⟩
    · obtain ⟨d, h1, h0, h2⟩ := Comparing.inside_leads hφ hac hn b hab hf'
      exact ⟨d, h1, h0, .inr h2⟩
  obtain ⟨d, hcd, hfd, hr⟩ := hd
  obtain ⟨d', h1, _, h2⟩ := Comparing.inside_leads hφ hcc hn d hcd hfd
  cases hφ.one c d d' hcd h1
  exact C132_loops E hφ.alike hf hf' hab hr h2 n

/-- answers by `==` as given -/
def Comparing.given : Ask W → Except Exc Bool := Ask.answer fun x y => .ok (W.eq x y)

theorem Comparing.given_item (x y : W.Obj) : given (.item x y) = .ok (sameItem x y) := by
  unfold given sameItem
  simp only [Ask.answer]
  by_cases h : x = y
  · rw [if_pos h, decide_eq_true h, Bool.true_or]
  · rw [if_neg h, decide_eq_false h, Bool.false_or]

theorem Comparing.firstNo_cons (b : Bool) (l : List (Except Exc Bool)) : firstNo (.ok b :: l) = if b then firstNo l else .ok false := by
  cases b <;> rfl

theorem Comparing.given_tuple : ∀ xs ys : List W.Obj,
    firstNo ((List.zipWith Ask.item xs ys).map given ++ [.ok (decide (xs.length = ys.length))]) = .ok (seqEq xs ys)
  | [], [] => rfl
  | [], _ :: _ => rfl
  | _ :: _, [] => rfl
  | x :: xs, y :: ys => by
    have e : decide ((x :: xs).length = (y :: ys).length) = decide (xs.length = ys.length) := by simp
    rw [e]
    simp only [List.zipWith_cons_cons, List.map_cons, List.cons_append, given_item, firstNo_cons, given_tuple xs ys, seqEq]
    cases sameItem x y <;> rfl

theorem Comparing.firstNo_end : ∀ l : List (Except Exc Bool), firstNo (l ++ [.ok true]) = firstNo l
  | [] => rfl
  | .error _ :: _ => rfl
  | .ok false :: _ => rfl
  | .ok true :: l => firstNo_end l

theorem Comparing.seqEq_length : ∀ {xs ys : List W.Obj}, xs.length ≠ ys.length → seqEq xs ys = false
  | [], [], h => absurd rfl h
  | [], _ :: _, _ => rfl
  | _ :: _, [], _ => rfl
  | x :: xs, y :: ys, h => by
    unfold seqEq
    rw [seqEq_length fun e => h (by simp [e]), Bool.and_false]

theorem Comparing.given_dict (m' : Dict W.Obj) : ∀ m : Dict W.Obj, firstNo ((m.map (askEntry m')).map given) =
    .ok (m.all fun kv => match m'.get? kv.1 with | some w => sameItem kv.2 w | none => false)
  | [] => rfl
  | (k, x) :: m => by
    simp only [List.map_cons, List.all_cons]
    have e : given (askEntry m' (k, x)) = .ok (match m'.get? k with | some w => sameItem x w | none => false) := by
      unfold askEntry
      cases h : m'.get? k with
      | none => rfl
      | some w => exact given_item x w
    rw [e, firstNo_cons, given_dict m' m]
    have : ∀ c d : Bool, (if c = true then (Except.ok d : Except Exc Bool) else .ok false) = .ok (c && d) := by
      intro c d
      cases c <;> rfl
    exact this _ _

theorem Comparing.given_node (E : Env W) (H : Hasher W) {cls : W.Cls → RecClass W} (s : LState W) {p q : Node W}
    (hz : ∀ i, p = .record i → (cls i.cid).frozen = false) (hl : ¬ (p = .atom ∧ q = .atom)) :
    nodeEq E H cls s p q = some (firstNo ((asks E cls p q).map given)) := by
  cases p with
  | atom => cases q <;> first | rfl | exact absurd ⟨rfl, rfl⟩ hl
  | list xs =>
    cases q with
    | list ys =>
      simp only [asks, nodeEq]
      by_cases h : xs.length = ys.length
      · rw [if_pos h, ← given_tuple, decide_eq_true h, firstNo_end]
      · rw [if_neg h, seqEq_length h]; rfl
    | _ => rfl
  | tuple xs =>
    cases q with
    | tuple ys =>
      simp only [asks, nodeEq]
      rw [← given_tuple, List.map_append]
      rfl
    | _ => rfl
  | dict m =>
    cases q with
    | dict m' =>
      simp only [asks, nodeEq, dictEq]
      by_cases h : m.length = m'.length
      · rw [if_pos h, given_dict, decide_eq_true h, Bool.true_and]
        rfl
      · rw [if_neg h, decide_eq_false h, Bool.false_and]; rfl
    | _ => rfl
  | record i =>
    cases q with
    | record j => exact congrArg some (C132_record E H cls i j s (hz i rfl)).symm
    | _ => rfl

/-- **C132.** Where no object contains itself, and `==` is as C122 assumes, this is what the library arrives at: `==` returns, when the
recursion limit is high enough, and its answer is that of C122. -/
theorem C132_nested {E : Env W} {H : Hasher W} {cls : W.Cls → RecClass W} {h : W.Obj → Node W} (hN : Nested E H cls h) (s : LState W) {a b : W.Obj}
    (hf : OrdinaryIn cls h a) (hf' : OrdinaryIn cls h b) :
    (∀ n r, eqN E cls h n a b = .ok r → r = W.eq a b) ∧ ∃ N, ∀ n, N ≤ n → eqN E cls h n a b = .ok (W.eq a b) := by
  have key : ∀ (n : Nat) a b, OrdinaryIn cls h a → OrdinaryIn cls h b → ∀ r, eqN E cls h n a b = .ok r → r = W.eq a b := by
    intro n
    induction n with
    | zero => intro a b _ _ r hr; cases hr
    | succ n ih =>
      intro a b hf hf' r hr
      by_cases hl : BothLeaves h a b
      · rw [eqN_leaves hl] at hr; cases hr; rfl
      · rw [eqN_parts hl] at hr
        have hg : firstNo ((asks E cls (h a) (h b)).map given) = .ok r := by
          refine firstNo_mono (fun q hq c hc => ?_) hr
          have hm := asks_means (nodeFull hf) (nodeFull hf') q hq
          cases q with
          | known d => exact hc
          | fail e => exact hc
          | field x y =>
            have := ih x y (full_left hf hm) (full_right hf' hm) c hc
            rw [this]; rfl
          | item x y =>
            by_cases hxy : x = y
            · rw [Ask.answer, if_pos hxy] at hc
              unfold given
              rw [Ask.answer, if_pos hxy]; exact hc
            · rw [Ask.answer, if_neg hxy] at hc
              have := ih x y (full_left hf (hm hxy)) (full_right hf' (hm hxy)) c hc
              unfold given
              rw [Ask.answer, if_neg hxy, this]
        refine (hN.eq a b s r ?_).symm
        rw [given_node E H s (fun i hi => (hf a i (.refl _) hi).2) hl, hg]
  refine ⟨fun n r => key n a b hf hf' r, ?_⟩
  obtain ⟨rank, hr⟩ := hN.depth
  have path : ∀ (k : Nat) (x c : W.Obj), Path h k x c → k + rank c ≤ rank x := by
    intro k x c hp
    induction hp with
    | zero => omega
    | step hc _ ih => have := hr _ _ hc; omega
  refine ⟨rank a + 1, fun n hn => ?_⟩
  obtain ⟨r, h1⟩ := C132_ends E (rank a) a b hf hf' (fun c k hk => by have := path k a c hk; omega) (n := n) (by omega)
  rw [h1, key n a b hf hf' r h1]

theorem Comparing.restored_shape {X : CopyEnv W} {φ : W.Obj → W.Obj → Prop} {p q : Node W} (hc : Restored X φ p q) (hd : ∀ m, p = .dict m → m.WF) :
    SameShape p q ∧ ∀ x y, ComparedIn X.cls p q x y → φ x y := by
  cases hc with
  | list hal =>
    refine ⟨.list (CopiesLemmas.along_len hal), fun x y hxy => ?_⟩
    cases hxy with
    | list h1 h2 _ => exact CopiesLemmas.along_at hal _ _ _ h1 h2
  | tuple hal =>
    refine ⟨.tuple (CopiesLemmas.along_len hal), fun x y hxy => ?_⟩
    cases hxy with
    | tuple h1 h2 _ => exact CopiesLemmas.along_at hal _ _ _ h1 h2
  | @dict m m' hk hal =>
    refine ⟨.dict ?_ (fun k h => hk ▸ h), fun x y hxy => ?_⟩
    · have := CopiesLemmas.along_len hal
      simpa [Dict.values] using this
    · cases hxy with
      | dict h1 h2 _ => exact CopiesLemmas.along_entry hk hal _ _ _ (Dict.mem_get? _ (hd m rfl) _ _ h1) h2
  | record hr =>
    refine ⟨.record hr.cls.symm, fun x y hxy => ?_⟩
    cases hxy with
    | record _ _ h1 h2 => exact hr.values _ _ _ (Dict.get?_eq_some_mem _ _ _ h1) (Dict.get?_eq_some_mem _ _ _ h2)

theorem Comparing.along_back {α β : Type} {r : α → β → Prop} : ∀ {xs : List α} {ys : List β}, Along r xs ys → ∀ y ∈ ys, ∃ x ∈ xs, r x y
  | [], [], _, y, hy => nomatch hy
  | x :: xs, z :: ys, h, y, hy => by
    rcases List.mem_cons.1 hy with rfl | hy
    · exact ⟨x, List.mem_cons_self .., h.1⟩
    · obtain ⟨x', h1, h2⟩ := along_back h.2 y hy
      exact ⟨x', List.mem_cons_of_mem _ h1, h2⟩

theorem Comparing.restored_back {X : CopyEnv W} {φ : W.Obj → W.Obj → Prop} {p q : Node W} (hc : Restored X φ p q) :
    ∀ y ∈ q.children, ∃ x ∈ p.children, φ x y := by
  intro y hy
  cases hc with
  | list hal => exact along_back hal y hy
  | tuple hal => exact along_back hal y hy
  | dict hk hal => exact along_back hal y hy
  | @record i j hr =>
    obtain ⟨⟨k, w⟩, hm, rfl⟩ := List.mem_map.1 hy
    obtain ⟨⟨k', v⟩, hm', e⟩ := List.mem_map.1 ((hr.keys k).1 (List.mem_map.2 ⟨_, hm, rfl⟩))
    cases e
    exact ⟨v, List.mem_map.2 ⟨_, hm', rfl⟩, hr.values _ v w hm' hm⟩

/-- **C132.** An object that has something inside that is inside itself cannot be compared with what its pickle is loaded to, in a process
(`g`) in which it still exists: RecursionError, whatever the recursion limit. -/
theorem C132_pickle (E : Env W) {X : CopyEnv W} {h g g' : W.Obj → Node W} {next : Nat} {x y c : W.Obj} {φ : W.Obj → W.Obj → Prop}
    (hs : PickleSource X h next x) (hk : ∀ a, Reaches h x a → ¬ NewObj X next a ∧ g a = h a) (hl : SelfEqual h x)
    (hz : ∀ r i, Reaches h x r → h r = .record i → (X.cls i.cid).frozen = false) (hφ : Unpickled X h x g next y g' φ) (hc : x = c ∨ HasInside X.cls h x c) (hcc : HasInside X.cls h c c) (n : Nat) :
    eqN E X.cls g' n x y = .error .recursionError := by
  have hkept : ∀ a, Reaches h x a → g' a = h a := fun a ha => (hφ.kept a (hk a ha).1).trans (hk a ha).2
  have src : ∀ {a b}, φ a b → Reaches h x a := fun hab => (hφ.source _).1 ⟨_, hab⟩
  have hφ' : SeparateCopies X.cls g' φ := by
    refine ⟨fun a b hab => ?_, hφ.same, fun a b o hab h1 h2 => ?_⟩
    · rcases hφ.restored a b hab with ⟨hat, rfl⟩ | ⟨-, hr⟩
      · exact .inl ⟨⟨(hkept _ (src hab)).trans hat, (hkept _ (src hab)).trans hat⟩, hl _ (src hab) hat⟩
      · rw [hkept a (src hab)]
        exact .inr (restored_shape hr fun m hm => hs.dicts a m (src hab) hm)
    · rw [hkept a (src hab)] at h1
      have ho : Reaches h x o := Copying.reaches_trans (src hab) (.step (part_child h1) (.refl _))
      rcases hφ.restored a b hab with ⟨hat, rfl⟩ | ⟨-, hr⟩
      · rw [hat] at h1; cases h1
      · obtain ⟨o', _, h3⟩ := restored_back hr o (part_child h2)
        rcases hφ.restored o' o h3 with ⟨hat, rfl⟩ | ⟨hn, -⟩
        · exact .atom ((hkept _ ho).trans hat)
        · exact absurd hn (hk o ho).1
  have inside : ∀ {a c}, HasInside X.cls h a c → Reaches h x a → HasInside X.cls g' a c ∧ Reaches h x c := by
    intro a c hi
    induction hi with
    | one hp => exact fun ha => ⟨.one (by rw [hkept _ ha]; exact hp), Copying.reaches_trans ha (.step (part_child hp) (.refl _))⟩
    | more hp _ ih =>
      intro ha
      obtain ⟨h1, h2⟩ := ih (Copying.reaches_trans ha (.step (part_child hp) (.refl _)))
      exact ⟨.more (by rw [hkept _ ha]; exact hp) h1, h2⟩
  have fullx : OrdinaryIn X.cls g' x := by
    have key : ∀ r, Reaches g' x r → Reaches h x r := by
      have : ∀ a r, Reaches g' a r → Reaches h x a → Reaches h x r := by
        intro a r hr
        induction hr with
        | refl => exact id
        | step hc _ ih => exact fun ha => ih (Copying.reaches_trans ha (.step (by rw [← hkept _ ha]; exact hc) (.refl _)))
      exact fun r hr => this x r hr (.refl _)
    intro r i hr hi
    have hi' : h r = .record i := by rw [← hkept r (key r hr)]; exact hi
    exact ⟨(hs.records r i (key r hr) hi').full, hz r i (key r hr) hi'⟩
  have fully : OrdinaryIn X.cls g' y := by
    have key : ∀ b r, Reaches g' b r → (∃ a, φ a b) → ∃ a, φ a r := by
      intro b r hr
      induction hr with
      | refl => exact id
      | step hc _ ih =>
        rintro ⟨a, hab⟩
        rcases hφ.restored a _ hab with ⟨hat, rfl⟩ | ⟨-, hr⟩
        · rw [(hkept _ (src hab)).trans hat] at hc; cases hc
        · obtain ⟨a', _, h3⟩ := restored_back hr _ hc
          exact ih ⟨a', h3⟩
    intro r i hr hi
    obtain ⟨a, har⟩ := key y r hr ⟨x, hφ.root⟩
    rcases hφ.restored a r har with ⟨hat, rfl⟩ | ⟨-, hres⟩
    · rw [(hkept _ (src har)).trans hat] at hi; cases hi
    · rw [hi] at hres
      generalize hu : h a = u at hres
      cases hres with
      | @record j _ hr =>
        rw [hr.cls]
        exact ⟨fun k hk => (hr.keys k).2 ((hs.records a j (src har) hu).full k hk), hz a j (src har) hu⟩
  have hxc : (x = c ∨ HasInside X.cls g' x c) ∧ Reaches h x c := by
    rcases hc with rfl | hc
    · exact ⟨.inl rfl, .refl _⟩
    · obtain ⟨h1, h2⟩ := inside hc (.refl _)
      exact ⟨.inr h1, h2⟩
  exact C132_copies E hφ' fullx fully hφ.root hxc.1 (inside hcc hxc.2).1 n

theorem Comparing.copied_shape {X : CopyEnv W} {φ : W.Obj → W.Obj → Prop} {p q : Node W} (hc : CopyOf X φ p q) (hd : ∀ m, p = .dict m → m.WF)
    (hk : ∀ i k f v, p = .record i → (k, f) ∈ (X.cls i.cid).fields → i.dict.get? k = some v → ¬ f.isPlainDefault v) :
    SameShape p q ∧ ∀ x y, ComparedIn X.cls p q x y → φ x y := by
  cases hc with
  | list hal =>
    refine ⟨.list (CopiesLemmas.along_len hal), fun x y hxy => ?_⟩
    cases hxy with
    | list h1 h2 _ => exact CopiesLemmas.along_at hal _ _ _ h1 h2
  | tuple hal =>
    refine ⟨.tuple (CopiesLemmas.along_len hal), fun x y hxy => ?_⟩
    cases hxy with
    | tuple h1 h2 _ => exact CopiesLemmas.along_at hal _ _ _ h1 h2
  | @dict m m' he hal =>
    refine ⟨.dict ?_ (fun k h => he ▸ h), fun x y hxy => ?_⟩
    · have := CopiesLemmas.along_len hal
      simpa [Dict.values] using this
    · cases hxy with
      | dict h1 h2 _ => exact CopiesLemmas.along_entry he hal _ _ _ (Dict.mem_get? _ (hd m rfl) _ _ h1) h2
  | record hr =>
    refine ⟨.record hr.cls.symm, fun x y hxy => ?_⟩
    cases hxy with
    | record _ _ h1 h2 =>
      obtain ⟨f, v, hf, hv, h3⟩ := hr.values _ _ (Dict.get?_eq_some_mem _ _ _ h2)
      cases h1.symm.trans hv
      rcases h3 with ⟨_, h3⟩ | ⟨h3, _⟩
      · exact h3
      · exact absurd h3 (hk _ _ f _ rfl hf hv)

theorem Comparing.copied_back {X : CopyEnv W} {φ : W.Obj → W.Obj → Prop} {p q : Node W} (hc : CopyOf X φ p q)
    (hk : ∀ i k f v, p = .record i → (k, f) ∈ (X.cls i.cid).fields → i.dict.get? k = some v → ¬ f.isPlainDefault v) :
    ∀ y ∈ q.children, ∃ x ∈ p.children, φ x y := by
  intro y hy
  cases hc with
  | list hal => exact along_back hal y hy
  | tuple hal => exact along_back hal y hy
  | dict _ hal => exact along_back hal y hy
  | @record i j hr =>
    obtain ⟨⟨k, w⟩, hm, rfl⟩ := List.mem_map.1 hy
    obtain ⟨f, v, hf, hv, h3⟩ := hr.values k w hm
    rcases h3 with ⟨_, h3⟩ | ⟨h3, _⟩
    · exact ⟨v, List.mem_map.2 ⟨_, Dict.get?_eq_some_mem _ _ _ hv, rfl⟩, h3⟩
    · exact absurd h3 (hk _ k f v rfl hf hv)

/-- **C132.** An object that has something inside that is inside itself cannot be compared with its deep copy, if no field has its default
as its value: RecursionError, whatever the recursion limit. -/
theorem C132_deepcopy (E : Env W) {X : CopyEnv W} (hX : ∀ j k, X.fresh j = X.fresh k → j = k) {m : Nat} {x y c : W.Obj} {σ σ' : CState W}
    (h0 : σ.memo = []) (hs : CopySource X σ x) (ht : ∀ xs, σ.heap x ≠ .tuple xs) (hl : SelfEqual σ.heap x)
    (hd : ∀ a d, Reaches σ.heap x a → σ.heap a = .dict d → d.WF)
    (hz : ∀ r i, Reaches σ.heap x r → σ.heap r = .record i → (X.cls i.cid).frozen = false)
    (hk : ∀ r i k f v, Reaches σ.heap x r → σ.heap r = .record i → (k, f) ∈ (X.cls i.cid).fields → i.dict.get? k = some v → ¬ f.isPlainDefault v)
    (hcopy : deepcopy X m x σ = (.ok y, σ')) (hc : x = c ∨ HasInside X.cls σ.heap x c) (hcc : HasInside X.cls σ.heap c c) (n : Nat) :
    eqN E X.cls σ'.heap n x y = .error .recursionError := by
  obtain ⟨φ, hφ⟩ := C121_copy hX h0 hs ht hcopy
  have hkept : ∀ a, Reaches σ.heap x a → σ'.heap a = σ.heap a := fun a ha => hφ.kept a (hs.known a ha)
  have src : ∀ {a b}, φ a b → Reaches σ.heap x a := fun hab => hφ.source _ _ hab
  have imm : ∀ {a}, Immutable σ.heap a → Reaches σ.heap x a → Immutable σ'.heap a := by
    intro a hi
    induction hi with
    | atom e => exact fun ha => .atom ((hkept _ ha).trans e)
    | @tuple a xs e _ ih =>
      exact fun ha => .tuple ((hkept _ ha).trans e) fun c hc => ih c hc (Copying.reaches_trans ha (.step (by rw [e]; exact hc) (.refl _)))
  have hφ' : SeparateCopies X.cls σ'.heap φ := by
    refine ⟨fun a b hab => ?_, hφ.same, fun a b o hab h1 h2 => ?_⟩
    · rcases hφ.copy a b hab with ⟨him, rfl⟩ | ⟨-, hr⟩
      · cases imm him (src hab) with
        | atom e => exact .inl ⟨⟨e, e⟩, hl _ (src hab) ((hkept _ (src hab)).symm.trans e)⟩
        | tuple e _ =>
          refine .inr ⟨by rw [e]; exact .tuple rfl, fun u v huv => ?_⟩
          rw [e] at huv
          cases huv with
          | tuple h1 h2 h3 => exact absurd (Option.some.inj (h1.symm.trans h2)) h3
      · rw [hkept a (src hab)]
        exact .inr (copied_shape hr (fun d hd' => hd a d (src hab) hd')
          fun i k f v hi => hk a i k f v (src hab) hi)
    · rw [hkept a (src hab)] at h1
      have ho : Reaches σ.heap x o := Copying.reaches_trans (src hab) (.step (part_child h1) (.refl _))
      rcases hφ.copy a b hab with ⟨him, rfl⟩ | ⟨-, hr⟩
      · exact imm (immutable_child him (part_child h1)) ho
      · obtain ⟨o', _, h3⟩ := copied_back hr (fun i k f v hi => hk a i k f v (src hab) hi) o (part_child h2)
        rcases hφ.copy o' o h3 with ⟨him, rfl⟩ | ⟨hn, -⟩
        · exact imm him ho
        · exact absurd hn (hs.known o ho)
  have inside : ∀ {a c}, HasInside X.cls σ.heap a c → Reaches σ.heap x a → HasInside X.cls σ'.heap a c ∧ Reaches σ.heap x c := by
    intro a c hi
    induction hi with
    | one hp => exact fun ha => ⟨.one (by rw [hkept _ ha]; exact hp), Copying.reaches_trans ha (.step (part_child hp) (.refl _))⟩
    | more hp _ ih =>
      intro ha
      obtain ⟨h1, h2⟩ := ih (Copying.reaches_trans ha (.step (part_child hp) (.refl _)))
      exact ⟨.more (by rw [hkept _ ha]; exact hp) h1, h2⟩
  have fullx : OrdinaryIn X.cls σ'.heap x := by
    have key : ∀ a r, Reaches σ'.heap a r → Reaches σ.heap x a → Reaches σ.heap x r := by
      intro a r hr
      induction hr with
      | refl => exact id
      | step hc _ ih => exact fun ha => ih (Copying.reaches_trans ha (.step (by rw [← hkept _ ha]; exact hc) (.refl _)))
    intro r i hr hi
    have hx := key x r hr (.refl _)
    have hi' : σ.heap r = .record i := by rw [← hkept r hx]; exact hi
    exact ⟨(hs.ok r i hx hi').full, hz r i hx hi'⟩
  have fully : OrdinaryIn X.cls σ'.heap y := by
    have key : ∀ b r, Reaches σ'.heap b r → ((∃ a, φ a b) ∨ Immutable σ'.heap b) → (∃ a, φ a r) ∨ Immutable σ'.heap r := by
      intro b r hr
      induction hr with
      | refl => exact id
      | step hc _ ih =>
        rintro (⟨a, hab⟩ | him)
        · rcases hφ.copy a _ hab with ⟨him, rfl⟩ | ⟨-, hr⟩
          · exact ih (.inr (immutable_child (imm him (src hab)) hc))
          · obtain ⟨a', _, h3⟩ := copied_back hr (fun i k f v hi => hk a i k f v (src hab) hi) _ hc
            exact ih (.inl ⟨a', h3⟩)
        · exact ih (.inr (immutable_child him hc))
    have none : ∀ {r i}, Immutable σ'.heap r → σ'.heap r ≠ .record i := by
      intro r i him e
      cases him with
      | atom e' => cases e.symm.trans e'
      | tuple e' _ => cases e.symm.trans e'
    intro r i hr hi
    rcases key y r hr (.inl ⟨x, hφ.root⟩) with ⟨a, har⟩ | him
    · rcases hφ.copy a r har with ⟨him, rfl⟩ | ⟨-, hres⟩
      · exact absurd hi (none (imm him (src har)))
      · rw [hi] at hres
        generalize hu : σ.heap a = u at hres
        cases hres with
        | @record j _ hr =>
          rw [hr.cls]
          exact ⟨fun k hk => hr.keys.mem_iff.2 hk, hz a j (src har) hu⟩
    · exact absurd hi (none him)
  have hxc : (x = c ∨ HasInside X.cls σ'.heap x c) ∧ Reaches σ.heap x c := by
    rcases hc with rfl | hc
    · exact ⟨.inl rfl, .refl _⟩
    · obtain ⟨h1, h2⟩ := inside hc (.refl _)
      exact ⟨.inr h1, h2⟩
  exact C132_copies E hφ' fullx fully hφ.root hxc.1 (inside hcc hxc.2).1 n

/-- **C132.** A list, tuple or dict is equal to itself, whatever is inside; a record whose leaves are equal to themselves is, unless it is
inside itself through fields only: then RecursionError. -/
theorem C132_self (E : Env W) {cls : W.Cls → RecClass W} {h : W.Obj → Node W} (hd : ∀ a m, h a = .dict m → m.WF)
    (hl : ∀ a, h a = .atom → W.eq a a = true) {a : W.Obj} (hf : OrdinaryIn cls h a) (n : Nat) :
    ((∀ i, h a ≠ .record i) → eqN E cls h (n + 1) a a = .ok true) ∧
    (eqN E cls h n a a = .ok true ∨ eqN E cls h n a a = .error .recursionError) ∧
    (LeadsTo cls h a a a a → eqN E cls h n a a = .error .recursionError) := by
  have shape : ∀ a, h a ≠ .atom → SameShape (h a) (h a) := by
    intro a ha
    cases e : h a with
    | atom => exact absurd e ha
    | list xs => exact .list rfl
    | tuple xs => exact .tuple rfl
    | dict m => exact .dict rfl fun _ h => h
    | record i => exact .record rfl
  have id : ∀ a x y, ComparedIn cls (h a) (h a) x y → x = y := by
    intro a x y hc
    cases e : h a with
    | atom => rw [e] at hc; cases hc
    | list xs => rw [e] at hc; cases hc with | list h1 h2 _ => exact Option.some.inj (h1.symm.trans h2)
    | tuple xs => rw [e] at hc; cases hc with | tuple h1 h2 _ => exact Option.some.inj (h1.symm.trans h2)
    | dict m => rw [e] at hc; cases hc with | dict h1 h2 _ => exact Option.some.inj ((Dict.mem_get? m (hd a m e) _ _ h1).symm.trans h2)
    | record i => rw [e] at hc; cases hc with | record _ _ h1 h2 => exact Option.some.inj (h1.symm.trans h2)
  have hφ : Counterparts cls h (fun a b => a = b) := by
    rintro a _ rfl
    by_cases e : h a = .atom
    · exact .inl ⟨⟨e, e⟩, hl a e⟩
    · exact .inr ⟨shape a e, id a⟩
  have no : ∀ a, ¬ Disagrees cls h a a := by
    have : ∀ a b, Disagrees cls h a b → a ≠ b := by
      intro a b hdis
      induction hdis with
      | @leaf a b hlv he => rintro rfl; rw [hl a hlv.1] at he; cases he
      | @shape a b h1 h2 => rintro rfl; exact h2 (shape a fun e => h1 ⟨e, e⟩)
      | @part a b x y h1 _ ih => rintro rfl; exact ih (id a x y h1)
    exact fun a h => this a a h rfl
  refine ⟨fun hr => ?_, ?_, fun hloop => C132_loops E hφ hf hf rfl (.inl ⟨rfl, rfl⟩) hloop n⟩
  · by_cases e : h a = .atom
    · rw [eqN_leaves ⟨e, e⟩, hl a e]
    · rw [eqN_parts fun h => e h.1, firstNo_true]
      intro c hc
      obtain ⟨q, hq, rfl⟩ := List.mem_map.1 hc
      have hm := asks_means (nodeFull hf) (nodeFull hf) q hq
      cases q with
      | known b =>
        cases b with
        | false => exact absurd (shape a e) (hm rfl)
        | true => rfl
      | fail e => exact hm.elim
      | item x y =>
        by_cases hxy : x = y
        · rw [Ask.answer, if_pos hxy]
        · exact absurd (id a x y (hm hxy)) hxy
      | field x y =>
        have hm' : ComparedIn cls (h a) (h a) x y := hm
        have hni : ∀ p q, ComparedIn cls p q x y → .field x y ∈ asks E cls p q → ∃ i, p = .record i := by
          intro p q hc hq
          cases hc with
          | list h1 h2 h3 =>
            simp only [asks] at hq
            split at hq
            · obtain ⟨n, hn⟩ := List.getElem?_of_mem hq
              rw [List.getElem?_zipWith] at hn
              split at hn <;> cases hn
            · cases List.mem_singleton.1 hq
          | tuple h1 h2 h3 =>
            rcases List.mem_append.1 hq with hq | hq
            · obtain ⟨n, hn⟩ := List.getElem?_of_mem hq
              rw [List.getElem?_zipWith] at hn
              split at hn <;> cases hn
            · cases List.mem_singleton.1 hq
          | dict h1 h2 h3 =>
            simp only [asks] at hq
            split at hq
            · obtain ⟨kv, _, hn⟩ := List.mem_map.1 hq
              unfold askEntry at hn
              split at hn <;> cases hn
            · cases List.mem_singleton.1 hq
          | record => exact ⟨_, rfl⟩
        obtain ⟨i, hi⟩ := hni _ _ hm' hq
        exact absurd hi (hr i)
  · rcases hr : eqN E cls h n a a with e | r
    · exact .inr (by rw [C132_only E hf hf hr])
    · cases r with
      | true => exact .inl rfl
      | false => exact absurd (C132_differ E hf hf hr) (no a)

end Records

namespace Records.Toy.Cmp
open Toy Comparing

/-- two records, each in the list in its own field: `x.x = [x]`, `y.x = [y]` -/
def twins : TObj → Node W
  | .int 1 => Cop.rec 7
  | .int 7 => .list [.int 1]
  | .int 2 => Cop.rec 8
  | .int 8 => .list [.int 2]
  | _ => .atom

/-- the copies -/
def copies (a b : TObj) : Prop := a = .int 1 ∧ b = .int 2 ∨ a = .int 7 ∧ b = .int 8 ∨ a = .int 3 ∧ b = .int 3

theorem twins_cases (r : TObj) : r = .int 1 ∨ r = .int 7 ∨ r = .int 2 ∨ r = .int 8 ∨ twins r = .atom := by
  unfold twins
  split <;> simp

theorem twins_full (a : TObj) : OrdinaryIn (W := W) Cop.X.cls twins a := by
  intro r i _ hi
  rcases twins_cases r with rfl | rfl | rfl | rfl | h
  all_goals first | (rw [h] at hi; cases hi; done) | cases hi
  · exact ⟨(Cop.copyable 7 3).full, rfl⟩
  · exact ⟨(Cop.copyable 8 3).full, rfl⟩

theorem part_rec {x y : Int} {o : TObj} (h : PartOf (W := W) Cop.X.cls (Cop.rec x y) o) : o = .int x ∨ o = .int y := by
  cases h with
  | @record i k x hk hx =>
    rcases Dict.get?_eq_some_mem _ _ _ hx with _ | ⟨_, _ | ⟨_, h⟩⟩
    · exact .inl rfl
    · exact .inr rfl
    · cases h

theorem compared_rec {x y x' : Int} {o o' : TObj} (h : ComparedIn (W := W) Cop.X.cls (Cop.rec x y) (Cop.rec x' y) o o') :
    o = .int x ∧ o' = .int x' ∨ o = .int y ∧ o' = .int y := by
  cases h with
  | @record i j o o' k he hk hx hy =>
    have hk' : k ∈ ["x", "y"] := hk
    rcases hk' with _ | ⟨_, _ | ⟨_, h⟩⟩
    · cases hx; cases hy; exact .inl ⟨rfl, rfl⟩
    · cases hx; cases hy; exact .inr ⟨rfl, rfl⟩
    · cases h

theorem twins_copies : SeparateCopies (W := W) Cop.X.cls twins copies := by
  refine ⟨?_, ?_, ?_⟩
  · rintro a b (⟨rfl, rfl⟩ | ⟨rfl, rfl⟩ | ⟨rfl, rfl⟩)
    · refine .inr ⟨.record rfl, fun x y hxy => ?_⟩
      rcases compared_rec (x := 7) (x' := 8) (y := 3) hxy with ⟨rfl, rfl⟩ | ⟨rfl, rfl⟩
      · exact .inr (.inl ⟨rfl, rfl⟩)
      · exact .inr (.inr ⟨rfl, rfl⟩)
    · refine .inr ⟨.list rfl, fun x y hxy => ?_⟩
      have hxy' : ComparedIn (W := W) Cop.X.cls (.list [TObj.int 1]) (.list [TObj.int 2]) x y := hxy
      cases hxy' with
      | @list _ _ _ _ n h1 h2 _ =>
        cases n with
        | zero => cases h1; cases h2; exact .inl ⟨rfl, rfl⟩
        | succ n => cases h1
    · exact .inl ⟨⟨rfl, rfl⟩, by decide⟩
  · rintro a b b' (⟨rfl, rfl⟩ | ⟨rfl, rfl⟩ | ⟨rfl, rfl⟩) (⟨h, rfl⟩ | ⟨h, rfl⟩ | ⟨h, rfl⟩) <;> first | rfl | cases h
  · rintro a b x (⟨rfl, rfl⟩ | ⟨rfl, rfl⟩ | ⟨rfl, rfl⟩) h1 h2
    · rcases part_rec (x := 7) (y := 3) h1 with rfl | rfl
      · rcases part_rec (x := 8) (y := 3) h2 with h | h <;> cases h
      · exact .atom rfl
    · have h1' : PartOf (W := W) Cop.X.cls (.list [TObj.int 1]) x := h1
      have h2' : PartOf (W := W) Cop.X.cls (.list [TObj.int 2]) x := h2
      cases h1' with
      | list h1 =>
        cases List.mem_singleton.1 h1
        cases h2' with
        | list h2 => cases List.mem_singleton.1 h2
    · cases h1

theorem twins_inside : HasInside (W := W) Cop.X.cls twins (.int 1) (.int 1) :=
  .more (b := TObj.int 7) (.record (k := "x") (List.mem_cons_self ..) rfl) (.one (.list (List.mem_cons_self ..)))

theorem A_thawed : (Cop.X.cls (mkA (.int 7) (.int 3)).cid).frozen = false := rfl

/-- each is equal to itself -/
example : eqN env Cop.X.cls twins 2 (.int 1) (.int 1) = .ok true := rfl
/-- but they cannot be compared with each other -/
example := C132_copies (W := W) env twins_copies (twins_full _) (twins_full _) (.inl ⟨rfl, rfl⟩) (.inl rfl) twins_inside
example := C132_record (W := W) env (hasher 0) Cop.X.cls (mkA (.int 7) (.int 3)) (mkA (.int 8) (.int 3)) s0 A_thawed
example := (C132_equal (W := W) env (twins_full (.int 1)) (twins_full (.int 1))).1 ⟨2, rfl⟩
example := C132_limit (W := W) env Cop.X.cls twins (n := 2) (m := 50) (by decide) (a := .int 1) (b := .int 1) (r := true) rfl

theorem cycle_inside : HasInside (W := W) Cop.X.cls Cop.cycle (.int 1) (.int 1) :=
  .more (b := TObj.int 7) (.record (k := "x") (List.mem_cons_self ..) rfl) (.one (.list (List.mem_cons_self ..)))

/-- a record in the list in its own field, pickled and loaded -/
example (n : Nat) : ∃ y s, Records.loads Cop.X Pic.cycleOps Cop.cycle 0 s0 = .ok (y, s) ∧
    eqN env Cop.X.cls s.heap n (.int 1) y = .error .recursionError := by
  obtain ⟨y, s, hy⟩ := C125_loads (W := Toy.W) (g := Cop.cycle) (t' := s0) Cop.inj Pic.cycle_source Pic.cycle_keeps Pic.cycle_dumps
  obtain ⟨φ, hφ⟩ := C125_restored (W := Toy.W) Cop.inj Pic.cycle_source Pic.cycle_dumps hy
  refine ⟨y, s, hy, C132_pickle (W := Toy.W) env Pic.cycle_source (fun a ha => ⟨?_, rfl⟩) (fun a _ _ => eq_refl a)
    (fun _ _ _ _ => rfl) hφ (.inl rfl) cycle_inside n⟩
  rcases Cop.cycle_reach a ha with rfl | rfl | rfl <;> exact Cop.old (by decide)

/-- lists of different lengths differ -/
def lists : TObj → Node W
  | .int 1 => .list [.int 5, .int 6]
  | .int 2 => .list [.int 5]
  | _ => .atom

theorem lists_cases (r : TObj) : r = .int 1 ∨ r = .int 2 ∨ lists r = .atom := by
  unfold lists
  split <;> simp

theorem lists_full (a : TObj) : OrdinaryIn (W := W) Cop.X.cls lists a := by
  intro r i _ hi
  rcases lists_cases r with rfl | rfl | h
  all_goals first | (rw [h] at hi; cases hi; done) | cases hi

theorem lists_differ : Disagrees (W := W) Cop.X.cls lists (.int 1) (.int 2) := C132_differ (W := W) env (n := 1) (lists_full _) (lists_full _) rfl
example := C132_exclusive lists_differ
example := C132_unlike (W := W) env Cop.X.cls (h := lists) (a := .int 1) (b := .int 2) (.list (by decide))

/-- tuples of different lengths are not: `p = ([p],)` and `q = ([q], 5)` -/
def tuples : TObj → Node W
  | .int 1 => .tuple [.int 3]
  | .int 2 => .tuple [.int 4, .int 5]
  | .int 3 => .list [.int 1]
  | .int 4 => .list [.int 2]
  | _ => .atom

theorem tuples_loop (n : Nat) : eqN env Cop.X.cls tuples n (.int 1) (.int 2) = .error .recursionError ∧
    eqN env Cop.X.cls tuples n (.int 3) (.int 4) = .error .recursionError := by
  induction n with
  | zero => exact ⟨rfl, rfl⟩
  | succ n ih =>
    constructor
    · show firstNo [eqN env Cop.X.cls tuples n (.int 3) (.int 4), .ok false] = _
      rw [ih.2]
      rfl
    · show firstNo [eqN env Cop.X.cls tuples n (.int 1) (.int 2)] = _
      rw [ih.1]
      rfl

theorem lists_shallow : Shallow (W := W) lists (.int 1) 1 := by
  have flat : ∀ {h : W.Obj → Node W} {k : Nat} {x a : W.Obj}, (h x).children = [] → Path h k x a → k = 0 := by
    intro h k x a hx hp
    cases hp with
    | zero => rfl
    | step hc _ => rw [hx] at hc; cases hc
  have near : ∀ {h : W.Obj → Node W} {k : Nat} {x a : W.Obj}, (∀ c ∈ (h x).children, (h c).children = []) → Path h k x a → k ≤ 1 := by
    intro h k x a hx hp
    cases hp with
    | zero => exact Nat.zero_le _
    | step hc hp => rw [flat (hx _ hc) hp]; exact Nat.le_refl _
  intro a k hp
  refine near ?_ hp
  intro c hc
  have hc' : c ∈ [TObj.int 5, TObj.int 6] := hc
  rcases hc' with _ | ⟨_, _ | ⟨_, h⟩⟩
  · rfl
  · rfl
  · cases h

example := C132_ends (W := W) env 1 (.int 1) (.int 2) (lists_full _) (lists_full _) lists_shallow (n := 2) (by decide)

/-- a record that is the value of its own field -/
def own : TObj → Node W
  | .int 1 => Cop.rec 1
  | _ => .atom

theorem own_cases (r : TObj) : r = .int 1 ∨ own r = .atom := by
  unfold own
  split <;> simp

theorem own_full (a : TObj) : OrdinaryIn (W := W) Cop.X.cls own a := by
  intro r i _ hi
  rcases own_cases r with rfl | h
  all_goals first | (rw [h] at hi; cases hi; done) | cases hi
  exact ⟨(Cop.copyable 1 3).full, rfl⟩

theorem own_loop : LeadsTo (W := W) Cop.X.cls own (.int 1) (.int 1) (.int 1) (.int 1) :=
  .one (.record (k := "x") rfl (List.mem_cons_self ..) rfl rfl)

theorem own_self (n : Nat) : eqN env Cop.X.cls own n (.int 1) (.int 1) = .error .recursionError := by
  refine (C132_self (W := W) env (fun a m hm => ?_) (fun a _ => ?_) (own_full (.int 1)) n).2.2 own_loop
  · rcases own_cases a with rfl | h
    · cases hm
    · rw [h] at hm; cases hm
  · exact eq_refl a

theorem twins_loop : LeadsTo (W := W) Cop.X.cls twins (.int 1) (.int 2) (.int 1) (.int 2) := by
  refine .more (c := TObj.int 7) (d := TObj.int 8) (.record (k := "x") rfl (List.mem_cons_self ..) rfl rfl) (.one ?_)
  exact ComparedIn.list (W := W) (xs := [TObj.int 1]) (ys := [TObj.int 2]) (n := 0) rfl rfl (by intro e; cases e)

example := C132_loops (W := W) env twins_copies.alike (twins_full _) (twins_full _) (.inl ⟨rfl, rfl⟩) (.inl ⟨rfl, rfl⟩) twins_loop
example := C132_only (W := W) env (own_full _) (own_full _) (own_self 5)

/-- **C132.** It is not true that a record is equal to its copy, or to itself, if the recursion limit is high enough. -/
theorem C132_refuted :
    (¬ ∀ (h : TObj → Node W) (φ : TObj → TObj → Prop) (a b : TObj), OrdinaryIn (W := W) Cop.X.cls h a →
      OrdinaryIn (W := W) Cop.X.cls h b → SeparateCopies (W := W) Cop.X.cls h φ → φ a b →
      ∃ n, eqN env Cop.X.cls h n a b = .ok true) ∧
    ¬ ∀ (h : TObj → Node W) (a : TObj), OrdinaryIn (W := W) Cop.X.cls h a → ∃ n, eqN env Cop.X.cls h n a a = .ok true := by
  refine ⟨fun hall => ?_, fun hall => ?_⟩
  · obtain ⟨n, hn⟩ := hall twins copies (.int 1) (.int 2) (twins_full _) (twins_full _) twins_copies (.inl ⟨rfl, rfl⟩)
    rw [C132_copies (W := W) env twins_copies (twins_full _) (twins_full _) (.inl ⟨rfl, rfl⟩) (.inl rfl) twins_inside n] at hn
    cases hn
  · obtain ⟨n, hn⟩ := hall own (.int 1) (own_full _)
    rw [own_self n] at hn
    cases hn

end Records.Toy.Cmp

namespace Records.Toy.Nest
open Comparing

/-- numbers, and records of the class `Q`, lists and dicts of such -/
def NObj.Soft : NObj → Prop
  | .fr (.int _) => True
  | .fr _ => False
  | .q _ x y => x.Soft ∧ y.Soft
  | .lst _ x y => x.Soft ∧ y.Soft
  | .dct _ x y => x.Soft ∧ y.Soft

theorem soft_ordinary {a : NObj} (ha : a.Soft) : OrdinaryIn (W := NW) cls heap a := by
  intro r i hr hi
  have hs : NObj.Soft r := by
    refine Copying.reaches_in (W := NW) NObj.Soft (fun a ha c hc => ?_) ha hr
    have two : ∀ x y : NObj, x.Soft ∧ y.Soft → c ∈ [x, y] → NObj.Soft c := by
      intro x y h hc
      rcases hc with _ | ⟨_, _ | ⟨_, hc⟩⟩
      · exact h.1
      · exact h.2
      · cases hc
    match a, ha, hc with
    | .fr (.int _), _, hc => cases hc
    | .q _ x y, h, hc => exact two x y h hc
    | .lst _ x y, h, hc => exact two x y h hc
    | .dct _ x y, h, hc => exact two x y h hc
  match r, hs, hi with
  | .fr (.int _), _, hi => cases hi
  | .lst _ _ _, _, hi => cases hi
  | .dct _ _ _, _, hi => cases hi
  | .q _ x y, _, hi =>
    cases hi
    exact ⟨(Q_proper x y).full, rfl⟩

/-- `[Q(1, 2), {'x': 3, 'y': 4}]` and the same once more -/
def some1 (id : Nat) : NObj := .lst id (.q (id + 1) (.fr (.int 1)) (.fr (.int 2))) (.dct (id + 2) (.fr (.int 3)) (.fr (.int 4)))

example : eqN env cls heap 3 (some1 0) (some1 10) = .ok true := rfl
example := C132_nested nested s0 (a := some1 0) (b := some1 10) (soft_ordinary ⟨⟨trivial, trivial⟩, trivial, trivial⟩)
  (soft_ordinary ⟨⟨trivial, trivial⟩, trivial, trivial⟩)

end Records.Toy.Nest

namespace Records.Toy.Cmp
open Toy Comparing

/-- a list that contains itself and the record `A(x=5, y=4)` -/
def knot : TObj → Node W
  | .int 0 => .list [.int 0, .int 1]
  | .int 1 => Cop.rec 5 4
  | _ => .atom

def knotSet (a : TObj) : Prop := a = .int 0 ∨ a = .int 1 ∨ a = .int 5 ∨ a = .int 4

theorem knot_reach : ∀ a, Reaches (W := W) knot (.int 0) a → knotSet a := by
  intro a ha
  refine Copying.reaches_in (W := Toy.W) knotSet ?_ (.inl rfl) ha
  rintro a (rfl | rfl | rfl | rfl) c hc
  · rcases hc with _ | ⟨_, _ | ⟨_, hc⟩⟩
    · exact .inl rfl
    · exact .inr (.inl rfl)
    · cases hc
  · rcases hc with _ | ⟨_, _ | ⟨_, hc⟩⟩
    · exact .inr (.inr (.inl rfl))
    · exact .inr (.inr (.inr rfl))
    · cases hc
  · cases hc
  · cases hc

theorem knot_record {r : TObj} {i : Inst W} (hr : knotSet r) (hi : knot r = .record i) : r = .int 1 ∧ i = mkA (.int 5) (.int 4) := by
  rcases hr with rfl | rfl | rfl | rfl <;> cases hi
  exact ⟨rfl, rfl⟩

theorem knot_source : CopySource Cop.X (Cop.start knot) (.int 0) := by
  refine ⟨fun a ha => ?_, fun r i ha hi => ?_, fun r i ha hi c hc hcr => ?_⟩
  · rcases knot_reach a ha with rfl | rfl | rfl | rfl <;> exact Cop.old (by decide)
  · obtain ⟨-, rfl⟩ := knot_record (knot_reach r ha) hi
    exact Cop.copyable 5 4
  · obtain ⟨rfl, rfl⟩ := knot_record (knot_reach r ha) hi
    have hc' : c = .int 5 ∨ c = .int 4 := by
      rcases hc with _ | ⟨_, _ | ⟨_, hc⟩⟩
      · exact .inl rfl
      · exact .inr rfl
      · cases hc
    have := Copying.reaches_in (W := Toy.W) (fun a => a = TObj.int 5 ∨ a = TObj.int 4)
      (by rintro a (rfl | rfl) c hc <;> cases hc) hc' hcr
    rcases this with h | h <;> cases h

theorem knot_self : HasInside (W := W) Cop.X.cls knot (.int 0) (.int 0) :=
  .one (show PartOf (W := W) Cop.X.cls (.list [TObj.int 0, TObj.int 1]) (.int 0) from .list (List.mem_cons_self ..))

theorem knot_values {r : TObj} {i : Inst W} {k : String} {f : Field W} {v : TObj} (hr : Reaches (W := W) knot (.int 0) r) (hi : knot r = .record i)
    (hf : (k, f) ∈ (Cop.X.cls i.cid).fields) (hv : i.dict.get? k = some v) : ¬ f.isPlainDefault v := by
  obtain ⟨-, rfl⟩ := knot_record (knot_reach r hr) hi
  rcases hf with _ | ⟨_, _ | ⟨_, hf⟩⟩
  · cases hv; exact fun h => nomatch h
  · cases hv; exact fun h => nomatch h
  · cases hf

example : (deepcopy Cop.X 9 (.int 0) (Cop.start knot)).1 = .ok (.int 100) := rfl
/-- the list and its copy -/
example := fun n => C132_deepcopy (W := Toy.W) env Cop.inj (m := 9) (x := .int 0) (y := .int 100) (c := .int 0) (σ := Cop.start knot) rfl knot_source nofun
  (fun a ha e => by rcases knot_reach a ha with rfl | rfl | rfl | rfl <;> first | (cases e; done) | decide)
  (fun a d ha e => by rcases knot_reach a ha with rfl | rfl | rfl | rfl <;> cases e)
  (fun r i ha hi => by obtain ⟨-, rfl⟩ := knot_record (knot_reach r ha) hi; rfl)
  (fun r i k f v ha hi hf hv => knot_values ha hi hf hv) (Cop.run rfl) (.inl rfl) knot_self n

/-- the record `A(x=5, y=3)`, where the default 3 of `y` is a list that contains itself -/
def ring : TObj → Node W
  | .int 1 => Cop.rec 5 3
  | .int 3 => .list [.int 3]
  | _ => .atom

theorem ring_reach : ∀ a, Reaches (W := W) ring (.int 1) a → a = .int 1 ∨ a = .int 5 ∨ a = .int 3 := by
  intro a ha
  refine Copying.reaches_in (W := Toy.W) (fun a => a = .int 1 ∨ a = .int 5 ∨ a = .int 3) ?_ (.inl rfl) ha
  rintro a (rfl | rfl | rfl) c hc
  · rcases hc with _ | ⟨_, _ | ⟨_, hc⟩⟩
    · exact .inr (.inl rfl)
    · exact .inr (.inr rfl)
    · cases hc
  · cases hc
  · rcases hc with _ | ⟨_, hc⟩
    · exact .inr (.inr rfl)
    · cases hc

theorem ring_record {r : TObj} {i : Inst W} (hr : Reaches (W := W) ring (.int 1) r) (hi : ring r = .record i) :
    r = .int 1 ∧ i = mkA (.int 5) (.int 3) := by
  rcases ring_reach r hr with rfl | rfl | rfl <;> cases hi
  exact ⟨rfl, rfl⟩

theorem ring_source : CopySource Cop.X (Cop.start ring) (.int 1) := by
  refine ⟨fun a ha => ?_, fun r i ha hi => ?_, fun r i ha hi c hc hcr => ?_⟩
  · rcases ring_reach a ha with rfl | rfl | rfl <;> exact Cop.old (by decide)
  · obtain ⟨-, rfl⟩ := ring_record ha hi
    exact Cop.copyable 5 3
  · obtain ⟨rfl, rfl⟩ := ring_record ha hi
    have hc' : c = .int 5 ∨ c = .int 3 := by
      rcases hc with _ | ⟨_, _ | ⟨_, hc⟩⟩
      · exact .inl rfl
      · exact .inr rfl
      · cases hc
    have := Copying.reaches_in (W := Toy.W) (fun a => a = TObj.int 5 ∨ a = TObj.int 3)
      (by
        rintro a (rfl | rfl) c hc
        · cases hc
        · rcases hc with _ | ⟨_, hc⟩
          · exact .inr rfl
          · cases hc) hc' hcr
    rcases this with h | h <;> cases h

/-- "Nothing that has something inside that is inside itself can be compared with its deep copy" is false: the record and its copy share
the default. -/
theorem C132_refuted_deepcopy : ¬ ∀ (m n : Nat) (x y c : TObj) (σ σ' : CState W), σ.memo = [] → CopySource Cop.X σ x →
    (∀ xs, σ.heap x ≠ .tuple xs) → SelfEqual (W := W) σ.heap x →
    (∀ a d, Reaches (W := W) σ.heap x a → σ.heap a = .dict d → d.WF) →
    (∀ r i, Reaches (W := W) σ.heap x r → σ.heap r = .record i → (Cop.X.cls i.cid).frozen = false) →
    deepcopy Cop.X m x σ = (.ok y, σ') → HasInside (W := W) Cop.X.cls σ.heap x c →
    HasInside (W := W) Cop.X.cls σ.heap c c → eqN (W := W) env Cop.X.cls σ'.heap n x y = .error .recursionError := by
  intro h
  have hin : HasInside (W := W) Cop.X.cls ring (.int 1) (.int 3) :=
    .one (show PartOf (W := W) Cop.X.cls (.record (mkA (.int 5) (.int 3))) (.int 3) from
      .record (k := "y") (List.mem_cons_of_mem _ (List.mem_cons_self ..)) rfl)
  have hself : HasInside (W := W) Cop.X.cls ring (.int 3) (.int 3) :=
    .one (show PartOf (W := W) Cop.X.cls (.list [TObj.int 3]) (.int 3) from .list (List.mem_cons_self ..))
  have := h 9 9 (.int 1) (.int 102) (.int 3) (Cop.start ring) _ rfl ring_source nofun
    (fun a ha e => by rcases ring_reach a ha with rfl | rfl | rfl <;> first | (cases e; done) | decide)
    (fun a d ha e => by rcases ring_reach a ha with rfl | rfl | rfl <;> cases e)
    (fun r i ha hi => by obtain ⟨-, rfl⟩ := ring_record ha hi; rfl) (Cop.run rfl) hin hself
  have e : eqN (W := W) env Cop.X.cls (deepcopy Cop.X 9 (.int 1) (Cop.start ring)).2.heap 9 (.int 1) (.int 102) = .ok true := rfl
  rw [e] at this
  cases this

end Records.Toy.Cmp
