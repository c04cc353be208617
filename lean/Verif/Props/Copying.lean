import Verif.Proofs.Copying
/-
C121: deep copies of objects that share parts.
-/
namespace Records
variable {W : World} {X : CopyEnv W}

namespace Copying

theorem along_within {α β : Type} {r : α → β → Prop} : ∀ {as : List α} {bs : List β}, Along r as bs →
    Along (fun a b => a ∈ as ∧ r a b) as bs
  | [], [], _ => trivial
  | _ :: _, _ :: _, ⟨h1, h2⟩ =>
    ⟨⟨List.mem_cons_self, h1⟩, along_mono (fun _ _ h => ⟨List.mem_cons_of_mem _ h.1, h.2⟩) (along_within h2)⟩
  | [], _ :: _, h => h.elim
  | _ :: _, [], h => h.elim

theorem CopyOf.within {φ : W.Obj → W.Obj → Prop} {nd nd' : Node W} (h : CopyOf X φ nd nd') :
    CopyOf X (fun a b => a ∈ nd.children ∧ φ a b) nd nd' := by
  cases h with
  | list h => exact .list (along_within h)
  | tuple h => exact .tuple (along_within h)
  | dict h0 h => exact .dict h0 (along_within h)
  | record h =>
    refine .record ⟨h.cls, h.keys, fun k w hw => ?_⟩
    obtain ⟨f, v, h2, h3, h4⟩ := h.values k w hw
    exact ⟨f, v, h2, h3, h4.imp (fun h5 => ⟨h5.1, List.mem_map.2 ⟨(k, v), Dict.get?_eq_some_mem _ _ _ h3, rfl⟩, h5.2⟩) id⟩

theorem immutable_back {h h' : W.Obj → Node W} {x : W.Obj} (hi : Immutable h' x) (he : ∀ a, Reaches h x a → h' a = h a) :
    Immutable h x := by
  induction hi with
  | @atom x e => exact .atom (by rw [← he x (.refl _), e])
  | @tuple x xs e _ ih =>
    have e' : h x = .tuple xs := by rw [← he x (.refl _), e]
    exact .tuple e' fun c hc => ih c hc fun a ha => he a (.step (by rw [e']; exact hc) ha)

theorem immutable_not_mut {h h' : W.Obj → Node W} {x : W.Obj} (hi : Immutable h x) (he : ∀ a, Reaches h x a → h' a = h a) {n : Nat} :
    ¬ Mut X n h' x := by
  induction hi with
  | @atom x e =>
    have e' := (he x (.refl _)).trans e
    intro hm
    cases hm with
    | box _ b => rw [e'] at b; exact b
    | tuple _ e'' => rw [e'] at e''; cases e''
  | @tuple x xs e _ ih =>
    have e' := (he x (.refl _)).trans e
    intro hm
    cases hm with
    | box _ b => rw [e'] at b; exact b
    | tuple _ e'' hc hm' =>
      rw [e'] at e''
      cases e''
      exact ih _ hc (fun a ha => he a (.step (by rw [e]; exact hc) ha)) hm'

theorem inv_empty {σ : CState W} (h : σ.memo = []) : Inv X σ := by
  have : ∀ a, σ.memo.lookup a = none := fun a => by rw [h]; rfl
  have key : ∀ a b, ¬ σ.memo.lookup a = some b := fun a b e => by rw [this] at e; cases e
  exact ⟨fun a b e => absurd e (key a b), fun a b e => absurd e (key a b), fun a b e => absurd e (key a b),
    fun a _ b e => absurd e (key a b)⟩

/-- a set that is closed under reference has all that is reachable from its members -/
theorem reaches_in {h : W.Obj → Node W} (P : W.Obj → Prop) (hc : ∀ a, P a → ∀ c ∈ (h a).children, P c) {x a : W.Obj} (hx : P x)
    (hr : Reaches h x a) : P a := by
  induction hr with
  | refl => exact hx
  | step h1 _ ih => exact ih (hc _ hx _ h1)

theorem path_cases {h : W.Obj → Node W} {k : Nat} {x a : W.Obj} (hp : Path h k x a) :
    k = 0 ∨ ∃ k' c, k = k' + 1 ∧ c ∈ (h x).children ∧ Path h k' c a := by
  cases hp with
  | zero => exact .inl rfl
  | step hc hp => exact .inr ⟨_, _, rfl, hc, hp⟩

theorem record_not_immutable {h : W.Obj → Node W} {x : W.Obj} {i : Inst W} (e : h x = .record i) : ¬ Immutable h x := by
  intro hi
  cases hi with
  | atom e' => rw [e] at e'; cases e'
  | tuple e' _ => rw [e] at e'; cases e'

theorem list_not_immutable {h : W.Obj → Node W} {x : W.Obj} {xs : List W.Obj} (e : h x = .list xs) : ¬ Immutable h x := by
  intro hi
  cases hi with
  | atom e' => rw [e] at e'; cases e'
  | tuple e' _ => rw [e] at e'; cases e'

end Copying
open Copying

/-- **C121, copies.** `copy.deepcopy(x)` of a record, list or dict (or atom), whose records keep what they get and do not contain themselves:
if it returns `y`, there is a one-to-one map from the objects reachable from `x` to their copies.  Immutable objects are their own copies;
other copies are new objects, which contain the copies of what the originals contain - except that a field with a value equal to its
plain default has the default object.  The objects from before are unchanged. -/
theorem C121_copy (hX : ∀ j k, X.fresh j = X.fresh k → j = k) {n : Nat} {x y : W.Obj} {σ σ' : CState W} (h0 : σ.memo = [])
    (hs : CopySource X σ x) (ht : ∀ xs, σ.heap x ≠ .tuple xs) (h : deepcopy X n x σ = (.ok y, σ')) :
    ∃ φ, DeepCopied X σ σ' x y φ := by
  obtain ⟨m, ⟨hc, hi⟩, _⟩ := deepcopy_post hX n x σ y σ' (inv_empty h0) hs (.inr ht) h
  have hnone : ∀ a, σ.memo.lookup a = none := fun a => by rw [h0]; rfl
  have hnew : ∀ a b, m.lookup a = some b → NewObj X σ.next b := fun a b e => (hc.new a b e (hnone a)).1
  refine ⟨fun a b => Reaches σ.heap x a ∧ Img X { σ' with memo := m } a b, ⟨.refl _, hi⟩, fun _ _ h => h.1, ?_, ?_, ?_, ?_, hc.frame.heap⟩
  · rintro a b b' ⟨_, h1 | ⟨h1, rfl⟩⟩ ⟨_, h2 | ⟨h2, rfl⟩⟩
    · exact Option.some.inj (h1.symm.trans h2)
    · exact absurd (hc.inv.copied _ _ h1) h2.not_mut
    · exact absurd (hc.inv.copied _ _ h2) h1.not_mut
    · rfl
  · rintro a a' b ⟨ha, h1 | ⟨h1, rfl⟩⟩ ⟨ha', h2 | ⟨h2, h3⟩⟩
    · exact hc.inv.inj a a' b h1 h2
    · subst h3; exact absurd (hnew _ _ h1) (hs.known _ ha')
    · exact absurd (hnew _ _ h2) (hs.known _ ha)
    · exact h3
  · rintro a b ⟨ha, h1 | ⟨h1, rfl⟩⟩ him
    · exact absurd (hc.inv.copied _ _ h1) (immutable_not_mut him fun c hr => hc.frame.heap c (hs.known c (reaches_trans ha hr)))
    · rfl
  · rintro a b ⟨ha, h1 | ⟨h1, rfl⟩⟩
    · refine .inr ⟨hnew a b h1, CopyOf.mono (fun c d h2 => ⟨?_, h2.2⟩) (CopyOf.within (hc.like a b h1 (hnone a) ha))⟩
      exact reaches_trans ha (.step h2.1 (.refl _))
    · exact .inl ⟨immutable_back h1.immutable fun c hr => hc.frame.heap c (hs.known c (reaches_trans ha hr)), rfl⟩

/-- **C121, success.** The only exception is RecursionError, and it is not raised if there are more than `2 * R + 1` levels of recursion left
and no chain of references from `x` is longer than `R`. -/
theorem C121_returns (hX : ∀ j k, X.fresh j = X.fresh k → j = k) (hdep : X.depth ≠ 0) {n : Nat} {x : W.Obj} {σ : CState W} (h0 : σ.memo = [])
    (hs : CopySource X σ x) (ht : ∀ xs, σ.heap x ≠ .tuple xs) :
    (∀ e, (deepcopy X n x σ).1 = .error e → e = .recursionError) ∧
    ∀ R, Shallow σ.heap x R → 2 * R + 1 < n → ∃ y, (deepcopy X n x σ).1 = .ok y := by
  rcases h : deepcopy X n x σ with ⟨e | y, σ'⟩
  · obtain ⟨h1, h2⟩ := deepcopy_error hX hdep n x σ e σ' (inv_empty h0) hs (.inr ht) h
    exact ⟨fun e' he' => by cases he'; exact h1, fun R hR hn => absurd (h2 R hR) (by omega)⟩
  · exact ⟨fun e he => (nomatch he), fun _ _ _ => ⟨y, rfl⟩⟩

/-- an object that belongs to the default value of a field, which some record reachable from `x` has -/
def OfDefault (X : CopyEnv W) (h : W.Obj → Node W) (x o : W.Obj) : Prop :=
  ∃ r i k f v d, Reaches h x r ∧ h r = .record i ∧ (k, f) ∈ (X.cls i.cid).fields ∧ i.dict.get? k = some v ∧ f.isPlainDefault v ∧
    f.default = some (.value d) ∧ Reaches h d o

/-- **C121, independence.** What is reachable from the copy is new, or immutable, or belongs to the default value of a field. -/
theorem C121_independent (hX : ∀ j k, X.fresh j = X.fresh k → j = k) {n : Nat} {x y : W.Obj} {σ σ' : CState W} (h0 : σ.memo = [])
    (hs : CopySource X σ x) (ht : ∀ xs, σ.heap x ≠ .tuple xs) (hd : ∀ o, OfDefault X σ.heap x o → ¬ NewObj X σ.next o)
    (h : deepcopy X n x σ = (.ok y, σ')) {o : W.Obj} (ho : Reaches σ'.heap y o) :
    NewObj X σ.next o ∨ Immutable σ.heap o ∨ OfDefault X σ.heap x o := by
  obtain ⟨φ, hφ⟩ := C121_copy hX h0 hs ht h
  have key : ∀ y o, Reaches σ'.heap y o → ((∃ a, φ a y) ∨ Immutable σ.heap y ∧ Reaches σ.heap x y ∨ OfDefault X σ.heap x y) →
      (∃ a, φ a o) ∨ Immutable σ.heap o ∧ Reaches σ.heap x o ∨ OfDefault X σ.heap x o := by
    intro y o ho
    induction ho with
    | refl => exact id
    | @step y c o hc _ ih =>
      intro hy
      refine ih ?_
      have him : Immutable σ.heap y → Reaches σ.heap x y → Immutable σ.heap c ∧ Reaches σ.heap x c := by
        intro hi hr
        rw [hφ.kept y (hs.known y hr)] at hc
        refine ⟨?_, reaches_trans hr (.step hc (.refl _))⟩
        cases hi with
        | atom e => rw [e] at hc; cases hc
        | tuple e h1 => rw [e] at hc; exact h1 c hc
      rcases hy with ⟨a, ha⟩ | ⟨hi, hr⟩ | hy
      · rcases hφ.copy a y ha with ⟨hi, rfl⟩ | ⟨_, hcp⟩
        · exact .inr (.inl (him hi (hφ.source _ _ ha)))
        · generalize hnd : σ.heap a = nd at hcp
          generalize hnd' : σ'.heap y = nd' at hcp hc
          cases hcp with
          | list h1 => obtain ⟨b, _, hb⟩ := along_mem h1 c hc; exact .inl ⟨b, hb⟩
          | tuple h1 => obtain ⟨b, _, hb⟩ := along_mem h1 c hc; exact .inl ⟨b, hb⟩
          | dict h0 h1 => obtain ⟨b, _, hb⟩ := along_mem h1 c hc; exact .inl ⟨b, hb⟩
          | @record i j h1 =>
            obtain ⟨⟨k, w⟩, hw, rfl⟩ := List.mem_map.1 hc
            obtain ⟨f, v, h2, h3, h4⟩ := h1.values k w hw
            rcases h4 with ⟨_, h4⟩ | ⟨h4, h5⟩
            · exact .inl ⟨v, h4⟩
            · exact .inr (.inr ⟨a, i, k, f, v, w, hφ.source _ _ ha, hnd, h2, h3, h4, h5, .refl _⟩)
      · exact .inr (.inl (him hi hr))
      · obtain ⟨r, i, k, f, v, d, h1, h2, h3, h4, h5, h6, h7⟩ := hy
        rw [hφ.kept y (hd y ⟨r, i, k, f, v, d, h1, h2, h3, h4, h5, h6, h7⟩)] at hc
        exact .inr (.inr ⟨r, i, k, f, v, d, h1, h2, h3, h4, h5, h6, reaches_trans h7 (.step hc (.refl _))⟩)
  rcases key y o ho (.inl ⟨x, hφ.root⟩) with ⟨a, ha⟩ | ⟨hi, _⟩ | h1
  · rcases hφ.copy a o ha with ⟨hi, rfl⟩ | ⟨hn, _⟩
    · exact .inr (.inl hi)
    · exact .inl hn
  · exact .inr (.inl hi)
  · exact .inr (.inr h1)

/-- **C121, self-reference.** A record that is the first exported value of itself cannot be deep-copied: RecursionError, whatever the limit. -/
theorem C121_self (hX : ∀ j k, X.fresh j = X.fresh k → j = k) {x : W.Obj} {i : Inst W} (hi : Copyable X i) {k : String} {rest : Dict W.Obj}
    (hr : shown (X.cls i.cid) i = (k, x) :: rest) : ∀ (n : Nat) (σ : CState W), σ.memo = [] → σ.heap x = .record i →
      ¬ NewObj X σ.next x → (deepcopy X n x σ).1 = .error .recursionError := by
  have key : ∀ (n : Nat) (σ : CState W), (∀ j, σ.next ≤ j → σ.memo.lookup (X.fresh j) = none) → σ.memo.lookup x = none →
      σ.heap x = .record i → ¬ NewObj X σ.next x → (deepcopy X n x σ).1 = .error .recursionError := by
    intro n
    induction n using Nat.strongRecOn with
    | ind n ih =>
      intro σ hf hl hh hk
      cases n with
      | zero => rfl
      | succ n =>
        unfold deepcopy
        rw [hl, hh]
        simp only [toDict_shown hi.creatable.wf hi.full]
        have hin : (deepcopy X n (X.fresh σ.next) (σ.alloc X (.dict (shown (X.cls i.cid) i)))).1 = .error .recursionError := by
          cases n with
          | zero => rfl
          | succ n =>
            unfold deepcopy
            have h1 : (σ.alloc X (.dict (shown (X.cls i.cid) i))).memo.lookup (X.fresh σ.next) = none := hf _ (Nat.le_refl _)
            rw [h1, alloc_heap_new, hr]
            simp only [Dict.values, List.map_cons]
            unfold copyAll
            have hx1 : X.fresh σ.next ≠ x := fun e => hk (e ▸ new_fresh _)
            have h2 := ih n (by omega) (((σ.alloc X (.dict ((k, x) :: rest))).alloc X (.dict [])).note (X.fresh σ.next)
              (X.fresh (σ.next + 1))) (by
                intro j hj
                have hj' : σ.next + 2 ≤ j := hj
                rw [lookup_note, if_neg]
                · exact hf j (by omega)
                · intro e; have := hX _ _ e; omega) (by
                rw [lookup_note, if_neg (Ne.symm hx1)]
                exact hl) (by
                show ((σ.alloc X (.dict ((k, x) :: rest))).alloc X (.dict [])).heap x = _
                rw [alloc_heap (Known.mono (Nat.le_succ _) hk), alloc_heap hk, hh]) (fun h => hk (NewObj.mono (by
                  show σ.next ≤ σ.next + 2
                  omega) h))
            revert h2
            rcases h3 : deepcopy X n x (((σ.alloc X (.dict ((k, x) :: rest))).alloc X (.dict [])).note (X.fresh σ.next)
              (X.fresh (σ.next + 1))) with ⟨r, σ2⟩
            rintro rfl
            have h4 : deepcopy X n x (((σ.alloc X (.dict ((k, x) :: rest))).alloc X (.dict [])).note (X.fresh σ.next)
              (X.fresh (σ.alloc X (.dict ((k, x) :: rest))).next)) = (.error .recursionError, σ2) := h3
            rw [h4]
        revert hin
        rcases deepcopy X n (X.fresh σ.next) (σ.alloc X (.dict (shown (X.cls i.cid) i))) with ⟨r, σ2⟩
        rintro rfl
        rfl
  intro n σ h0 hh hk
  exact key n σ (fun j _ => by rw [h0]; rfl) (by rw [h0]; rfl) hh hk

end Records

namespace Records.Toy.Cop
open Toy Copying

def X : CopyEnv W := ⟨env, fun _ => A, fun k => .int (100 + k), 1⟩

theorem inj : ∀ j k, X.fresh j = X.fresh k → j = k := by
  intro j k e
  have : (100 : Int) + j = 100 + k := TObj.int.inj e
  omega

def start (h : TObj → Node W) : CState W := ⟨h, 0, [], s0⟩

/-- a record with these values -/
def rec (x : Int) (y : Int := 3) : Node W := .record (mkA (.int x) (.int y))

theorem copyable (x y : Int) : Copyable X (mkA (.int x) (.int y)) := by
  refine ⟨rfl, A_creatable, fun _ _ => rfl, (by show FreeNames A; unfold FreeNames; decide), ?_, (mkA_proper (hasher 0) _ _).full⟩
  intro k f hf w s
  rcases hf with _ | ⟨_, _ | ⟨_, hf⟩⟩
  · exact ⟨s, rfl⟩
  · exact ⟨s, rfl⟩
  · cases hf

/-- a list of two records that share a list: `[A(x=l), A(x=l)]` with `l = []` -/
def two : TObj → Node W
  | .int 0 => .list [.int 1, .int 2]
  | .int 1 => rec 7
  | .int 2 => rec 7
  | .int 7 => .list []
  | _ => .atom

def twoSet (a : TObj) : Prop := a = .int 0 ∨ a = .int 1 ∨ a = .int 2 ∨ a = .int 7 ∨ a = .int 3

theorem two_closed : ∀ a, twoSet a → ∀ c ∈ (two a).children, twoSet c := by
  rintro a (rfl | rfl | rfl | rfl | rfl) c hc
  · rcases hc with _ | ⟨_, _ | ⟨_, hc⟩⟩
    · exact .inr (.inl rfl)
    · exact .inr (.inr (.inl rfl))
    · cases hc
  · rcases hc with _ | ⟨_, _ | ⟨_, hc⟩⟩
    · exact .inr (.inr (.inr (.inl rfl)))
    · exact .inr (.inr (.inr (.inr rfl)))
    · cases hc
  · rcases hc with _ | ⟨_, _ | ⟨_, hc⟩⟩
    · exact .inr (.inr (.inr (.inl rfl)))
    · exact .inr (.inr (.inr (.inr rfl)))
    · cases hc
  · cases hc
  · cases hc

theorem old {i : Int} (h : i < 100) : ¬ NewObj X 0 (.int i : TObj) := by
  rintro ⟨k, _, e⟩
  have : i = 100 + (k : Int) := TObj.int.inj e
  omega

theorem twoSet_old {a : TObj} (h : twoSet a) : ¬ NewObj X 0 a := by
  rcases h with rfl | rfl | rfl | rfl | rfl <;> exact old (by decide)

theorem two_leaf {c r : TObj} (hc : c = .int 7 ∨ c = .int 3) (h : Reaches (W := W) two c r) : r = .int 7 ∨ r = .int 3 := by
  refine reaches_in (W := Toy.W) (fun a => a = .int 7 ∨ a = .int 3) ?_ hc h
  rintro a (rfl | rfl) c hc
  · cases hc
  · cases hc

theorem two_source : CopySource X (start two) (.int 0) := by
  have hr : ∀ a, Reaches (W := W) two (.int 0) a → twoSet a := fun a ha => reaches_in (W := Toy.W) twoSet two_closed (.inl rfl) ha
  refine ⟨fun a ha => twoSet_old (hr a ha), fun r i ha hi => ?_, fun r i ha hi c hc hcr => ?_⟩
  · rcases hr r ha with rfl | rfl | rfl | rfl | rfl <;> cases hi <;> exact copyable 7 3
  · have key : (r = .int 1 ∨ r = .int 2) ∧ i = mkA (.int 7) (.int 3) := by
      rcases hr r ha with rfl | rfl | rfl | rfl | rfl <;> cases hi
      · exact ⟨.inl rfl, rfl⟩
      · exact ⟨.inr rfl, rfl⟩
    obtain ⟨hr', rfl⟩ := key
    have hc' : c = .int 7 ∨ c = .int 3 := by
      rcases hc with _ | ⟨_, _ | ⟨_, hc⟩⟩
      · exact .inl rfl
      · exact .inr rfl
      · cases hc
    rcases two_leaf hc' hcr with rfl | rfl <;> rcases hr' with h | h <;> cases h

/-- the copies share the copy of the list (number 103), and have the default (3) -/
example : (deepcopy X 9 (.int 0) (start two)).1 = .ok (.int 100) := rfl
example : (deepcopy X 9 (.int 0) (start two)).2.heap (.int 100) = .list [.int 104, .int 107] := rfl
example : (deepcopy X 9 (.int 0) (start two)).2.heap (.int 104) = rec 103 := rfl
example : (deepcopy X 9 (.int 0) (start two)).2.heap (.int 107) = rec 103 := rfl
example := C121_copy (W := Toy.W) inj (n := 9) (y := .int 100) rfl two_source nofun rfl
theorem two_shallow : Shallow (W := W) two (.int 0) 2 := by
  intro a k hp
  rcases path_cases (W := Toy.W) hp with rfl | ⟨k, c, rfl, hc, hp⟩
  · decide
  have hc' : c = .int 1 ∨ c = .int 2 := by
    rcases hc with _ | ⟨_, _ | ⟨_, hc⟩⟩
    · exact .inl rfl
    · exact .inr rfl
    · cases hc
  rcases path_cases (W := Toy.W) hp with rfl | ⟨k, c', rfl, hd, hp⟩
  · decide
  have hd' : c' = .int 7 ∨ c' = .int 3 := by
    rcases hc' with rfl | rfl
    all_goals
      rcases hd with _ | ⟨_, _ | ⟨_, hd⟩⟩
      · exact .inl rfl
      · exact .inr rfl
      · cases hd
  rcases path_cases (W := Toy.W) hp with rfl | ⟨k, c', rfl, he, hp⟩
  · decide
  · rcases hd' with rfl | rfl <;> cases he
example := (C121_returns (W := Toy.W) inj (n := 6) (x := .int 0) (nofun : (1 : Nat) ≠ 0) (σ := start two) rfl two_source nofun).2 2 two_shallow (by decide)
theorem two_default : ∀ o, OfDefault X (start two).heap (.int 0) o → ¬ NewObj X (start two).next o := by
  rintro o ⟨r, i, k, f, v, d, h1, h2, h3, h4, h5, h6, h7⟩
  have hd : d = .int 3 := by
    rcases h3 with _ | ⟨_, _ | ⟨_, h3⟩⟩
    · cases h6
    · cases h6; rfl
    · cases h3
  subst hd
  rcases two_leaf (.inr rfl) h7 with rfl | rfl <;> exact old (by decide)
example := fun o => C121_independent (W := Toy.W) inj (n := 9) (y := .int 100) rfl two_source nofun two_default rfl (o := o)

/-- a record that is its own `x` -/
def loop : TObj → Node W
  | .int 1 => rec 1
  | _ => .atom

example := fun n => C121_self (W := Toy.W) inj (x := .int 1) (copyable 1 3) (k := "x") (rest := []) rfl n (start loop) rfl rfl (old (by decide))

/-- the same records in a tuple -/
def pair : TObj → Node W
  | .int 0 => .tuple [.int 1, .int 2]
  | .int 1 => rec 7
  | .int 2 => rec 7
  | .int 7 => .list []
  | _ => .atom

/-- a record in a list that is its own `x` -/
def cycle : TObj → Node W
  | .int 1 => rec 7
  | .int 7 => .list [.int 1]
  | _ => .atom

/-- a record whose `y` is its default, a list -/
def single : TObj → Node W
  | .int 1 => rec 5
  | .int 3 => .list []
  | _ => .atom

theorem pair_source : CopySource X (start pair) (.int 0) := by
  have hcl : ∀ a, twoSet a → ∀ c ∈ (pair a).children, twoSet c := by
    rintro a h c hc
    refine two_closed a h c ?_
    rcases h with rfl | rfl | rfl | rfl | rfl <;> exact hc
  have hr : ∀ a, Reaches (W := W) pair (.int 0) a → twoSet a := fun a ha => reaches_in (W := Toy.W) twoSet hcl (.inl rfl) ha
  have hleaf : ∀ a, (a = .int 7 ∨ a = .int 3) → ∀ c ∈ (pair a).children, (c = TObj.int 7 ∨ c = TObj.int 3) := by
    rintro a (rfl | rfl) c hc
    · cases hc
    · cases hc
  refine ⟨fun a ha => twoSet_old (hr a ha), fun r i ha hi => ?_, fun r i ha hi c hc hcr => ?_⟩
  · rcases hr r ha with rfl | rfl | rfl | rfl | rfl <;> cases hi <;> exact copyable 7 3
  · have key : (r = .int 1 ∨ r = .int 2) ∧ i = mkA (.int 7) (.int 3) := by
      rcases hr r ha with rfl | rfl | rfl | rfl | rfl <;> cases hi
      · exact ⟨.inl rfl, rfl⟩
      · exact ⟨.inr rfl, rfl⟩
    obtain ⟨hr', rfl⟩ := key
    have hc' : c = .int 7 ∨ c = .int 3 := by
      rcases hc with _ | ⟨_, _ | ⟨_, hc⟩⟩
      · exact .inl rfl
      · exact .inr rfl
      · cases hc
    rcases reaches_in (W := Toy.W) _ hleaf hc' hcr with rfl | rfl <;> rcases hr' with h | h <;> cases h

def singleSet (a : TObj) : Prop := a = .int 1 ∨ a = .int 5 ∨ a = .int 3

theorem single_source : CopySource X (start single) (.int 1) := by
  have hcl : ∀ a, singleSet a → ∀ c ∈ (single a).children, c = TObj.int 5 ∨ c = TObj.int 3 := by
    rintro a (rfl | rfl | rfl) c hc
    · rcases hc with _ | ⟨_, _ | ⟨_, hc⟩⟩
      · exact .inl rfl
      · exact .inr rfl
      · cases hc
    · cases hc
    · cases hc
  have hr : ∀ a, Reaches (W := W) single (.int 1) a → singleSet a := fun a ha =>
    reaches_in (W := Toy.W) singleSet (fun a h c hc => .inr (hcl a h c hc)) (.inl rfl) ha
  refine ⟨fun a ha => ?_, fun r i ha hi => ?_, fun r i ha hi c hc hcr => ?_⟩
  · rcases hr a ha with rfl | rfl | rfl <;> exact old (by decide)
  · rcases hr r ha with rfl | rfl | rfl <;> cases hi
    exact copyable 5 3
  · have h1 : r = .int 1 ∧ i = mkA (.int 5) (.int 3) := by
      rcases hr r ha with rfl | rfl | rfl <;> cases hi
      exact ⟨rfl, rfl⟩
    obtain ⟨rfl, rfl⟩ := h1
    rcases reaches_in (W := Toy.W) (fun c => c = TObj.int 5 ∨ c = TObj.int 3) (fun a h c hc => hcl a (.inr h) c hc)
      (hcl (.int 1) (.inl rfl) c hc) hcr with h | h <;> cases h

theorem cycle_reach : ∀ a, Reaches (W := W) cycle (.int 1) a → a = .int 1 ∨ a = .int 7 ∨ a = .int 3 := by
  intro a ha
  refine reaches_in (W := Toy.W) (fun a => a = TObj.int 1 ∨ a = TObj.int 7 ∨ a = TObj.int 3) ?_ (.inl rfl) ha
  rintro a (rfl | rfl | rfl) c hc
  · rcases hc with _ | ⟨_, _ | ⟨_, hc⟩⟩
    · exact .inr (.inl rfl)
    · exact .inr (.inr rfl)
    · cases hc
  · rcases hc with _ | ⟨_, hc⟩
    · exact .inl rfl
    · cases hc
  · cases hc

def pairEnd : CState W := (deepcopy X 9 (.int 0) (start pair)).2

set_option maxHeartbeats 4000000 in
theorem pair_run : (deepcopy X 9 (.int 0) (start pair)).1 = .ok (.int 108) ∧ pairEnd.heap (.int 108) = .tuple [.int 103, .int 107] ∧
    pairEnd.heap (.int 103) = rec 102 ∧ pairEnd.heap (.int 107) = rec 106 := by
  refine ⟨?_, ?_, ?_, ?_⟩ <;> with_unfolding_all rfl

theorem run {r : Except Exc W.Obj × CState W} {y : TObj} (h : r.1 = .ok y) : r = (.ok y, r.2) := by
  rw [← h]

/-- the copy of a record has the copy of its `x` -/
theorem x_copied {σ σ' : CState W} {x y a b : TObj} {φ : TObj → TObj → Prop} (h : DeepCopied X σ σ' x y φ) {v w : Int}
    (ha : σ.heap a = rec v) (hb : σ'.heap b = rec w) (hφ : φ a b) : φ (.int v) (.int w) := by
  rcases h.copy a b hφ with ⟨hi, _⟩ | ⟨_, hc⟩
  · exact absurd hi (record_not_immutable ha)
  · rw [ha, hb] at hc
    rcases hc with _ | _ | _ | hc
    obtain ⟨f, v', h1, h2, h3⟩ := hc.values "x" (.int w) (List.mem_cons_self ..)
    cases h2
    rcases h3 with ⟨_, h3⟩ | ⟨_, h3⟩
    · exact h3
    · rcases List.mem_cons.1 h1 with h1 | h1
      · rw [(Prod.mk.inj h1).2] at h3; cases h3
      · rcases List.mem_cons.1 h1 with h1 | h1
        · exact absurd (Prod.mk.inj h1).1 (by decide)
        · cases h1

end Records.Toy.Cop

namespace Records
open Toy.Cop

/-- "A deep copy shares no mutable object with the original" is false: a list that is the default value of a field is shared. -/
theorem C121_refuted_independent : ¬ ∀ (n : Nat) (x y : Toy.TObj) (σ σ' : CState Toy.W), σ.memo = [] → CopySource X σ x →
    (∀ xs, σ.heap x ≠ .tuple xs) → deepcopy X n x σ = (.ok y, σ') →
    ∀ o, Reaches (W := Toy.W) σ'.heap y o → NewObj X σ.next o ∨ Immutable (W := Toy.W) σ.heap o := by
  intro h
  rcases h 9 (.int 1) (.int 102) (start single) _ rfl single_source nofun rfl (.int 3)
    (.step (c := Toy.TObj.int 3) (List.mem_cons_of_mem _ (List.mem_cons_self ..)) (.refl _)) with h | h
  · exact old (by decide) h
  · exact Copying.list_not_immutable (W := Toy.W) rfl h

/-- "The copies of objects that share a part share the copy of the part" is false for a tuple of records. -/
theorem C121_refuted_tuple : ¬ ∀ (n : Nat) (x y : Toy.TObj) (σ σ' : CState Toy.W), σ.memo = [] → CopySource X σ x →
    deepcopy X n x σ = (.ok y, σ') → ∃ φ, DeepCopied X σ σ' x y φ := by
  intro h
  obtain ⟨φ, hφ⟩ := h 9 (.int 0) (.int 108) (start pair) pairEnd rfl pair_source (run pair_run.1)
  rcases hφ.copy _ _ hφ.root with ⟨_, e⟩ | ⟨_, hc⟩
  · cases e
  · have hc' : CopyOf X φ (.tuple [Toy.TObj.int 1, Toy.TObj.int 2]) (.tuple [Toy.TObj.int 103, Toy.TObj.int 107]) := by
      rw [pair_run.2.1] at hc; exact hc
    rcases hc' with _ | hc' | _ | _
    have h1 := x_copied hφ (a := .int 1) (b := .int 103) (v := 7) (w := 102) rfl pair_run.2.2.1 hc'.1
    have h2 := x_copied hφ (a := .int 2) (b := .int 107) (v := 7) (w := 106) rfl pair_run.2.2.2 hc'.2.1
    cases hφ.same _ _ _ h1 h2

/-- "A deep copy of a record in a cycle has the same cycle" is false: the copy refers to another copy of itself. -/
theorem C121_refuted_cycle : ¬ ∀ (n : Nat) (x y : Toy.TObj) (σ σ' : CState Toy.W), σ.memo = [] →
    (∀ a, Reaches (W := Toy.W) σ.heap x a → ¬ NewObj X σ.next a) →
    (∀ r i, Reaches (W := Toy.W) σ.heap x r → σ.heap r = .record i → Copyable X i) →
    (∀ xs, σ.heap x ≠ .tuple xs) → deepcopy X n x σ = (.ok y, σ') → ∃ φ, DeepCopied X σ σ' x y φ := by
  intro h
  obtain ⟨φ, hφ⟩ := h 9 (.int 1) (.int 106) (start cycle) _ rfl (fun a ha => by
      rcases cycle_reach a ha with rfl | rfl | rfl <;> exact old (by decide)) (fun r i ha hi => by
      rcases cycle_reach r ha with rfl | rfl | rfl <;> cases hi
      exact copyable 7 3) nofun (run rfl)
  have h1 := x_copied hφ (a := .int 1) (b := .int 106) (v := 7) (w := 102) rfl rfl hφ.root
  rcases hφ.copy _ _ h1 with ⟨_, e⟩ | ⟨_, hc⟩
  · cases e
  · have hc' : CopyOf X φ (.list [Toy.TObj.int 1]) (.list [Toy.TObj.int 105]) := hc
    rcases hc' with hc' | _ | _ | _
    cases hφ.same _ _ _ hφ.root hc'.1

end Records
