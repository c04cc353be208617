import Verif.Spec.Copying
import Verif.Props.Override
/-
Lemmas for deep copies of object graphs.
-/
namespace Records
variable {W : World} {X : CopyEnv W}

namespace Copying

def Known (X : CopyEnv W) (n : Nat) (o : W.Obj) : Prop := ¬ NewObj X n o

theorem Known.mono {n m : Nat} (h : n ≤ m) {o : W.Obj} (k : Known X n o) : Known X m o :=
  fun ⟨j, hj, e⟩ => k ⟨j, Nat.le_trans h hj, e⟩

theorem NewObj.mono {n m : Nat} (h : n ≤ m) {o : W.Obj} : NewObj X m o → NewObj X n o :=
  fun ⟨j, hj, e⟩ => ⟨j, Nat.le_trans h hj, e⟩

theorem new_fresh (n : Nat) : NewObj X n (X.fresh n) := ⟨n, Nat.le_refl _, rfl⟩

theorem known_fresh (hX : ∀ j k, X.fresh j = X.fresh k → j = k) (n : Nat) : Known X (n + 1) (X.fresh n) := by
  rintro ⟨k, hk, e⟩
  have := hX _ _ e
  omega

/-- an immutable object of those that exist -/
inductive Imm (X : CopyEnv W) (n : Nat) (h : W.Obj → Node W) : W.Obj → Prop
  | atom {x} : Known X n x → h x = .atom → Imm X n h x
  | tuple {x xs} : Known X n x → h x = .tuple xs → (∀ c ∈ xs, Imm X n h c) → Imm X n h x

def Node.boxed : Node W → Prop
  | .list _ | .dict _ | .record _ => True
  | _ => False

/-- an object that is copied -/
inductive Mut (X : CopyEnv W) (n : Nat) (h : W.Obj → Node W) : W.Obj → Prop
  | box {x} : Known X n x → Node.boxed (h x) → Mut X n h x
  | tuple {x xs c} : Known X n x → h x = .tuple xs → c ∈ xs → Mut X n h c → Mut X n h x

theorem Imm.not_mut {n : Nat} {h : W.Obj → Node W} {x : W.Obj} (hi : Imm X n h x) : ¬ Mut X n h x := by
  induction hi with
  | atom _ e =>
    intro hm
    cases hm with
    | box _ b => rw [e] at b; exact b
    | tuple _ e' => rw [e] at e'; cases e'
  | tuple _ e _ ih =>
    intro hm
    cases hm with
    | box _ b => rw [e] at b; exact b
    | tuple _ e' hc hm' => rw [e] at e'; cases e'; exact ih _ hc hm'

theorem Imm.immutable {n : Nat} {h : W.Obj → Node W} {x : W.Obj} (hi : Imm X n h x) : Immutable h x := by
  induction hi with
  | atom _ e => exact .atom e
  | tuple _ e _ ih => exact .tuple e ih

theorem Mut.known {n : Nat} {h : W.Obj → Node W} {x : W.Obj} (hm : Mut X n h x) : Known X n x := by
  cases hm with
  | box k => exact k
  | tuple k => exact k

theorem Imm.known {n : Nat} {h : W.Obj → Node W} {x : W.Obj} (hm : Imm X n h x) : Known X n x := by
  cases hm with
  | atom k => exact k
  | tuple k => exact k

/-- what existed is unchanged -/
structure Fr (X : CopyEnv W) (σ σ' : CState W) : Prop where
  le : σ.next ≤ σ'.next
  heap : ∀ o, Known X σ.next o → σ'.heap o = σ.heap o

theorem Fr.rfl {σ : CState W} : Fr X σ σ := ⟨Nat.le_refl _, fun _ _ => Eq.refl _⟩

theorem Fr.trans {σ σ1 σ2 : CState W} (h : Fr X σ σ1) (h' : Fr X σ1 σ2) : Fr X σ σ2 :=
  ⟨Nat.le_trans h.le h'.le, fun o ho => (h'.heap o (ho.mono h.le)).trans (h.heap o ho)⟩

theorem Imm.frame {σ σ' : CState W} (h : Fr X σ σ') {x : W.Obj} (hi : Imm X σ.next σ.heap x) : Imm X σ'.next σ'.heap x := by
  induction hi with
  | atom k e => exact .atom (k.mono h.le) (by rw [h.heap _ k, e])
  | tuple k e _ ih => exact .tuple (k.mono h.le) (by rw [h.heap _ k, e]) ih

theorem Mut.frame {σ σ' : CState W} (h : Fr X σ σ') {x : W.Obj} (hi : Mut X σ.next σ.heap x) : Mut X σ'.next σ'.heap x := by
  induction hi with
  | box k e => exact .box (k.mono h.le) (by rw [h.heap _ k]; exact e)
  | tuple k e hc _ ih => exact .tuple (k.mono h.le) (by rw [h.heap _ k, e]) hc ih

theorem Imm.put {σ : CState W} {y x : W.Obj} {nd : Node W} (hy : Node.boxed (σ.heap y)) (hi : Imm X σ.next σ.heap x) :
    Imm X (σ.put y nd).next (σ.put y nd).heap x := by
  have key : ∀ {o}, ¬ Node.boxed (σ.heap o) → (σ.put y nd).heap o = σ.heap o := by
    intro o ho
    show (if o = y then nd else σ.heap o) = _
    rw [if_neg]
    rintro rfl
    exact ho hy
  induction hi with
  | atom k e => exact .atom k (by rw [key (by rw [e]; exact id), e])
  | tuple k e _ ih => exact .tuple k (by rw [key (by rw [e]; exact id), e]) ih

theorem Mut.put {σ : CState W} {y x : W.Obj} {nd : Node W} (hy : Node.boxed (σ.heap y)) (hn : Node.boxed nd)
    (hi : Mut X σ.next σ.heap x) : Mut X (σ.put y nd).next (σ.put y nd).heap x := by
  induction hi with
  | @box x k e =>
    refine .box k ?_
    show Node.boxed (if x = y then nd else σ.heap x)
    split
    · exact hn
    · exact e
  | @tuple x xs c k e hc _ ih =>
    refine .tuple k ?_ hc ih
    show (if x = y then nd else σ.heap x) = _
    rw [if_neg, e]
    rintro rfl
    rw [e] at hy
    exact hy

/-- the memo has been filled by the algorithm -/
structure Inv (X : CopyEnv W) (σ : CState W) : Prop where
  copied : ∀ a b, σ.memo.lookup a = some b → Mut X σ.next σ.heap a
  ne : ∀ a b, σ.memo.lookup a = some b → a ≠ b
  known : ∀ a b, σ.memo.lookup a = some b → Known X σ.next b
  inj : ∀ a a' b, σ.memo.lookup a = some b → σ.memo.lookup a' = some b → a = a'

/-- what is stored for `a` in a copy -/
def Img (X : CopyEnv W) (σ : CState W) (a b : W.Obj) : Prop := σ.memo.lookup a = some b ∨ Imm X σ.next σ.heap a ∧ b = a

theorem along_mono {α β : Type} {r r' : α → β → Prop} (h : ∀ a b, r a b → r' a b) : ∀ {as : List α} {bs : List β},
    Along r as bs → Along r' as bs
  | [], [], _ => trivial
  | _ :: _, _ :: _, ⟨h1, h2⟩ => ⟨h _ _ h1, along_mono h h2⟩
  | [], _ :: _, h => h.elim
  | _ :: _, [], h => h.elim

theorem along_mem {α β : Type} {r : α → β → Prop} : ∀ {as : List α} {bs : List β}, Along r as bs → ∀ b ∈ bs, ∃ a ∈ as, r a b
  | [], [], _, _, hb => nomatch hb
  | _ :: _, _ :: _, ⟨h1, h2⟩, b, hb => by
    rcases List.mem_cons.1 hb with rfl | hb
    · exact ⟨_, List.mem_cons_self, h1⟩
    · obtain ⟨a, ha, h⟩ := along_mem h2 b hb
      exact ⟨a, List.mem_cons_of_mem _ ha, h⟩
  | [], _ :: _, h, _, _ => h.elim
  | _ :: _, [], h, _, _ => h.elim

theorem along_length {α β : Type} {r : α → β → Prop} : ∀ {as : List α} {bs : List β}, Along r as bs → as.length = bs.length
  | [], [], _ => rfl
  | _ :: _, _ :: _, ⟨_, h2⟩ => by simp [along_length h2]
  | [], _ :: _, h => h.elim
  | _ :: _, [], h => h.elim

theorem CopyOf.mono {φ φ' : W.Obj → W.Obj → Prop} (h : ∀ a b, φ a b → φ' a b) {nd nd' : Node W} (hc : CopyOf X φ nd nd') :
    CopyOf X φ' nd nd' := by
  cases hc with
  | list h1 => exact .list (along_mono h h1)
  | tuple h1 => exact .tuple (along_mono h h1)
  | dict h0 h1 => exact .dict h0 (along_mono h h1)
  | record h1 =>
    refine .record ⟨h1.cls, h1.keys, fun k w hw => ?_⟩
    obtain ⟨f, v, h2, h3, h4⟩ := h1.values k w hw
    exact ⟨f, v, h2, h3, h4.imp (fun h5 => ⟨h5.1, h _ _ h5.2⟩) id⟩

/-- a part of the algorithm: it copies objects with `S` -/
structure Core (X : CopyEnv W) (σ : CState W) (S : W.Obj → Prop) (σ' : CState W) : Prop where
  frame : Fr X σ σ'
  inv : Inv X σ'
  mono : ∀ a b, σ.memo.lookup a = some b → σ'.memo.lookup a = some b
  new : ∀ a b, σ'.memo.lookup a = some b → σ.memo.lookup a = none → NewObj X σ.next b ∧ (S a ∨ NewObj X σ.next a)
  like : ∀ a b, σ'.memo.lookup a = some b → σ.memo.lookup a = none → S a → CopyOf X (Img X σ') (σ.heap a) (σ'.heap b)

theorem Core.img {σ σ' : CState W} {S : W.Obj → Prop} (h : Core X σ S σ') {a b : W.Obj} (hi : Img X σ a b) : Img X σ' a b :=
  hi.imp (h.mono a b) fun ⟨h1, h2⟩ => ⟨h1.frame h.frame, h2⟩

theorem Core.refl {σ : CState W} (hi : Inv X σ) (S : W.Obj → Prop) : Core X σ S σ :=
  ⟨.rfl, hi, fun _ _ h => h, fun a b h h' => (by rw [h] at h'; cases h'),
    fun a b h h' => (by rw [h] at h'; cases h')⟩

theorem Core.weaken {σ σ' : CState W} {S S' : W.Obj → Prop} (h : Core X σ S σ') (hs : ∀ a, S a → S' a) (hk : ∀ a, S' a → Known X σ.next a) :
    Core X σ S' σ' :=
  ⟨h.frame, h.inv, h.mono, fun a b h1 h2 => ⟨(h.new a b h1 h2).1, (h.new a b h1 h2).2.imp (hs a) id⟩, fun a b h1 h2 h3 =>
    h.like a b h1 h2 ((h.new a b h1 h2).2.resolve_right (hk a h3))⟩

theorem Core.trans {σ σ1 σ2 : CState W} {S : W.Obj → Prop} (hk : ∀ a, S a → Known X σ.next a) (h : Core X σ S σ1) (h' : Core X σ1 S σ2) :
    Core X σ S σ2 := by
  refine ⟨h.frame.trans h'.frame, h'.inv, fun a b h1 => h'.mono a b (h.mono a b h1), fun a b h1 h2 => ?_, fun a b h1 h2 h3 => ?_⟩
  · cases h3 : σ1.memo.lookup a with
    | some b' =>
      have hb : b' = b := Option.some.inj ((h'.mono a b' h3).symm.trans h1)
      subst hb
      exact h.new a b' h3 h2
    | none =>
      obtain ⟨h4, h5⟩ := h'.new a b h1 h3
      exact ⟨NewObj.mono h.frame.le h4, h5.imp id (NewObj.mono h.frame.le)⟩
  · cases h4 : σ1.memo.lookup a with
    | some b' =>
      have hb : b' = b := Option.some.inj ((h'.mono a b' h4).symm.trans h1)
      subst hb
      rw [h'.frame.heap b' (h.inv.known a b' h4)]
      exact CopyOf.mono (fun _ _ => h'.img) (h.like a b' h4 h2 h3)
    | none =>
      have := h'.like a b h1 h4 h3
      rwa [h.frame.heap a (hk a h3)] at this

theorem lookup_note {σ : CState W} {x y a : W.Obj} :
    (σ.note x y).memo.lookup a = if a = x then some y else σ.memo.lookup a := by
  show List.lookup a ((x, y) :: σ.memo) = _
  rw [List.lookup_cons]
  by_cases h : a = x
  · simp [h]
  · have : (a == x) = false := by simpa using h
    simp [this, h]

theorem alloc_heap_new {σ : CState W} {nd : Node W} : (σ.alloc X nd).heap (X.fresh σ.next) = nd := by
  show (if X.fresh σ.next = X.fresh σ.next then nd else _) = nd
  rw [if_pos rfl]

theorem alloc_heap {σ : CState W} {nd : Node W} {o : W.Obj} (h : Known X σ.next o) : (σ.alloc X nd).heap o = σ.heap o := by
  show (if o = X.fresh σ.next then nd else _) = _
  rw [if_neg]
  rintro rfl
  exact h (new_fresh _)

theorem alloc_frame {σ : CState W} {nd : Node W} : Fr X σ (σ.alloc X nd) :=
  ⟨Nat.le_succ _, fun _ ho => alloc_heap ho⟩

theorem note_frame {σ : CState W} {nd : Node W} {x y : W.Obj} : Fr X σ ((σ.alloc X nd).note x y) :=
  ⟨Nat.le_succ _, fun _ ho => alloc_heap ho⟩

theorem note_inv {σ : CState W} {nd : Node W} {x y a b : W.Obj} (e : ((σ.alloc X nd).note x y).memo.lookup a = some b) :
    a = x ∧ b = y ∨ a ≠ x ∧ σ.memo.lookup a = some b := by
  rw [lookup_note] at e
  by_cases ha : a = x
  · rw [if_pos ha] at e; cases e; exact .inl ⟨ha, rfl⟩
  · rw [if_neg ha] at e; exact .inr ⟨ha, e⟩

theorem Inv.note (hX : ∀ j k, X.fresh j = X.fresh k → j = k) {σ : CState W} {x : W.Obj} {nd : Node W} (h : Inv X σ)
    (hm : Mut X σ.next σ.heap x) : Inv X ((σ.alloc X nd).note x (X.fresh σ.next)) := by
  refine ⟨?_, ?_, ?_, ?_⟩
  · intro a b e
    rcases note_inv e with ⟨rfl, rfl⟩ | ⟨_, e⟩
    · exact hm.frame note_frame
    · exact (h.copied a b e).frame note_frame
  · intro a b e
    rcases note_inv e with ⟨rfl, rfl⟩ | ⟨_, e⟩
    · intro e'
      refine hm.known ?_
      rw [e']
      exact new_fresh _
    · exact h.ne a b e
  · intro a b e
    rcases note_inv e with ⟨rfl, rfl⟩ | ⟨_, e⟩
    · exact known_fresh hX _
    · exact (h.known a b e).mono (Nat.le_succ _)
  · intro a a' b e e'
    rcases note_inv e with ⟨rfl, rfl⟩ | ⟨_, e⟩ <;> rcases note_inv e' with ⟨h2, h3⟩ | ⟨_, e'⟩
    · exact h2.symm
    · exact absurd (new_fresh _) (h.known _ _ e')
    · subst h3; exact absurd (new_fresh _) (h.known _ _ e)
    · exact h.inj a a' b e e'

/-- a new object is made for `x` and noted -/
theorem Core.note (hX : ∀ j k, X.fresh j = X.fresh k → j = k) {σ σ1 : CState W} {S : W.Obj → Prop} {x : W.Obj} {nd : Node W}
    (h : Core X σ S σ1) (hm : Mut X σ1.next σ1.heap x) (h1 : σ1.memo.lookup x = none) (hx : S x)
    (hc : CopyOf X (Img X σ1) (σ.heap x) nd) : Core X σ S ((σ1.alloc X nd).note x (X.fresh σ1.next)) := by
  have mono : ∀ a b, σ1.memo.lookup a = some b → ((σ1.alloc X nd).note x (X.fresh σ1.next)).memo.lookup a = some b := by
    intro a b e
    rw [lookup_note, if_neg]
    · exact e
    · rintro rfl; rw [h1] at e; cases e
  have img : ∀ a b, Img X σ1 a b → Img X ((σ1.alloc X nd).note x (X.fresh σ1.next)) a b :=
    fun a b hi => hi.imp (mono a b) fun ⟨h1, h2⟩ => ⟨h1.frame note_frame, h2⟩
  refine ⟨h.frame.trans note_frame, h.inv.note hX hm, fun a b e => mono a b (h.mono a b e), ?_, ?_⟩
  · intro a b e e0
    rcases note_inv e with ⟨rfl, rfl⟩ | ⟨_, e⟩
    · exact ⟨NewObj.mono h.frame.le (new_fresh _), .inl hx⟩
    · exact h.new a b e e0
  · intro a b e e0 hs
    rcases note_inv e with ⟨rfl, rfl⟩ | ⟨_, e⟩
    · show CopyOf X _ _ ((σ1.alloc X nd).heap _)
      rw [alloc_heap_new]
      exact CopyOf.mono img hc
    · rw [(note_frame (X := X)).heap b (h.inv.known a b e)]
      exact CopyOf.mono img (h.like a b e e0 hs)

/-- lists and dicts: the copy is noted first and filled at the end -/
theorem Core.box (hX : ∀ j k, X.fresh j = X.fresh k → j = k) {σ σ2 : CState W} {S : W.Obj → Prop} {x : W.Obj} {nb nf : Node W}
    (h0 : σ.memo.lookup x = none) (hb : Node.boxed nb) (hf : Node.boxed nf) (hk : ∀ a, S a → Known X σ.next a)
    (hx : Known X σ.next x) (h : Core X ((σ.alloc X nb).note x (X.fresh σ.next)) S σ2) (hc : CopyOf X (Img X σ2) (σ.heap x) nf) :
    Core X σ (fun a => a = x ∨ S a) (σ2.put (X.fresh σ.next) nf) ∧ Img X (σ2.put (X.fresh σ.next) nf) x (X.fresh σ.next) := by
  have hy : σ2.heap (X.fresh σ.next) = nb := by
    rw [h.frame.heap _ (known_fresh hX _)]
    exact alloc_heap_new
  have hyb : Node.boxed (σ2.heap (X.fresh σ.next)) := by rw [hy]; exact hb
  have hlx : σ2.memo.lookup x = some (X.fresh σ.next) := h.mono _ _ (by rw [lookup_note, if_pos rfl])
  have hput : ∀ o, o ≠ X.fresh σ.next → (σ2.put (X.fresh σ.next) nf).heap o = σ2.heap o := by
    intro o ho
    show (if o = _ then nf else _) = _
    rw [if_neg ho]
  have img : ∀ a b, Img X σ2 a b → Img X (σ2.put (X.fresh σ.next) nf) a b :=
    fun a b hi => hi.imp id fun ⟨h1, h2⟩ => ⟨h1.put hyb, h2⟩
  have old : ∀ a, a ≠ x → σ.memo.lookup a = none → ((σ.alloc X nb).note x (X.fresh σ.next)).memo.lookup a = none := by
    intro a ha e
    rw [lookup_note, if_neg ha]
    exact e
  refine ⟨⟨⟨Nat.le_trans (Nat.le_succ _) h.frame.le, ?_⟩, ⟨?_, h.inv.ne, h.inv.known, h.inv.inj⟩, ?_, ?_, ?_⟩, .inl hlx⟩
  · intro o ho
    rw [hput o (by rintro rfl; exact ho (new_fresh _)), h.frame.heap o (ho.mono (Nat.le_succ _))]
    exact alloc_heap ho
  · intro a b e
    exact (h.inv.copied a b e).put hyb hf
  · intro a b e
    refine h.mono a b ?_
    rw [lookup_note, if_neg]
    · exact e
    · rintro rfl; rw [h0] at e; cases e
  · intro a b e e0
    by_cases ha : a = x
    · subst ha
      have hb' : b = X.fresh σ.next := Option.some.inj (e.symm.trans hlx)
      subst hb'
      exact ⟨new_fresh _, .inl (.inl rfl)⟩
    · obtain ⟨h1, h2⟩ := h.new a b e (old a ha e0)
      exact ⟨NewObj.mono (Nat.le_succ _) h1, h2.imp .inr (NewObj.mono (Nat.le_succ _))⟩
  · intro a b e e0 hs
    by_cases ha : a = x
    · subst ha
      have hb' : b = X.fresh σ.next := Option.some.inj (e.symm.trans hlx)
      subst hb'
      show CopyOf X _ _ (if X.fresh σ.next = X.fresh σ.next then nf else _)
      rw [if_pos rfl]
      exact CopyOf.mono img hc
    · have hs := hs.resolve_left ha
      have := h.like a b e (old a ha e0) hs
      rw [(note_frame (X := X)).heap a (hk a hs)] at this
      rw [hput b]
      · exact CopyOf.mono img this
      · rintro rfl
        exact ha (h.inv.inj _ _ _ e hlx)

/-! ### sources -/

theorem reaches_trans {h : W.Obj → Node W} {a b c : W.Obj} (h1 : Reaches h a b) (h2 : Reaches h b c) : Reaches h a c := by
  induction h1 with
  | refl => exact h2
  | step hc _ ih => exact .step hc (ih h2)

theorem reaches_frame {n : Nat} {h h' : W.Obj → Node W} (hf : ∀ o, Known X n o → h' o = h o) {x : W.Obj}
    (hk : ∀ a, Reaches h x a → Known X n a) {a : W.Obj} : Reaches h' x a ↔ Reaches h x a := by
  constructor
  · intro hr
    induction hr with
    | refl => exact .refl _
    | step hc _ ih =>
      rw [hf _ (hk _ (.refl _))] at hc
      exact .step hc (ih fun a ha => hk a (.step hc ha))
  · intro hr
    induction hr with
    | refl => exact .refl _
    | step hc _ ih =>
      refine .step ?_ (ih fun a ha => hk a (.step hc ha))
      rw [hf _ (hk _ (.refl _))]
      exact hc

theorem source_child {σ : CState W} {x c : W.Obj} (h : CopySource X σ x) (hc : c ∈ (σ.heap x).children) : CopySource X σ c :=
  ⟨fun a ha => h.known a (.step hc ha), fun r i hr => h.ok r i (.step hc hr), fun r i hr => h.acyclic r i (.step hc hr)⟩

theorem source_frame {σ σ' : CState W} {x : W.Obj} (h : CopySource X σ x) (hf : Fr X σ σ') : CopySource X σ' x := by
  have hr : ∀ a, Reaches σ'.heap x a ↔ Reaches σ.heap x a := fun a => reaches_frame hf.heap h.known
  refine ⟨fun a ha => Known.mono hf.le (h.known a ((hr a).1 ha)), fun r i hr' hi => ?_, fun r i hr' hi c hc hcr => ?_⟩
  · rw [hf.heap r (h.known r ((hr r).1 hr'))] at hi
    exact h.ok r i ((hr r).1 hr') hi
  · have h1 := (hr r).1 hr'
    rw [hf.heap r (h.known r h1)] at hi
    refine h.acyclic r i h1 hi c hc ((reaches_frame hf.heap fun a ha => h.known a ?_).1 hcr)
    refine reaches_trans h1 (.step ?_ ha)
    rw [hi]
    exact hc

theorem nonempty_lookup {m : List (W.Obj × W.Obj)} (h : m ≠ []) : ∃ a b, m.lookup a = some b := by
  cases m with
  | nil => exact absurd rfl h
  | cons p m => exact ⟨p.1, p.2, by rw [List.lookup_cons]; simp⟩

theorem Core.nonempty {σ σ' : CState W} {S : W.Obj → Prop} (h : Core X σ S σ') (hn : σ.memo ≠ []) : σ'.memo ≠ [] := by
  obtain ⟨a, b, e⟩ := nonempty_lookup hn
  intro h'
  have := h.mono a b e
  rw [h'] at this
  cases this

/-- what one call does -/
def Post (X : CopyEnv W) (σ : CState W) (x y : W.Obj) (σ' : CState W) : Prop :=
  Core X σ (Reaches σ.heap x) σ' ∧ Img X σ' x y

theorem copyAll_core {f : W.Obj → CState W → Except Exc W.Obj × CState W}
    (hf : ∀ x σ y σ', Inv X σ → CopySource X σ x → σ.memo ≠ [] → f x σ = (.ok y, σ') → Post X σ x y σ') :
    ∀ {xs : List W.Obj} {σ : CState W} {ys : List W.Obj} {σ' : CState W}, Inv X σ → (∀ x ∈ xs, CopySource X σ x) → σ.memo ≠ [] →
      copyAll f xs σ = (.ok ys, σ') → Core X σ (fun a => ∃ x ∈ xs, Reaches σ.heap x a) σ' ∧ Along (Img X σ') xs ys
  | [], σ, ys, σ', hi, _, _, h => by
    cases h
    exact ⟨.refl hi _, trivial⟩
  | x :: xs, σ, ys, σ', hi, hs, hn, h => by
    unfold copyAll at h
    rcases h1 : f x σ with ⟨e | y, σ1⟩
    · rw [h1] at h; cases h
    · rw [h1] at h
      simp only at h
      rcases h2 : copyAll f xs σ1 with ⟨e | ys', σ2⟩
      · rw [h2] at h; cases h
      · rw [h2] at h
        cases h
        obtain ⟨hc1, hi1⟩ := hf x σ y σ1 hi (hs x List.mem_cons_self) hn h1
        have hs1 : ∀ x' ∈ xs, CopySource X σ x' := fun x' hx' => hs x' (List.mem_cons_of_mem _ hx')
        obtain ⟨hc2, hi2⟩ := copyAll_core hf hc1.inv (fun x' hx' => source_frame (hs1 x' hx') hc1.frame) (hc1.nonempty hn) h2
        have hk : ∀ a, (∃ x' ∈ x :: xs, Reaches σ.heap x' a) → Known X σ.next a := fun a ⟨x', hx', hr⟩ => (hs x' hx').known a hr
        refine ⟨Core.trans hk (hc1.weaken (fun a ha => ⟨x, List.mem_cons_self, ha⟩) hk) (hc2.weaken ?_ ?_), hc2.img hi1, hi2⟩
        · rintro a ⟨x', hx', hr⟩
          exact ⟨x', List.mem_cons_of_mem _ hx', (reaches_frame hc1.frame.heap (hs1 x' hx').known).1 hr⟩
        · exact fun a ha => (hk a ha).mono hc1.frame.le

theorem along_eq_imm {σ : CState W} (hi : Inv X σ) : ∀ {xs : List W.Obj}, Along (Img X σ) xs xs → ∀ c ∈ xs, Imm X σ.next σ.heap c
  | [], _, _, hc => nomatch hc
  | x :: xs, ⟨h1, h2⟩, c, hc => by
    rcases List.mem_cons.1 hc with rfl | hc
    · rcases h1 with h1 | h1
      · exact absurd rfl (hi.ne _ _ h1)
      · exact h1.1
    · exact along_eq_imm hi h2 c hc

theorem along_ne_mut {σ : CState W} (hi : Inv X σ) : ∀ {xs ys : List W.Obj}, Along (Img X σ) xs ys → ys ≠ xs →
    ∃ c ∈ xs, Mut X σ.next σ.heap c
  | [], [], _, hn => absurd rfl hn
  | x :: xs, y :: ys, ⟨h1, h2⟩, hn => by
    rcases h1 with h1 | ⟨_, rfl⟩
    · exact ⟨x, List.mem_cons_self, hi.copied _ _ h1⟩
    · obtain ⟨c, hc, hm⟩ := along_ne_mut hi h2 fun e => hn (by rw [e])
      exact ⟨c, List.mem_cons_of_mem _ hc, hm⟩
  | [], _ :: _, h, _ => h.elim
  | _ :: _, [], h, _ => h.elim

theorem along_dict {φ : W.Obj → W.Obj → Prop} : ∀ {d d' : Dict W.Obj}, d'.keys = d.keys → Along φ d.values d'.values →
    ∀ k v, (k, v) ∈ d → ∃ w, (k, w) ∈ d' ∧ φ v w
  | [], _, _, _, _, _, h => nomatch h
  | _ :: _, [], e, _, _, _, _ => nomatch e
  | (k1, v1) :: d, (k2, w2) :: d', e, ⟨h1, h2⟩, k, v, h => by
    have e1 : k2 = k1 := (List.cons.inj e).1
    have e2 : Dict.keys d' = Dict.keys d := (List.cons.inj e).2
    rcases List.mem_cons.1 h with h | h
    · cases h
      subst e1
      exact ⟨w2, List.mem_cons_self, h1⟩
    · obtain ⟨w, hw, hp⟩ := along_dict e2 h2 k v h
      exact ⟨w, List.mem_cons_of_mem _ hw, hp⟩

theorem shown_mem {C : RecClass W} (wf : C.WF) {i : Inst W} {k : String} {f : Field W} {v : W.Obj} (hf : (k, f) ∈ C.fields)
    (hv : i.dict.get? k = some v) : (¬ f.isPlainDefault v → (k, v) ∈ shown C i) ∧
      (f.isPlainDefault v → k ∉ (shown C i).map (·.1)) := by
  constructor
  · intro hp
    refine List.mem_filterMap.2 ⟨(k, f), hf, ?_⟩
    simp only [hv]
    rw [if_neg]
    intro h
    exact hp ((plainDefault_iff f v).1 h)
  · intro hp hk
    obtain ⟨⟨k', v'⟩, hkv, e⟩ := List.mem_map.1 hk
    obtain ⟨⟨k1, f1⟩, hf1, e1⟩ := List.mem_filterMap.1 hkv
    simp only at e e1
    cases h2 : i.dict.get? k1 with
    | none => rw [h2] at e1; cases e1
    | some v1 =>
      rw [h2] at e1
      simp only at e1
      by_cases hd : f1.plainDefault v1 = true
      · rw [if_pos hd] at e1; cases e1
      · rw [if_neg hd] at e1
        cases e1
        subst e
        rw [hv] at h2
        cases h2
        have := (Dict.mem_get? C.fields wf.nodup _ _ hf).symm.trans (Dict.mem_get? C.fields wf.nodup _ _ hf1)
        cases this
        exact hd ((plainDefault_iff _ _).2 hp)

theorem shown_keys_nodup {C : RecClass W} (wf : C.WF) (i : Inst W) : (shown C i).keys.Nodup := by
  have key : ∀ fs : Dict (Field W), List.Sublist ((fs.filterMap fun kf => match i.dict.get? kf.1 with
      | none => none
      | some v => if kf.2.plainDefault v then none else some (kf.1, v)).map (·.1)) (fs.map (·.1)) := by
    intro fs
    induction fs with
    | nil => exact .slnil
    | cons kf fs ih =>
      rw [List.filterMap_cons]
      split
      · exact .cons _ ih
      · next h =>
        split at h
        · cases h
        · split at h
          · cases h
          · cases h
            exact .cons_cons _ ih
  exact (key C.fields).nodup wf.nodup

/-- `from_mapping` of the copied dict -/
theorem rebuild {i : Inst W} (hi : Copyable X i) {φ : W.Obj → W.Obj → Prop} {d' : Dict W.Obj}
    (hk : d'.keys = (shown (X.cls i.cid) i).keys) (hv : Along φ (shown (X.cls i.cid) i).values d'.values) {t t' : LState W} {r : Res W}
    (h : fromMapping (fun m => callN X.env (X.cls i.cid) X.depth none m) Sel.empty [d'] [] t = (.ok r, t')) :
    ∃ j, r = .new j ∧ RecordCopy (X.cls i.cid) φ i j := by
  have wf := hi.creatable.wf
  have hsub : ∀ k ∈ d'.map (·.1), k ∈ (X.cls i.cid).fields.map (·.1) := fun k hk' => shown_keys i k (by
    show k ∈ (shown (X.cls i.cid) i).keys
    rw [← hk]
    exact hk')
  have hnd : (d'.map (·.1)).Nodup := by
    show d'.keys.Nodup
    rw [hk]
    exact shown_keys_nodup wf i
  have hfree : FreeKeys d' := fun k hk' => hi.free k (hsub k hk')
  cases hdep : X.depth with
  | zero =>
    rw [hdep] at h
    obtain ⟨m, _, _, hmc⟩ := C63_from_mapping (fun m => callN X.env (X.cls i.cid) 0 none m) (maps := [d']) (by
      intro m hm; rcases hm with _ | ⟨_, hm⟩
      · exact hnd
      · cases hm) (kw := []) List.nodup_nil (by simp)
    rw [hmc] at h
    cases h
  | succ n =>
    rw [hdep] at h
    obtain ⟨m, hmw, hg, he⟩ := deepcopyD_eq (E := X.env) (C := X.cls i.cid) (D := fun _ _ => M.pure d') (i := i) (s := t) (s1 := t) (s2 := t)
      (d := d') (d' := d') (deep := M.pure) rfl rfl hnd hfree n
    have h' : newFields X.env (X.cls i.cid) none m t = (.ok r, t') := by rw [← he]; exact h
    obtain ⟨j, h1, h2, h3, h4, h5, _⟩ := C49_keyword_construction (E := X.env) (parse := fun _ => M.throw .parseFailure) hi.creatable hmw
      hi.post h'
    have hjn : (j.dict.map (·.1)).Nodup := h3.nodup_iff.2 wf.nodup
    have hun : ∀ {k w w'}, (k, w) ∈ j.dict → (k, w') ∈ j.dict → w = w' := fun hw hw' =>
      Option.some.inj ((Dict.mem_get? _ hjn _ _ hw).symm.trans (Dict.mem_get? _ hjn _ _ hw'))
    refine ⟨j, h1, h2.trans hi.cid, h3, fun k w hw => ?_⟩
    have hkf : k ∈ (X.cls i.cid).fields.map (·.1) := h3.mem_iff.1 (List.mem_map.2 ⟨_, hw, rfl⟩)
    obtain ⟨⟨k', f⟩, hf, e⟩ := List.mem_map.1 hkf
    cases e
    obtain ⟨v, hv'⟩ := hi.full.get hkf
    refine ⟨f, v, hf, hv', ?_⟩
    obtain ⟨hs1, hs2⟩ := shown_mem wf hf hv'
    by_cases hp : f.isPlainDefault v
    · refine .inr ⟨hp, ?_⟩
      have hkm : k' ∉ m.map (·.1) := by
        intro hkm
        have h6 := (keys_congr hg k').1 hkm
        have h7 : k' ∈ d'.keys := h6
        rw [hk] at h7
        exact hs2 hp h7
      obtain ⟨dd, w', t1, t2, e1, e2, e3⟩ := h5 k' f hf hkm
      obtain ⟨d0, e4, _⟩ := hp
      rw [e4] at e1
      cases e1
      cases e2
      rw [e4, hun hw e3]
    · refine .inl ⟨hp, ?_⟩
      obtain ⟨w', hw', hφ⟩ := along_dict hk hv k' v (hs1 hp)
      have hm : (k', w') ∈ m := Dict.get?_eq_some_mem _ _ _ (by rw [hg]; exact Dict.mem_get? _ hnd _ _ hw')
      obtain ⟨f', w2, t1, t2, e1, e2, e3⟩ := h4 k' w' hm
      obtain ⟨t3, e4⟩ := hi.keeps k' f' e1 w' t1
      rw [e4] at e2
      cases e2
      rw [hun hw e3]
      exact hφ

theorem shown_own {C : RecClass W} {i : Inst W} {k : String} {v : W.Obj} (h : (k, v) ∈ shown C i) : (k, v) ∈ i.dict := by
  obtain ⟨⟨k1, f1⟩, hf1, e1⟩ := List.mem_filterMap.1 h
  simp only at e1
  cases h2 : i.dict.get? k1 with
  | none => rw [h2] at e1; cases e1
  | some v1 =>
    rw [h2] at e1
    simp only at e1
    by_cases hd : f1.plainDefault v1 = true
    · rw [if_pos hd] at e1; cases e1
    · rw [if_neg hd] at e1
      cases e1
      exact Dict.get?_eq_some_mem _ _ _ h2

theorem Core.state {σ σ' : CState W} {S : W.Obj → Prop} (h : Core X σ S σ') (t : LState W) : Core X σ S { σ' with st := t } :=
  ⟨⟨h.frame.le, h.frame.heap⟩, ⟨h.inv.copied, h.inv.ne, h.inv.known, h.inv.inj⟩, h.mono, h.new, h.like⟩

theorem Inv.alloc {σ : CState W} (h : Inv X σ) (nd : Node W) : Inv X (σ.alloc X nd) :=
  ⟨fun a b e => (h.copied a b e).frame alloc_frame, h.ne, fun a b e => (h.known a b e).mono (Nat.le_succ _), h.inj⟩

/-- a temporary object is made and copied -/
theorem Core.temp {σ σ1 : CState W} {nd : Node W} {S S' : W.Obj → Prop} (hk : ∀ a, S a → Known X σ.next a)
    (hs : ∀ a, S' a → a = X.fresh σ.next ∨ S a) (h : Core X (σ.alloc X nd) S' σ1) : Core X σ S σ1 := by
  refine ⟨Fr.trans alloc_frame h.frame, h.inv, h.mono, fun a b e e0 => ?_, fun a b e e0 ha => ?_⟩
  · obtain ⟨h1, h2⟩ := h.new a b e e0
    refine ⟨NewObj.mono (Nat.le_succ _) h1, ?_⟩
    rcases h2 with h2 | h2
    · rcases hs a h2 with rfl | h3
      · exact .inr (new_fresh _)
      · exact .inl h3
    · exact .inr (NewObj.mono (Nat.le_succ _) h2)
  · have h2 := (h.new a b e e0).2.resolve_right (Known.mono (Nat.le_succ _) (hk a ha))
    have := h.like a b e e0 h2
    rwa [alloc_heap (hk a ha)] at this

theorem along_values {φ : W.Obj → W.Obj → Prop} {ks : List String} {vs ws : List W.Obj} (hl : ks.length = vs.length)
    (h : Along φ vs ws) : (Dict.keys (ks.zip ws)) = ks ∧ Along φ vs (Dict.values (ks.zip ws)) := by
  have hl' := along_length h
  have h1 : Dict.keys (ks.zip ws) = ks := by
    unfold Dict.keys
    exact List.map_fst_zip (by omega)
  have h2 : Dict.values (ks.zip ws) = ws := by
    unfold Dict.values
    exact List.map_snd_zip (by omega)
  exact ⟨h1, by rw [h2]; exact h⟩

theorem lookup_self {m : List (W.Obj × W.Obj)} {x y : W.Obj} : List.lookup x ((x, y) :: m) = some y := by
  rw [List.lookup_cons]
  simp

/-- **the algorithm**: what a call of `deepcopy` does -/
theorem deepcopy_post (hX : ∀ j k, X.fresh j = X.fresh k → j = k) : ∀ (n : Nat) (x : W.Obj) (σ : CState W) (y : W.Obj) (σ' : CState W),
    Inv X σ → CopySource X σ x → (σ.memo ≠ [] ∨ ∀ xs, σ.heap x ≠ .tuple xs) → deepcopy X n x σ = (.ok y, σ') →
    ∃ m, Post X σ x y { σ' with memo := m } ∧ ((σ.memo ≠ [] ∨ ∀ i, σ.heap x ≠ .record i) → m = σ'.memo)
  | 0, _, _, _, _, _, _, _, h => by cases h
  | n + 1, x, σ, y, σ', hi, hs, ht, h => by
    have ih : ∀ x σ y σ', Inv X σ → CopySource X σ x → σ.memo ≠ [] → deepcopy X n x σ = (.ok y, σ') → Post X σ x y σ' := by
      intro x σ y σ' h1 h2 h3 h4
      obtain ⟨m, h5, h6⟩ := deepcopy_post hX n x σ y σ' h1 h2 (.inl h3) h4
      have := h6 (.inl h3)
      subst this
      exact h5
    have hx : Known X σ.next x := hs.known x (.refl _)
    unfold deepcopy at h
    cases hl : σ.memo.lookup x with
    | some y' =>
      rw [hl] at h
      cases h
      exact ⟨_, ⟨.refl hi _, .inl hl⟩, fun _ => rfl⟩
    | none =>
      rw [hl] at h
      simp only at h
      cases hh : σ.heap x with
      | atom =>
        rw [hh] at h
        cases h
        exact ⟨_, ⟨.refl hi _, .inr ⟨.atom hx hh, rfl⟩⟩, fun _ => rfl⟩
      | list xs =>
        rw [hh] at h
        simp only at h
        rcases h1 : copyAll (deepcopy X n) xs ((σ.alloc X (.list [])).note x (X.fresh σ.next)) with ⟨e | ys, σ1⟩
        · rw [h1] at h; cases h
        · rw [h1] at h
          cases h
          have hsc : ∀ c ∈ xs, CopySource X σ c := fun c hc => source_child hs (by rw [hh]; exact hc)
          obtain ⟨hc, ha⟩ := copyAll_core ih (hi.note hX (.box hx (by rw [hh]; trivial)))
            (fun c hc => source_frame (hsc c hc) note_frame) (by simp [CState.note]) h1
          have hk : ∀ a, (∃ c ∈ xs, Reaches ((σ.alloc X (.list [])).note x (X.fresh σ.next)).heap c a) → Reaches σ.heap x a := by
            rintro a ⟨c, hc, hr⟩
            exact .step (by rw [hh]; exact hc) ((reaches_frame (note_frame (X := X)).heap (hsc c hc).known).1 hr)
          obtain ⟨h2, h3⟩ := Core.box hX (x := x) (nb := .list []) (nf := .list ys) hl trivial trivial (fun a ha => hs.known a (hk a ha)) hx hc
            (by rw [hh]; exact .list ha)
          exact ⟨_, ⟨h2.weaken (fun a ha => ha.elim (fun e => e ▸ .refl _) (hk a)) hs.known, h3⟩, fun _ => rfl⟩
      | dict m =>
        rw [hh] at h
        simp only at h
        rcases h1 : copyAll (deepcopy X n) m.values ((σ.alloc X (.dict [])).note x (X.fresh σ.next)) with ⟨e | ys, σ1⟩
        · rw [h1] at h; cases h
        · rw [h1] at h
          cases h
          have hsc : ∀ c ∈ m.values, CopySource X σ c := fun c hc => source_child hs (by rw [hh]; exact hc)
          obtain ⟨hc, ha⟩ := copyAll_core ih (hi.note hX (.box hx (by rw [hh]; trivial)))
            (fun c hc => source_frame (hsc c hc) note_frame) (by simp [CState.note]) h1
          have hk : ∀ a, (∃ c ∈ m.values, Reaches ((σ.alloc X (.dict [])).note x (X.fresh σ.next)).heap c a) → Reaches σ.heap x a := by
            rintro a ⟨c, hc, hr⟩
            exact .step (by rw [hh]; exact hc) ((reaches_frame (note_frame (X := X)).heap (hsc c hc).known).1 hr)
          have hz := along_values (ks := m.keys) (by simp [Dict.keys, Dict.values]) ha
          obtain ⟨h2, h3⟩ := Core.box hX (x := x) (nb := .dict []) (nf := .dict (m.keys.zip ys)) hl trivial trivial
            (fun a ha => hs.known a (hk a ha)) hx hc (by rw [hh]; exact .dict hz.1 hz.2)
          exact ⟨_, ⟨h2.weaken (fun a ha => ha.elim (fun e => e ▸ .refl _) (hk a)) hs.known, h3⟩, fun _ => rfl⟩
      | tuple xs =>
        have hn : σ.memo ≠ [] := ht.resolve_right fun h => h xs hh
        rw [hh] at h
        simp only at h
        rcases h1 : copyAll (deepcopy X n) xs σ with ⟨e | ys, σ1⟩
        · rw [h1] at h; cases h
        · rw [h1] at h
          simp only at h
          have hsc : ∀ c ∈ xs, CopySource X σ c := fun c hc => source_child hs (by rw [hh]; exact hc)
          obtain ⟨hc', ha⟩ := copyAll_core ih hi hsc hn h1
          have hc : Core X σ (Reaches σ.heap x) σ1 := hc'.weaken (fun a ⟨c, hc, hr⟩ => .step (by rw [hh]; exact hc) hr) hs.known
          have hx1 : σ1.heap x = .tuple xs := by rw [hc.frame.heap x hx, hh]
          cases h2 : σ1.memo.lookup x with
          | some y' =>
            rw [h2] at h
            cases h
            exact ⟨_, ⟨hc, .inl h2⟩, fun _ => rfl⟩
          | none =>
            rw [h2] at h
            simp only at h
            by_cases he : ys = xs
            · rw [if_pos he] at h
              cases h
              subst he
              exact ⟨_, ⟨hc, .inr ⟨.tuple (hx.mono hc.frame.le) hx1 (along_eq_imm hc.inv ha), rfl⟩⟩, fun _ => rfl⟩
            · rw [if_neg he] at h
              cases h
              obtain ⟨c, hcx, hm⟩ := along_ne_mut hc.inv ha he
              have := Core.note hX (nd := .tuple ys) hc (.tuple (hx.mono hc.frame.le) hx1 hcx hm) h2 (.refl _) (by rw [hh]; exact .tuple ha)
              exact ⟨_, ⟨this, .inl lookup_self⟩, fun _ => rfl⟩
      | record i =>
        rw [hh] at h
        simp only at h
        have hok := hs.ok x i (.refl _) hh
        rw [toDict_shown hok.creatable.wf hok.full] at h
        simp only at h
        rcases h1 : deepcopy X n (X.fresh σ.next) (σ.alloc X (.dict (shown (X.cls i.cid) i))) with ⟨e | q, σ1⟩
        · rw [h1] at h; cases h
        · rw [h1] at h
          simp only at h
          have hv : ∀ c ∈ (shown (X.cls i.cid) i).values, c ∈ i.dict.values := by
            intro c hc
            obtain ⟨⟨k, v⟩, hkv, rfl⟩ := List.mem_map.1 hc
            exact List.mem_map.2 ⟨(k, v), shown_own hkv, rfl⟩
          have hsc : ∀ c ∈ (shown (X.cls i.cid) i).values, CopySource X σ c :=
            fun c hc => source_child hs (by rw [hh]; exact hv c hc)
          have hr : ∀ a, Reaches (σ.alloc X (.dict (shown (X.cls i.cid) i))).heap (X.fresh σ.next) a → a = X.fresh σ.next ∨
              ∃ c ∈ (shown (X.cls i.cid) i).values, Reaches σ.heap c a := by
            intro a ha
            cases ha with
            | refl => exact .inl rfl
            | step hc hr =>
              rw [alloc_heap_new] at hc
              exact .inr ⟨_, hc, (reaches_frame (alloc_frame (X := X)).heap (hsc _ hc).known).1 hr⟩
          have hs0 : CopySource X (σ.alloc X (.dict (shown (X.cls i.cid) i))) (X.fresh σ.next) := by
            refine ⟨fun a ha => ?_, fun r i' ha hi' => ?_, fun r i' ha hi' => ?_⟩
            · rcases hr a ha with rfl | ⟨c, hc, hr⟩
              · exact known_fresh hX _
              · exact Known.mono (Nat.le_succ _) ((hsc c hc).known a hr)
            · rcases hr r ha with rfl | ⟨c, hc, hr⟩
              · rw [alloc_heap_new] at hi'; cases hi'
              · have := source_frame (hsc c hc) (alloc_frame (nd := .dict (shown (X.cls i.cid) i)))
                exact this.ok r i' ((reaches_frame (alloc_frame (X := X)).heap (hsc c hc).known).2 hr) hi'
            · rcases hr r ha with rfl | ⟨c, hc, hr⟩
              · rw [alloc_heap_new] at hi'; cases hi'
              · have := source_frame (hsc c hc) (alloc_frame (nd := .dict (shown (X.cls i.cid) i)))
                exact this.acyclic r i' ((reaches_frame (alloc_frame (X := X)).heap (hsc c hc).known).2 hr) hi'
          obtain ⟨m, ⟨hc0, himg⟩, hm⟩ := deepcopy_post hX n _ _ q σ1 (hi.alloc _) hs0 (.inr fun xs => by rw [alloc_heap_new]; nofun) h1
          have := hm (.inr fun i => by rw [alloc_heap_new]; nofun)
          subst this
          have hlp : σ.memo.lookup (X.fresh σ.next) = none := by
            cases h2 : σ.memo.lookup (X.fresh σ.next) with
            | none => rfl
            | some b => exact absurd (new_fresh _) (hi.copied _ _ h2).known
          have hpq : σ1.memo.lookup (X.fresh σ.next) = some q := by
            rcases himg with h2 | ⟨h2, _⟩
            · exact h2
            · exfalso
              have h3 : σ1.heap (X.fresh σ.next) = .dict (shown (X.cls i.cid) i) :=
                (hc0.frame.heap _ (known_fresh hX _)).trans alloc_heap_new
              cases h2 with
              | atom _ e => exact nomatch h3.symm.trans e
              | tuple _ e => exact nomatch h3.symm.trans e
          have hlike := hc0.like _ q hpq hlp (.refl _)
          rw [alloc_heap_new] at hlike
          have hS : ∀ a, Reaches (σ.alloc X (.dict (shown (X.cls i.cid) i))).heap (X.fresh σ.next) a →
              a = X.fresh σ.next ∨ Reaches σ.heap x a := by
            intro a ha
            rcases hr a ha with h2 | ⟨c, hc, h2⟩
            · exact .inl h2
            · exact .inr (.step (by rw [hh]; exact hv c hc) h2)
          have hc1 : Core X σ (Reaches σ.heap x) σ1 := Core.temp hs.known hS hc0
          have hlx : σ1.memo.lookup x = none := by
            cases h2 : σ1.memo.lookup x with
            | none => rfl
            | some b =>
              exfalso
              rcases (hc0.new x b h2 hl).2 with h3 | h3
              · rcases hr x h3 with h4 | ⟨c, hc, h4⟩
                · exact hx (h4 ▸ new_fresh _)
                · exact hs.acyclic x i (.refl _) hh c (hv c hc) h4
              · exact hx (NewObj.mono (Nat.le_succ _) h3)
          have hq : ∃ d', σ1.heap q = .dict d' ∧ d'.keys = (shown (X.cls i.cid) i).keys ∧
              Along (Img X σ1) (shown (X.cls i.cid) i).values d'.values := by
            have hlike' : CopyOf X (Img X σ1) (.dict (shown (X.cls i.cid) i)) (σ1.heap q) := hlike
            generalize σ1.heap q = nd at hlike'
            cases hlike' with
            | dict h0 h1 => exact ⟨_, rfl, h0, h1⟩
          obtain ⟨d', hq1, hq2, hq3⟩ := hq
          rw [hq1] at h
          simp only at h
          rcases h2 : fromMapping (fun m => callN X.env (X.cls i.cid) X.depth none m) Sel.empty [d'] [] σ1.st with ⟨e | r, t'⟩
          · rw [h2] at h; cases h
          · obtain ⟨j, rfl, hj⟩ := rebuild hok hq2 hq3 h2
            rw [h2] at h
            cases h
            have hn := Core.note hX (nd := .record j) (hc1.state t') (.box (hx.mono hc1.frame.le) (by
              show Node.boxed (σ1.heap x)
              rw [hc1.frame.heap x hx, hh]; trivial)) hlx (.refl _) (by rw [hh]; exact .record hj)
            refine ⟨_, ⟨hn, .inl lookup_self⟩, fun hm => ?_⟩
            have hne : σ.memo ≠ [] := hm.resolve_right fun h => h i rfl
            simp [CState.note, CState.alloc, CState.put, hne]

/-- construction from the copied dict succeeds -/
theorem rebuild_ok {i : Inst W} (hi : Copyable X i) (hdep : X.depth ≠ 0) {d' : Dict W.Obj}
    (hk : d'.keys = (shown (X.cls i.cid) i).keys) (t : LState W) :
    ∃ r t', fromMapping (fun m => callN X.env (X.cls i.cid) X.depth none m) Sel.empty [d'] [] t = (.ok r, t') := by
  have wf := hi.creatable.wf
  have hsub : ∀ k ∈ d'.map (·.1), k ∈ (X.cls i.cid).fields.map (·.1) := fun k hk' => shown_keys i k (by
    show k ∈ (shown (X.cls i.cid) i).keys
    rw [← hk]
    exact hk')
  have hnd : (d'.map (·.1)).Nodup := by
    show d'.keys.Nodup
    rw [hk]
    exact shown_keys_nodup wf i
  have hfree : FreeKeys d' := fun k hk' => hi.free k (hsub k hk')
  obtain ⟨n, hn⟩ := Nat.exists_eq_succ_of_ne_zero hdep
  obtain ⟨m, hmw, hg, he⟩ := deepcopyD_eq (E := X.env) (C := X.cls i.cid) (D := fun _ _ => M.pure d') (i := i) (s := t) (s1 := t) (s2 := t)
    (d := d') (d' := d') (deep := M.pure) rfl rfl hnd hfree n
  obtain ⟨s1, h1⟩ := fillArgs_keeps (fields := (X.cls i.cid).fields) m (by
    intro k w hkw
    have hkm : k ∈ m.map (·.1) := List.mem_map.2 ⟨_, hkw, rfl⟩
    obtain ⟨⟨k', f⟩, hf, e⟩ := List.mem_map.1 (hsub k ((keys_congr hg k).1 hkm))
    cases e
    exact ⟨f, Dict.mem_get? _ wf.nodup _ _ hf, hi.keeps _ f hf w⟩) t
  have hun : ∀ k f, (k, f) ∈ (X.cls i.cid).fields → k ∉ m.map (·.1) → ∃ d, f.default = some (.value d) := by
    intro k f hf hkm
    obtain ⟨v, hv⟩ := hi.full.get (List.mem_map.2 ⟨_, hf, rfl⟩)
    by_cases hp : f.isPlainDefault v
    · obtain ⟨d, hd, _⟩ := hp
      exact ⟨d, hd⟩
    · refine absurd ((keys_congr hg k).2 ?_) hkm
      show k ∈ d'.keys
      rw [hk]
      exact List.mem_map.2 ⟨_, (shown_mem wf hf hv).1 hp, rfl⟩
  have hr : ∀ k ∈ (X.cls i.cid).required, k ∈ m.keys := by
    intro k hk
    obtain ⟨f, hf, hd⟩ := (wf.req k).1 hk
    by_cases hkm : k ∈ m.map (·.1)
    · exact hkm
    · obtain ⟨d, hd'⟩ := hun k f (Dict.get?_eq_some_mem _ _ _ hf) hkm
      rw [hd] at hd'; cases hd'
  have hu := unsupplied_mem (E := X.env) wf (kw := m)
  obtain ⟨defs, h2, _⟩ := defaultSeq_plain (fields := (X.cls i.cid).fields) ((X.cls i.cid).unsupplied X.env m) (by
    intro k hk
    obtain ⟨ho, hn⟩ := (hu.2 k).1 hk
    obtain ⟨f, d, hf, _⟩ := (wf.opt k).1 ho
    obtain ⟨d', hd'⟩ := hun k f (Dict.get?_eq_some_mem _ _ _ hf) hn
    exact ⟨f, d', hf, hd'⟩) s1
  have hb : Build (X.cls i.cid) m ((X.cls i.cid).unsupplied X.env m) t (.made (.new ((X.cls i.cid).fresh (m ++ defs)))) s1 :=
    .made h1 hr h2 (hi.post _ _) .none
  have h3 := newFields_spec (E := X.env) wf hmw none hb
  rw [← he] at h3
  rw [hn]
  exact ⟨_, _, h3⟩

/-- if copying a list of objects fails, copying one of them does -/
theorem copyAll_error {f : W.Obj → CState W → Except Exc W.Obj × CState W}
    (hf : ∀ x σ y σ', Inv X σ → CopySource X σ x → σ.memo ≠ [] → f x σ = (.ok y, σ') → Post X σ x y σ') :
    ∀ {xs : List W.Obj} {σ : CState W} {e : Exc} {σ' : CState W}, Inv X σ → (∀ x ∈ xs, CopySource X σ x) → σ.memo ≠ [] →
      copyAll f xs σ = (.error e, σ') → ∃ x ∈ xs, ∃ σ1 σ2, Fr X σ σ1 ∧ Inv X σ1 ∧ σ1.memo ≠ [] ∧ f x σ1 = (.error e, σ2)
  | [], _, _, _, _, _, _, h => by cases h
  | x :: xs, σ, e, σ', hi, hs, hn, h => by
    unfold copyAll at h
    rcases h1 : f x σ with ⟨e1 | y, σ1⟩
    · rw [h1] at h
      cases h
      exact ⟨x, List.mem_cons_self, σ, _, .rfl, hi, hn, h1⟩
    · rw [h1] at h
      simp only at h
      rcases h2 : copyAll f xs σ1 with ⟨e2 | ys', σ2⟩
      · rw [h2] at h
        cases h
        obtain ⟨hc1, hi1⟩ := hf x σ y σ1 hi (hs x List.mem_cons_self) hn h1
        have hs1 : ∀ x' ∈ xs, CopySource X σ x' := fun x' hx' => hs x' (List.mem_cons_of_mem _ hx')
        obtain ⟨x', hx', σ3, σ4, h3, h4, h5, h6⟩ := copyAll_error hf hc1.inv (fun x' hx' => source_frame (hs1 x' hx') hc1.frame)
          (hc1.nonempty hn) h2
        exact ⟨x', List.mem_cons_of_mem _ hx', σ3, σ4, hc1.frame.trans h3, h4, h5, h6⟩
      · rw [h2] at h; cases h

theorem path_frame {n : Nat} {h h' : W.Obj → Node W} (hf : ∀ o, Known X n o → h' o = h o) {k : Nat} {x a : W.Obj}
    (hp : Path h' k x a) : (∀ a, Reaches h x a → Known X n a) → Path h k x a := by
  induction hp with
  | zero x => exact fun _ => .zero x
  | @step k x c a hc _ ih =>
    intro hk
    have hc' : c ∈ (h x).children := by rw [← hf x (hk x (.refl _))]; exact hc
    exact .step hc' (ih fun a ha => hk a (.step hc' ha))

theorem shallow_child {h : W.Obj → Node W} {x c : W.Obj} {R : Nat} (hs : Shallow h x R) (hc : c ∈ (h x).children) :
    ∃ R', R = R' + 1 ∧ Shallow h c R' := by
  have h1 := hs c 1 (.step hc (.zero _))
  obtain ⟨R', rfl⟩ : ∃ R', R = R' + 1 := ⟨R - 1, by omega⟩
  refine ⟨R', rfl, fun a k hp => ?_⟩
  have := hs a (k + 1) (.step hc hp)
  omega

theorem shallow_frame {σ σ' : CState W} {x : W.Obj} {R : Nat} (h : CopySource X σ x) (hf : Fr X σ σ') (hs : Shallow σ.heap x R) :
    Shallow σ'.heap x R := fun a k hp => hs a k (path_frame hf.heap hp h.known)

/-- the dict that is copied for a record is a source too -/
theorem temp_source (hX : ∀ j k, X.fresh j = X.fresh k → j = k) {σ : CState W} {d : Dict W.Obj}
    (hsc : ∀ c ∈ d.values, CopySource X σ c) : CopySource X (σ.alloc X (.dict d)) (X.fresh σ.next) := by
  have hr : ∀ a, Reaches (σ.alloc X (.dict d)).heap (X.fresh σ.next) a → a = X.fresh σ.next ∨ ∃ c ∈ d.values, Reaches σ.heap c a := by
    intro a ha
    cases ha with
    | refl => exact .inl rfl
    | step hc hr =>
      rw [alloc_heap_new] at hc
      exact .inr ⟨_, hc, (reaches_frame (alloc_frame (X := X)).heap (hsc _ hc).known).1 hr⟩
  refine ⟨fun a ha => ?_, fun r i' ha hi' => ?_, fun r i' ha hi' => ?_⟩
  · rcases hr a ha with rfl | ⟨c, hc, hr⟩
    · exact known_fresh hX _
    · exact Known.mono (Nat.le_succ _) ((hsc c hc).known a hr)
  · rcases hr r ha with rfl | ⟨c, hc, hr⟩
    · rw [alloc_heap_new] at hi'; cases hi'
    · have := source_frame (hsc c hc) (alloc_frame (nd := .dict d))
      exact this.ok r i' ((reaches_frame (alloc_frame (X := X)).heap (hsc c hc).known).2 hr) hi'
  · rcases hr r ha with rfl | ⟨c, hc, hr⟩
    · rw [alloc_heap_new] at hi'; cases hi'
    · have := source_frame (hsc c hc) (alloc_frame (nd := .dict d))
      exact this.acyclic r i' ((reaches_frame (alloc_frame (X := X)).heap (hsc c hc).known).2 hr) hi'

theorem alloc_no_entry {σ : CState W} (hi : Inv X σ) : σ.memo.lookup (X.fresh σ.next) = none := by
  cases h2 : σ.memo.lookup (X.fresh σ.next) with
  | none => rfl
  | some b => exact absurd (new_fresh _) (hi.copied _ _ h2).known

/-- copying the parts of an object fails -/
theorem child_error (hX : ∀ j k, X.fresh j = X.fresh k → j = k) (n : Nat)
    (ih : ∀ (x : W.Obj) (σ : CState W) (e : Exc) (σ' : CState W), Inv X σ → CopySource X σ x →
      (σ.memo ≠ [] ∨ ∀ xs, σ.heap x ≠ .tuple xs) → deepcopy X n x σ = (.error e, σ') →
      e = .recursionError ∧ ∀ R, Shallow σ.heap x R → n ≤ 2 * R + 1) {σ : CState W} {x : W.Obj} (hs : CopySource X σ x)
    {xs : List W.Obj} {σ0 : CState W} {e : Exc} {σ1 : CState W} (hxs : ∀ c ∈ xs, c ∈ (σ.heap x).children) (hf : Fr X σ σ0)
    (hi0 : Inv X σ0) (hn0 : σ0.memo ≠ []) (hc : copyAll (deepcopy X n) xs σ0 = (.error e, σ1)) :
    e = .recursionError ∧ ∀ R, Shallow σ.heap x R → n + 1 ≤ 2 * R := by
  have post : ∀ x σ y σ', Inv X σ → CopySource X σ x → σ.memo ≠ [] → deepcopy X n x σ = (.ok y, σ') → Post X σ x y σ' := by
    intro x σ y σ' h1 h2 h3 h4
    obtain ⟨m, h5, h6⟩ := deepcopy_post hX n x σ y σ' h1 h2 (.inl h3) h4
    have := h6 (.inl h3)
    subst this
    exact h5
  obtain ⟨c, hc, σ2, σ3, h1, h2, h3, h4⟩ := copyAll_error post hi0 (fun c hc => source_frame (source_child hs (hxs c hc)) hf) hn0 hc
  have hcs := source_child hs (hxs c hc)
  obtain ⟨h5, h6⟩ := ih c σ2 e σ3 h2 (source_frame hcs (hf.trans h1)) (.inl h3) h4
  refine ⟨h5, fun R hR => ?_⟩
  obtain ⟨R', rfl, hR'⟩ := shallow_child hR (hxs c hc)
  have := h6 R' (shallow_frame hcs (hf.trans h1) hR')
  omega

/-- **how it fails**: the recursion is too deep -/
theorem deepcopy_error (hX : ∀ j k, X.fresh j = X.fresh k → j = k) (hdep : X.depth ≠ 0) :
    ∀ (n : Nat) (x : W.Obj) (σ : CState W) (e : Exc) (σ' : CState W), Inv X σ → CopySource X σ x →
    (σ.memo ≠ [] ∨ ∀ xs, σ.heap x ≠ .tuple xs) → deepcopy X n x σ = (.error e, σ') →
    e = .recursionError ∧ ∀ R, Shallow σ.heap x R → n ≤ 2 * R + 1
  | 0, _, _, _, _, _, _, _, h => by cases h; exact ⟨rfl, fun R _ => by omega⟩
  | n + 1, x, σ, e, σ', hi, hs, ht, h => by
    have hx : Known X σ.next x := hs.known x (.refl _)
    have child := fun xs σ0 e σ1 hxs => child_error hX n (deepcopy_error hX hdep n) hs (xs := xs) (σ0 := σ0) (e := e) (σ1 := σ1) hxs
    unfold deepcopy at h
    cases hl : σ.memo.lookup x with
    | some y' => rw [hl] at h; cases h
    | none =>
      rw [hl] at h
      simp only at h
      cases hh : σ.heap x with
      | atom => rw [hh] at h; cases h
      | list xs =>
        rw [hh] at h
        simp only at h
        rcases h1 : copyAll (deepcopy X n) xs ((σ.alloc X (.list [])).note x (X.fresh σ.next)) with ⟨e1 | ys, σ1⟩
        · rw [h1] at h
          cases h
          obtain ⟨h2, h3⟩ := child xs _ _ _ (fun c hc => by rw [hh]; exact hc) note_frame (hi.note hX (.box hx (by rw [hh]; trivial)))
            (by simp [CState.note]) h1
          exact ⟨h2, fun R hR => by have := h3 R hR; omega⟩
        · rw [h1] at h; cases h
      | dict m =>
        rw [hh] at h
        simp only at h
        rcases h1 : copyAll (deepcopy X n) m.values ((σ.alloc X (.dict [])).note x (X.fresh σ.next)) with ⟨e1 | ys, σ1⟩
        · rw [h1] at h
          cases h
          obtain ⟨h2, h3⟩ := child m.values _ _ _ (fun c hc => by rw [hh]; exact hc) note_frame
            (hi.note hX (.box hx (by rw [hh]; trivial))) (by simp [CState.note]) h1
          exact ⟨h2, fun R hR => by have := h3 R hR; omega⟩
        · rw [h1] at h; cases h
      | tuple xs =>
        have hn : σ.memo ≠ [] := ht.resolve_right fun h => h xs hh
        rw [hh] at h
        simp only at h
        rcases h1 : copyAll (deepcopy X n) xs σ with ⟨e1 | ys, σ1⟩
        · rw [h1] at h
          cases h
          obtain ⟨h2, h3⟩ := child xs _ _ _ (fun c hc => by rw [hh]; exact hc) .rfl hi hn h1
          exact ⟨h2, fun R hR => by have := h3 R hR; omega⟩
        · rw [h1] at h
          simp only at h
          cases h2 : σ1.memo.lookup x with
          | some y' => rw [h2] at h; cases h
          | none =>
            rw [h2] at h
            simp only at h
            by_cases he : ys = xs
            · rw [if_pos he] at h; cases h
            · rw [if_neg he] at h; cases h
      | record i =>
        rw [hh] at h
        simp only at h
        have hok := hs.ok x i (.refl _) hh
        rw [toDict_shown hok.creatable.wf hok.full] at h
        simp only at h
        have hv : ∀ c ∈ (shown (X.cls i.cid) i).values, c ∈ i.dict.values := by
          intro c hc
          obtain ⟨⟨k, v⟩, hkv, rfl⟩ := List.mem_map.1 hc
          exact List.mem_map.2 ⟨(k, v), shown_own hkv, rfl⟩
        have hsc : ∀ c ∈ (shown (X.cls i.cid) i).values, CopySource X σ c :=
          fun c hc => source_child hs (by rw [hh]; exact hv c hc)
        have hs0 := temp_source hX hsc
        rcases h1 : deepcopy X n (X.fresh σ.next) (σ.alloc X (.dict (shown (X.cls i.cid) i))) with ⟨e1 | q, σ1⟩
        · rw [h1] at h
          cases h
          cases n with
          | zero => cases h1; exact ⟨rfl, fun R _ => by omega⟩
          | succ n =>
            unfold deepcopy at h1
            rw [show (σ.alloc X (.dict (shown (X.cls i.cid) i))).memo.lookup (X.fresh σ.next) = none from alloc_no_entry hi,
              alloc_heap_new] at h1
            simp only at h1
            have hk0 : Known X (σ.alloc X (.dict (shown (X.cls i.cid) i))).next (X.fresh σ.next) := known_fresh hX _
            rcases h2 : copyAll (deepcopy X n) (shown (X.cls i.cid) i).values (((σ.alloc X (.dict (shown (X.cls i.cid) i))).alloc X
              (.dict [])).note (X.fresh σ.next) (X.fresh (σ.alloc X (.dict (shown (X.cls i.cid) i))).next)) with ⟨e2 | ys, σ2⟩
            · rw [h2] at h1
              cases h1
              obtain ⟨h3, h4⟩ := child_error hX n (deepcopy_error hX hdep n) hs (fun c hc => by rw [hh]; exact hv c hc)
                (Fr.trans alloc_frame note_frame) ((hi.alloc _).note hX (.box hk0 (by rw [alloc_heap_new]; trivial)))
                (by simp [CState.note]) h2
              exact ⟨h3, fun R hR => by have := h4 R hR; omega⟩
            · rw [h2] at h1; cases h1
        · rw [h1] at h
          simp only at h
          obtain ⟨m, ⟨hc0, himg⟩, hm⟩ := deepcopy_post hX n _ _ q σ1 (hi.alloc _) hs0 (.inr fun xs => by rw [alloc_heap_new]; nofun) h1
          have := hm (.inr fun i => by rw [alloc_heap_new]; nofun)
          subst this
          have hpq : σ1.memo.lookup (X.fresh σ.next) = some q := by
            rcases himg with h2 | ⟨h2, _⟩
            · exact h2
            · exfalso
              have h3 : σ1.heap (X.fresh σ.next) = .dict (shown (X.cls i.cid) i) :=
                (hc0.frame.heap _ (known_fresh hX _)).trans alloc_heap_new
              cases h2 with
              | atom _ e => exact nomatch h3.symm.trans e
              | tuple _ e => exact nomatch h3.symm.trans e
          have hlike := hc0.like _ q hpq (alloc_no_entry hi) (.refl _)
          rw [alloc_heap_new] at hlike
          have hq : ∃ d', σ1.heap q = .dict d' ∧ d'.keys = (shown (X.cls i.cid) i).keys := by
            have hlike' : CopyOf X (Img X σ1) (.dict (shown (X.cls i.cid) i)) (σ1.heap q) := hlike
            generalize σ1.heap q = nd at hlike'
            cases hlike' with
            | dict h0 h1 => exact ⟨_, rfl, h0⟩
          obtain ⟨d', hq1, hq2⟩ := hq
          rw [hq1] at h
          simp only at h
          obtain ⟨r, t', hr⟩ := rebuild_ok hok hdep hq2 σ1.st
          rw [hr] at h
          cases r with
          | new j => cases h
          | old v => cases h

end Copying
end Records
