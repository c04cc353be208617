import Verif.Spec.Exporter
import Verif.Proofs.SelectMore
import Verif.Proofs.Export
/-
Bound exporters and factories: the store of shared `Select` objects refines immutable values.
-/
set_option linter.unusedSimpArgs false
namespace Records
open Spec
variable {W : World} {R : Type}

/-! ### the store of `Select`s -/

def AllPure (S : List (Sel W.Obj)) : Prop := ∀ s ∈ S, s.Pure

/-- objects are only added, and keep their edits -/
def Ext (S S' : List (Sel W.Obj)) : Prop :=
  S.length ≤ S'.length ∧ ∀ a, a < S.length → (selAt S' a).edits = (selAt S a).edits

theorem Ext.refl (S : List (Sel W.Obj)) : Ext S S := ⟨Nat.le_refl _, fun _ _ => rfl⟩

theorem Ext.trans {S T U : List (Sel W.Obj)} (h : Ext S T) (g : Ext T U) : Ext S U :=
  ⟨Nat.le_trans h.1 g.1, fun a ha => (g.2 a (Nat.lt_of_lt_of_le ha h.1)).trans (h.2 a ha)⟩

theorem sel_empty_pure : (Sel.empty : Sel W.Obj).Pure := mkSel_pure (V := W.Obj) {}

theorem AllPure.at {S : List (Sel W.Obj)} (h : AllPure S) (a : Nat) : (selAt S a).Pure := by
  unfold selAt
  rw [List.getD_eq_getElem?_getD]
  cases hx : S[a]? with
  | none => exact sel_empty_pure
  | some x => exact h x (List.mem_of_getElem? hx)

theorem selAt_set (S : List (Sel W.Obj)) (a b : Nat) (x : Sel W.Obj) (hb : b < S.length) :
    selAt (S.set a x) b = if a = b then x else selAt S b := by
  unfold selAt
  rw [List.getD_eq_getElem?_getD, List.getD_eq_getElem?_getD, List.getElem?_set]
  by_cases h : a = b
  · subst h; simp [hb]
  · simp [h]

theorem selAt_append (S : List (Sel W.Obj)) (x : Sel W.Obj) (b : Nat) (hb : b < S.length) : selAt (S ++ [x]) b = selAt S b := by
  unfold selAt
  rw [List.getD_eq_getElem?_getD, List.getD_eq_getElem?_getD, List.getElem?_append_left hb]

theorem selAt_last (S : List (Sel W.Obj)) (x : Sel W.Obj) : selAt (S ++ [x]) S.length = x := by
  simp [selAt]

theorem set_ext {S : List (Sel W.Obj)} (hS : AllPure S) (a : Nat) {x : Sel W.Obj} (hx : x.Pure)
    (he : x.edits = (selAt S a).edits) : AllPure (S.set a x) ∧ Ext S (S.set a x) := by
  refine ⟨fun s hs => ?_, by simp, fun b hb => ?_⟩
  · rcases List.mem_or_eq_of_mem_set hs with h | h
    · exact hS s h
    · exact h ▸ hx
  · rw [selAt_set _ _ _ _ hb]
    split
    · next h => rw [← h, he]
    · rfl

theorem append_ext {S : List (Sel W.Obj)} (hS : AllPure S) {x : Sel W.Obj} (hx : x.Pure) : AllPure (S ++ [x]) ∧ Ext S (S ++ [x]) := by
  refine ⟨fun s hs => ?_, by simp, fun b hb => ?_⟩
  · rcases List.mem_append.1 hs with h | h
    · exact hS s h
    · exact (List.mem_singleton.1 h) ▸ hx
  · rw [selAt_append _ _ _ hb]

/-- what a merge does to the store -/
structure Merged (S : List (Sel W.Obj)) (r : Nat × List (Sel W.Obj)) (e : Edits W.Obj) : Prop where
  pure : AllPure r.2
  ext : Ext S r.2
  lt : r.1 < r.2.length
  edits : (selAt r.2 r.1).edits = e

theorem mergeAt_spec {S : List (Sel W.Obj)} (hS : AllPure S) {a b : Nat} (ha : a < S.length) (hb : b < S.length) :
    Merged S (mergeAt S a b) ((selAt S a).edits.append (selAt S b).edits) := by
  obtain ⟨t1, t2, t3⟩ := truth_pure _ (hS.at a)
  obtain ⟨p1, x1⟩ := set_ext hS a t2 t3
  have la : a < (S.set a (selAt S a).truth.2).length := Nat.lt_of_lt_of_le ha x1.1
  have lb : b < (S.set a (selAt S a).truth.2).length := Nat.lt_of_lt_of_le hb x1.1
  unfold mergeAt
  simp only
  generalize S.set a (selAt S a).truth.2 = S1 at *
  cases hta : (selAt S a).truth.1 with
  | false =>
    simp only [Bool.not_false, if_true]
    refine ⟨p1, x1, lb, ?_⟩
    rw [hta] at t1
    rw [Edits.append_empty_left (by simpa using t1.symm)]
    exact x1.2 b hb
  | true =>
    simp only [Bool.not_true, Bool.false_eq_true, if_false]
    obtain ⟨u1, u2, u3⟩ := truth_pure _ (p1.at b)
    obtain ⟨p2, x2⟩ := set_ext p1 b u2 u3
    have la2 : a < (S1.set b (selAt S1 b).truth.2).length := Nat.lt_of_lt_of_le la x2.1
    have lb2 : b < (S1.set b (selAt S1 b).truth.2).length := Nat.lt_of_lt_of_le lb x2.1
    generalize S1.set b (selAt S1 b).truth.2 = S2 at *
    cases htb : (selAt S1 b).truth.1 with
    | false =>
      simp only [Bool.not_false, if_true]
      refine ⟨p2, x1.trans x2, la2, ?_⟩
      rw [htb] at u1
      rw [Edits.append_empty_right (b := (selAt S b).edits) (by rw [← x1.2 b hb]; simpa using u1.symm)]
      exact (x1.trans x2).2 a ha
    | true =>
      simp only [Bool.not_true, Bool.false_eq_true, if_false]
      obtain ⟨p3, x3⟩ := set_ext p2 a (x := (selAt S2 a).drained) (by rw [leave_pure _ (p2.at a)]; exact p2.at a)
        (by rw [leave_pure _ (p2.at a)])
      have la3 := Nat.lt_of_lt_of_le la2 x3.1
      have lb3 := Nat.lt_of_lt_of_le lb2 x3.1
      generalize S2.set a (selAt S2 a).drained = S3 at *
      obtain ⟨p4, x4⟩ := set_ext p3 b (x := (selAt S3 b).drained) (by rw [leave_pure _ (p3.at b)]; exact p3.at b)
        (by rw [leave_pure _ (p3.at b)])
      generalize S3.set b (selAt S3 b).drained = S4 at *
      have ea : (selAt S2 a).edits = (selAt S a).edits := (x1.trans x2).2 a ha
      have eb : (selAt S3 b).edits = (selAt S b).edits := ((x1.trans x2).trans x3).2 b hb
      rw [← ea, ← eb]
      obtain ⟨p5, x5⟩ := append_ext p4 (x := mkSel ((selAt S2 a).edits.append (selAt S3 b).edits)) (mkSel_pure _)
      refine ⟨p5, (((x1.trans x2).trans x3).trans x4).trans x5, by simp, ?_⟩
      exact (congrArg Sel.edits (selAt_last S4 _)).trans rfl

theorem mergeList_spec {S : List (Sel W.Obj)} (hS : AllPure S) {a : Nat} (ha : a < S.length) (bs : List Nat)
    (hb : ∀ b ∈ bs, b < S.length) :
    Merged S (mergeList S a bs) ((bs.map fun b => (selAt S b).edits).foldl Edits.append (selAt S a).edits) := by
  induction bs generalizing S a with
  | nil => exact ⟨hS, .refl S, ha, rfl⟩
  | cons b bs ih =>
    have h1 := mergeAt_spec hS ha (hb b (.head _))
    have h2 := ih h1.pure h1.lt (fun b' h' => Nat.lt_of_lt_of_le (hb b' (.tail _ h')) h1.ext.1)
    refine ⟨h2.pure, h1.ext.trans h2.ext, h2.lt, ?_⟩
    simp only [mergeList]
    rw [h2.edits, h1.edits]
    simp only [List.map_cons, List.foldl_cons]
    congr 1
    exact List.map_congr_left fun b' h' => h1.ext.2 b' (hb b' (.tail _ h'))

theorem mergeAll_spec {S : List (Sel W.Obj)} (hS : AllPure S) {a : Nat} (ha : a < S.length) (bs : List Nat)
    (hb : ∀ b ∈ bs, b < S.length) (kw : Option (SelectArgs W.Obj)) (hk : ∀ k ∈ kw, Reiterable k) :
    if bs = [] ∧ kw.isNone then mergeAll S a bs kw = (.error .typeError, S)
    else ∃ r, mergeAll S a bs kw = (.ok r.1, r.2) ∧
      Merged S r (moreEdits (selAt S a).edits (bs.map fun b => (selAt S b).edits) kw) := by
  have hl := mergeList_spec hS ha bs hb
  cases kw with
  | none =>
    cases bs with
    | nil => rfl
    | cons b bs =>
      rw [if_neg (by simp)]
      refine ⟨mergeList S a (b :: bs), rfl, ?_⟩
      simpa [moreEdits] using hl
  | some k =>
    rw [if_neg (by simp)]
    have hkr := hk k rfl
    obtain ⟨p1, x1⟩ := append_ext hl.pure (mk'_pure hkr)
    have h2 := mergeAt_spec p1 (a := (mergeList S a bs).1) (b := (mergeList S a bs).2.length)
      (Nat.lt_of_lt_of_le hl.lt x1.1) (by simp)
    refine ⟨mergeAt ((mergeList S a bs).2 ++ [k.mk']) (mergeList S a bs).1 (mergeList S a bs).2.length,
      by simp [mergeAll], h2.pure, (hl.ext.trans x1).trans h2.ext, h2.lt, ?_⟩
    rw [h2.edits, x1.2 _ hl.lt, hl.edits, selAt_last, mk'_edits hkr]
    simp [moreEdits]

/-! ### refinement -/

/-- two lists of the same length, related entry by entry -/
inductive Both {α β : Type} (r : α → β → Prop) : List α → List β → Prop
  | nil : Both r [] []
  | cons {a b l m} : r a b → Both r l m → Both r (a :: l) (b :: m)

/-- exporter `b` is the value `c` -/
structure XRep (S : List (Sel W.Obj)) (b : XBound W) (c : XConf W) : Prop where
  toClass : b.toClass = c.toClass
  pos : b.eargs = c.pos
  wf : b.ekw.WF
  kw : b.ekw.get? = c.kw
  lt : b.sel < S.length
  edits : (selAt S b.sel).edits = c.edits

/-- factory `b` is the value `e` -/
structure FRep (S : List (Sel W.Obj)) (a : Nat) (e : Edits W.Obj) : Prop where
  lt : a < S.length
  edits : (selAt S a).edits = e

theorem XRep.ext {S T : List (Sel W.Obj)} {b : XBound W} {c : XConf W} (h : XRep S b c) (x : Ext S T) : XRep T b c :=
  ⟨h.toClass, h.pos, h.wf, h.kw, Nat.lt_of_lt_of_le h.lt x.1, (x.2 _ h.lt).trans h.edits⟩

theorem FRep.ext {S T : List (Sel W.Obj)} {a : Nat} {e : Edits W.Obj} (h : FRep S a e) (x : Ext S T) : FRep T a e :=
  ⟨Nat.lt_of_lt_of_le h.lt x.1, (x.2 _ h.lt).trans h.edits⟩

/-- the store represents the values -/
structure Rep (st : XStore W) (vs : XVals W) : Prop where
  pure : AllPure st.sels
  ne : 0 < st.sels.length
  zero : (selAt st.sels 0).edits = {}
  selects : Both (FRep st.sels) st.named vs.selects
  exporters : Both (XRep st.sels) st.exporters vs.exporters
  factories : Both (fun b e => FRep st.sels b.sel e) st.factories vs.factories

theorem Rep.start : Rep (XStore.start : XStore W) ⟨[{}], [], []⟩ := by
  have h : AllPure [(Sel.empty : Sel W.Obj)] := fun s hs => (List.mem_singleton.1 hs) ▸ sel_empty_pure
  exact ⟨h, Nat.one_pos, rfl, .cons ⟨Nat.one_pos, rfl⟩ .nil, .nil, .nil⟩

theorem forall2_imp {α β : Type} {r r' : α → β → Prop} (h : ∀ a b, r a b → r' a b) {l : List α} {m : List β}
    (g : Both r l m) : Both r' l m := by
  induction g with
  | nil => exact .nil
  | cons a _ ih => exact .cons (h _ _ a) ih

theorem forall2_snoc {α β : Type} {r : α → β → Prop} {l : List α} {m : List β} (g : Both r l m) {a : α} {b : β}
    (h : r a b) : Both r (l ++ [a]) (m ++ [b]) := by
  induction g with
  | nil => exact .cons h .nil
  | cons x _ ih => exact .cons x ih

theorem forall2_get {α β : Type} {r : α → β → Prop} {l : List α} {m : List β} (g : Both r l m) (n : Nat) :
    (l[n]? = none ∧ m[n]? = none) ∨ ∃ a b, l[n]? = some a ∧ m[n]? = some b ∧ r a b := by
  induction g generalizing n with
  | nil => exact .inl ⟨by simp, by simp⟩
  | cons x _ ih =>
    cases n with
    | zero => exact .inr ⟨_, _, rfl, rfl, x⟩
    | succ n => simpa using ih n

theorem Rep.ext {st : XStore W} {vs : XVals W} (h : Rep st vs) {S : List (Sel W.Obj)} (p : AllPure S) (x : Ext st.sels S) :
    Rep { st with sels := S } vs :=
  ⟨p, Nat.lt_of_lt_of_le h.ne x.1, (x.2 0 h.ne).trans h.zero, forall2_imp (fun _ _ g => g.ext x) h.selects,
    forall2_imp (fun _ _ g => g.ext x) h.exporters, forall2_imp (fun _ _ g => g.ext x) h.factories⟩

theorem Rep.addr {st : XStore W} {vs : XVals W} (h : Rep st vs) (n : Nat) : FRep st.sels (st.addr n) (vs.selects.getD n {}) := by
  unfold XStore.addr
  rw [List.getD_eq_getElem?_getD, List.getD_eq_getElem?_getD]
  rcases forall2_get h.selects n with ⟨h1, h2⟩ | ⟨a, b, h1, h2, h3⟩
  · rw [h1, h2]; exact ⟨h.ne, h.zero⟩
  · rw [h1, h2]; exact h3

theorem Rep.addrs {st : XStore W} {vs : XVals W} (h : Rep st vs) (others : List Nat) :
    (∀ b ∈ others.map st.addr, b < st.sels.length) ∧
    ((others.map st.addr).map fun b => (selAt st.sels b).edits) = others.map fun n => vs.selects.getD n {} := by
  refine ⟨fun b hb => ?_, ?_⟩
  · obtain ⟨n, _, rfl⟩ := List.mem_map.1 hb
    exact (h.addr n).lt
  · rw [List.map_map]
    exact List.map_congr_left fun n _ => (h.addr n).edits

/-- merging, as the three `select`-like operations use it -/
theorem Rep.merge {st : XStore W} {vs : XVals W} (h : Rep st vs) {a : Nat} {e : Edits W.Obj} (ha : FRep st.sels a e)
    (others : List Nat) (kw : Option (SelectArgs W.Obj)) (hk : ∀ k ∈ kw, Reiterable k) :
    if others = [] ∧ kw.isNone then mergeAll st.sels a (others.map st.addr) kw = (.error .typeError, st.sels)
    else ∃ a' S, mergeAll st.sels a (others.map st.addr) kw = (.ok a', S) ∧ Rep { st with sels := S } vs ∧
      FRep S a' (moreEdits e (others.map fun n => vs.selects.getD n {}) kw) ∧ Ext st.sels S := by
  obtain ⟨h1, h2⟩ := h.addrs others
  have := mergeAll_spec h.pure ha.lt (others.map st.addr) h1 kw hk
  by_cases hc : others = [] ∧ kw.isNone
  · rw [if_pos (by simpa using hc)] at this
    rw [if_pos hc]; exact this
  · rw [if_neg (by simpa using hc)] at this
    rw [if_neg hc]
    obtain ⟨r, hr, hm⟩ := this
    refine ⟨r.1, r.2, hr, h.ext hm.pure hm.ext, ⟨hm.lt, ?_⟩, hm.ext⟩
    rw [hm.edits, ha.edits, h2]

theorem exportRun_sel (V : OptView W) (C : RecClass W) (obj : Carrier W) (ea : List W.Obj) (ek : Dict W.Obj) (sel : Sel W.Obj)
    (hs : sel.Pure) (k : Dict W.Obj → M W R) (s : LState W) :
    (exportRun V C obj ea ek sel k s).2.Pure ∧ (exportRun V C obj ea ek sel k s).2.edits = sel.edits := by
  unfold exportRun
  split
  · exact ⟨hs, rfl⟩
  · split
    · exact ⟨hs, rfl⟩
    · simp only
      split <;> exact call_sel sel hs _ _

theorem run_sel (F : XFun W R) (V : OptView W) (C : RecClass W) (obj : Carrier W) (ea : List W.Obj) (ek : Dict W.Obj)
    (sel : Sel W.Obj) (hs : sel.Pure) (args : List W.Obj) (kw : Dict W.Obj) (s : LState W) :
    (F.run V C obj ea ek sel args kw s).2.Pure ∧ (F.run V C obj ea ek sel args kw s).2.edits = sel.edits := by
  cases F <;> exact exportRun_sel V C obj _ _ sel hs _ s

theorem Rep.callX {st : XStore W} {vs : XVals W} (h : Rep st vs) (V : OptView W) (b : XBound W) (F : XFun W R) (C : RecClass W)
    (obj : Carrier W) (args : List W.Obj) (kw : Dict W.Obj) (s : LState W) :
    Rep (st.callX V b F C obj args kw s).2 vs ∧
      Ext st.sels (st.callX V b F C obj args kw s).2.sels ∧ (st.callX V b F C obj args kw s).2.exporters = st.exporters ∧
      (st.callX V b F C obj args kw s).2.factories = st.factories := by
  unfold XStore.callX
  generalize clash (if b.toClass = true then ["self", "instance"] else ["self"]) kw = c
  split
  · exact ⟨h, .refl _, rfl, rfl⟩
  · obtain ⟨h1, h2⟩ := run_sel F V C obj b.eargs b.ekw _ (h.pure.at b.sel) args kw s
    obtain ⟨p, x⟩ := set_ext h.pure b.sel h1 h2
    exact ⟨h.ext p x, x, rfl, rfl⟩

/-- what one step does: represented values follow, earlier objects stay -/
structure Steps (st st' : XStore W) (vs' : XVals W) : Prop where
  rep : Rep st' vs'
  ext : Ext st.sels st'.sels
  exporters : st.exporters <+: st'.exporters
  factories : st.factories <+: st'.factories

theorem step_spec {st : XStore W} {vs : XVals W} (h : Rep st vs) (V : OptView W) (s : LState W) (op : XOp W R) (ho : op.ok) :
    Steps st (op.step V st s).1 (op.vals vs) := by
  have nop : Steps st st vs := ⟨h, .refl _, List.prefix_refl _, List.prefix_refl _⟩
  cases op with
  | newSelect a =>
    obtain ⟨p, x⟩ := append_ext h.pure (mk'_pure ho)
    have g := h.ext p x
    refine ⟨⟨g.pure, g.ne, g.zero, ?_, g.exporters, g.factories⟩, x, List.prefix_refl _, List.prefix_refl _⟩
    refine forall2_snoc g.selects ⟨by simp, ?_⟩
    exact (congrArg Sel.edits (selAt_last _ _)).trans (mk'_edits ho)
  | merge a others kw =>
    have hm := h.merge (h.addr a) others kw ho
    simp only [XOp.step, XOp.vals]
    by_cases hc : others = [] ∧ kw.isNone
    · rw [if_pos hc] at hm ⊢
      rw [hm]
      exact ⟨h.ext h.pure (.refl _), .refl _, List.prefix_refl _, List.prefix_refl _⟩
    · rw [if_neg hc] at hm ⊢
      obtain ⟨a', S, h1, g, h3, x⟩ := hm
      rw [h1]
      exact ⟨⟨g.pure, g.ne, g.zero, forall2_snoc g.selects h3, g.exporters, g.factories⟩, x, List.prefix_refl _, List.prefix_refl _⟩
  | exporter b =>
    exact ⟨⟨h.pure, h.ne, h.zero, h.selects, forall2_snoc h.exporters ⟨rfl, rfl, by simp [Dict.WF, Dict.keys], rfl, h.ne, h.zero⟩,
      h.factories⟩, .refl _, List.prefix_append _ _, List.prefix_refl _⟩
  | select x others kw =>
    simp only [XOp.step, XOp.vals]
    rcases forall2_get h.exporters x with ⟨h1, h2⟩ | ⟨b, c, h1, h2, h3⟩
    · rw [h1, h2]; exact nop
    · rw [h1, h2]
      simp only
      have hm := h.merge ⟨h3.lt, h3.edits⟩ others kw ho
      by_cases hc : others = [] ∧ kw.isNone
      · rw [if_pos hc] at hm ⊢
        rw [hm]
        exact ⟨h.ext h.pure (.refl _), .refl _, List.prefix_refl _, List.prefix_refl _⟩
      · rw [if_neg hc] at hm ⊢
        obtain ⟨a', S, e1, g, g3, x⟩ := hm
        rw [e1]
        exact ⟨⟨g.pure, g.ne, g.zero, g.selects,
          forall2_snoc g.exporters ⟨h3.toClass, h3.pos, h3.wf, h3.kw, g3.lt, g3.edits⟩, g.factories⟩, x,
          List.prefix_append _ _, List.prefix_refl _⟩
  | exportWith x args kw =>
    simp only [XOp.step, XOp.vals]
    rcases forall2_get h.exporters x with ⟨h1, h2⟩ | ⟨b, c, h1, h2, h3⟩
    · rw [h1, h2]; exact nop
    · rw [h1, h2]
      simp only
      have hcl : clash ["self"] kw = true ↔ "self" ∈ kw.map (·.1) := by
        simp only [clash, List.any_cons, List.any_nil, Bool.or_false]
        exact Dict.has_iff kw "self"
      by_cases hc : "self" ∈ kw.map (·.1)
      · rw [if_pos hc, if_pos (hcl.2 hc)]; exact nop
      · rw [if_neg hc, if_neg (fun h' => hc (hcl.1 h'))]
        refine ⟨⟨h.pure, h.ne, h.zero, h.selects, forall2_snoc h.exporters
          ⟨h3.toClass, by simp [h3.pos], h3.wf.update _, ?_, h3.lt, h3.edits⟩, h.factories⟩, .refl _,
          List.prefix_append _ _, List.prefix_refl _⟩
        funext k
        rw [Dict.get?_update _ _ ho, h3.kw]
        simp only [overlay]
        cases kw.get? k <;> rfl
  | call x F C obj args kw =>
    simp only [XOp.step, XOp.vals]
    rcases forall2_get h.exporters x with ⟨h1, h2⟩ | ⟨b, c, h1, h2, h3⟩
    · rw [h1]; exact nop
    · rw [h1]
      simp only
      obtain ⟨r, x, e, f⟩ := h.callX V b F C obj args kw s
      exact ⟨r, x, e ▸ List.prefix_refl _, f ▸ List.prefix_refl _⟩
  | factory =>
    exact ⟨⟨h.pure, h.ne, h.zero, h.selects, h.exporters, forall2_snoc h.factories ⟨h.ne, h.zero⟩⟩, .refl _, List.prefix_refl _,
      List.prefix_append _ _⟩
  | fselect x others kw =>
    simp only [XOp.step, XOp.vals]
    rcases forall2_get h.factories x with ⟨h1, h2⟩ | ⟨b, c, h1, h2, h3⟩
    · rw [h1, h2]; exact nop
    · rw [h1, h2]
      simp only
      have hm := h.merge h3 others kw ho
      by_cases hc : others = [] ∧ kw.isNone
      · rw [if_pos hc] at hm ⊢
        rw [hm]
        exact ⟨h.ext h.pure (.refl _), .refl _, List.prefix_refl _, List.prefix_refl _⟩
      · rw [if_neg hc] at hm ⊢
        obtain ⟨a', S, e1, g, g3, x⟩ := hm
        rw [e1]
        exact ⟨⟨g.pure, g.ne, g.zero, g.selects, g.exporters, forall2_snoc g.factories g3⟩, x,
          List.prefix_refl _, List.prefix_append _ _⟩
  | fcall x hp m =>
    simp only [XOp.step, XOp.vals]
    rcases forall2_get h.factories x with ⟨h1, h2⟩ | ⟨b, c, h1, h2, h3⟩
    · rw [h1]; exact nop
    · rw [h1]
      simp only [XStore.callF]
      obtain ⟨q1, q2⟩ := call_sel _ (h.pure.at b.sel) hp m
      obtain ⟨p, x⟩ := set_ext h.pure b.sel q1 q2
      exact ⟨h.ext p x, x, List.prefix_refl _, List.prefix_refl _⟩

theorem exec_spec (V : OptView W) (ops : List (XOp W R)) (ho : ∀ op ∈ ops, op.ok) {st : XStore W} {vs : XVals W} (h : Rep st vs)
    (s : LState W) : Steps st (XStore.exec V ops st s).1 (ops.foldl XOp.vals vs) := by
  induction ops generalizing st vs s with
  | nil => exact ⟨h, .refl _, List.prefix_refl _, List.prefix_refl _⟩
  | cons op ops ih =>
    have h1 := step_spec h V s op (ho op (.head _))
    have h2 := ih (fun o h => ho o (.tail _ h)) h1.rep (op.step V st s).2
    exact ⟨h2.rep, h1.ext.trans h2.ext, h1.exporters.trans h2.exporters, h1.factories.trans h2.factories⟩

theorem exec_append (V : OptView W) (a b : List (XOp W R)) (st : XStore W) (s : LState W) :
    XStore.exec V (a ++ b) st s = XStore.exec V b (XStore.exec V a st s).1 (XStore.exec V a st s).2 := by
  induction a generalizing st s with
  | nil => rfl
  | cons op a ih => exact ih _ _

/-! ### outcomes -/

theorem exportRun_congr (V : OptView W) (C : RecClass W) (obj : Carrier W) (ea : List W.Obj) (ek : Dict W.Obj) {sel sel' : Sel W.Obj}
    (hs : sel.Pure) (hs' : sel'.Pure) (he : sel.edits = sel'.edits) (k : Dict W.Obj → M W R) (s : LState W) :
    (exportRun V C obj ea ek sel k s).1 = (exportRun V C obj ea ek sel' k s).1 := by
  unfold exportRun
  split
  · rfl
  · split
    · rfl
    · next d s' _ =>
      obtain ⟨h1, h2⟩ := call_congr sel sel' hs hs' he [d] (.dict 0)
      simp only
      rw [h1, h2]
      split <;> rfl

theorem callX_congr {st st' : XStore W} (V : OptView W) (b : XBound W) (F : XFun W R) (C : RecClass W) (obj : Carrier W)
    (args : List W.Obj) (kw : Dict W.Obj) (s : LState W) (p : AllPure st.sels) (p' : AllPure st'.sels)
    (he : (selAt st.sels b.sel).edits = (selAt st'.sels b.sel).edits) :
    (st.callX V b F C obj args kw s).1 = (st'.callX V b F C obj args kw s).1 := by
  unfold XStore.callX
  generalize clash (if b.toClass = true then ["self", "instance"] else ["self"]) kw = c
  split
  · rfl
  · cases F <;> exact exportRun_congr V C obj _ _ (p.at _) (p'.at _) he _ s

/-- `bindOpts` against the specification -/
theorem bindOpts_spec (V : OptView W) (pos : List W.Obj) (kw : Dict W.Obj) :
    (¬ Bindable pos kw.get? → bindOpts V pos kw = .error .typeError) ∧
    (Bindable pos kw.get? → bindOpts V pos kw = .ok (optsFor V pos kw.get?, revFor V pos kw.get?)) := by
  have hlen : optNames.length = 5 := rfl
  have any1 : (kw.keys.any fun k => !optNames.contains k) = true ↔ ∃ k ∈ kw.keys, k ∉ optNames := by
    simp [List.any_eq_true]
  have any2 : (kw.keys.any fun k => (optNames.take pos.length).contains k) = true ↔
      ∃ k ∈ kw.keys, k ∈ optNames.take pos.length := by
    simp [List.any_eq_true]
  have idx : ∀ k, (∃ j, optNames[j]? = some k ∧ pos.length ≤ j) ↔ k ∈ optNames.drop pos.length := by
    intro k
    rw [List.mem_iff_getElem?]
    simp only [List.getElem?_drop]
    constructor
    · rintro ⟨j, h, hj⟩
      exact ⟨j - pos.length, by rw [Nat.add_sub_cancel' hj]; exact h⟩
    · rintro ⟨i, h⟩
      exact ⟨_, h, by omega⟩
  have nd : optNames.Nodup := by decide
  have split : ∀ k, k ∈ optNames → (k ∈ optNames.drop pos.length ↔ k ∉ optNames.take pos.length) := by
    intro k hk
    have := List.take_append_drop pos.length optNames
    rw [← this] at hk nd
    rw [List.nodup_append] at nd
    constructor
    · intro h1 h2; exact nd.2.2 _ h2 _ h1 rfl
    · intro h; exact (List.mem_append.1 hk).resolve_left h
  have bindable : Bindable pos kw.get? ↔ ¬ pos.length > optNames.length ∧ (¬ ∃ k ∈ kw.keys, k ∉ optNames) ∧
      ¬ ∃ k ∈ kw.keys, k ∈ optNames.take pos.length := by
    unfold Bindable
    rw [hlen]
    constructor
    · rintro ⟨h1, h2⟩
      have h2 : ∀ k ∈ kw.keys, k ∈ optNames.drop pos.length := by
        intro k hk
        obtain ⟨v, hv⟩ := Option.isSome_iff_exists.1 ((Dict.get?_isSome_iff kw k).2 hk)
        exact (idx k).1 (h2 k v hv)
      refine ⟨by omega, ?_, ?_⟩
      · rintro ⟨k, hk, hn⟩; exact hn (List.mem_of_mem_drop (h2 k hk))
      · rintro ⟨k, hk, hn⟩
        exact (split k (List.mem_of_mem_take hn)).1 (h2 k hk) hn
    · rintro ⟨h1, h2, h3⟩
      refine ⟨by omega, fun k v hv => (idx k).2 ?_⟩
      have hk : k ∈ kw.keys := (Dict.get?_isSome_iff kw k).1 (by simp [hv])
      have hk' : k ∈ optNames := Decidable.byContradiction fun h => h2 ⟨k, hk, h⟩
      exact (split k hk').2 fun h => h3 ⟨k, hk, h⟩
  constructor
  · intro h
    unfold bindOpts
    by_cases c1 : pos.length > optNames.length
    · rw [if_pos c1]
    · rw [if_neg c1]
      by_cases c2 : ∃ k ∈ kw.keys, k ∉ optNames
      · rw [if_pos (any1.2 c2)]
      · rw [if_neg (fun h => c2 (any1.1 h))]
        by_cases c3 : ∃ k ∈ kw.keys, k ∈ optNames.take pos.length
        · rw [if_pos (any2.2 c3)]
        · exact absurd (bindable.2 ⟨c1, c2, c3⟩) h
  · intro h
    obtain ⟨c1, c2, c3⟩ := bindable.1 h
    unfold bindOpts
    rw [if_neg c1, if_neg (fun h => c2 (any1.1 h)), if_neg (fun h => c3 (any2.1 h))]
    have gets : ∀ j name, optNames[j]? = some name → Dict.get? (optNames.zip pos ++ kw) name = given pos kw.get? j := by
      intro j name hj
      unfold given
      rw [hj]
      clear bindable split idx any1 any2 h c1 c2 c3 nd hlen
      unfold optNames at hj ⊢
      rcases j with _ | _ | _ | _ | _ | j <;> simp at hj <;> subst hj <;>
        rcases pos with _ | ⟨p0, _ | ⟨p1, _ | ⟨p2, _ | ⟨p3, _ | ⟨p4, pos⟩⟩⟩⟩⟩ <;> simp [Dict.get?]
    simp only [optsFor, revFor]
    rw [gets 0 _ rfl, gets 1 _ rfl, gets 2 _ rfl, gets 3 _ rfl, gets 4 _ rfl]
    cases given pos kw.get? 0 <;> cases given pos kw.get? 1 <;> cases given pos kw.get? 2 <;> cases given pos kw.get? 3 <;>
      cases given pos kw.get? 4 <;> rfl

theorem toDict_wf (C : RecClass W) (obj : Carrier W) (o : ExportOpts) (sel : Sel W.Obj) (s s' : LState W) (d : Dict W.Obj)
    (h : toDict C obj o sel s = (.ok d, s')) : d.WF := by
  unfold toDict at h
  simp only [M.bind, M.pure] at h
  split at h
  · cases h
    exact Dict.WF.update (by simp [Dict.WF, Dict.keys]) _
  · cases h

theorem exportRun_spec (V : OptView W) (C : RecClass W) (obj : Carrier W) (pos : List W.Obj) (kw : Dict W.Obj) (sel : Sel W.Obj)
    (hs : sel.Pure) (f : Dict W.Obj → M W R) (s : LState W) :
    ExportsAs V C obj pos kw.get? sel.edits f s (exportRun V C obj pos kw sel f s).1 := by
  obtain ⟨b1, b2⟩ := bindOpts_spec V pos kw
  refine ⟨fun h => by unfold exportRun; rw [b1 h], fun h => ?_⟩
  unfold exportRun
  rw [b2 h]
  simp only
  rcases hd : toDict C obj (optsFor V pos kw.get?) (revFor V pos kw.get?) s with ⟨_ | d, s'⟩
  · rfl
  · simp only
    have hw := toDict_wf C obj _ _ s s' d hd
    have hh : Heap.WF [d] := by
      intro x hx
      exact (List.mem_singleton.1 hx) ▸ hw
    have hc := call_sim sel hs [d] hh (.dict 0) (by simp [MObj.Valid])
    unfold EditedThen
    have hat : MObj.items [d] (.dict 0) = d := rfl
    rw [hat] at hc
    cases hr : runScript sel.edits.script d.get? with
    | error k =>
      rw [hr] at hc
      simp only [CallRes.outcome] at hc ⊢
      cases hx : (sel.call [d] (.dict 0)).ret with
      | ok m => rw [hx] at hc; cases hc
      | error e => rw [hx] at hc; cases hc; rfl
    | ok am =>
      rw [hr] at hc
      simp only [CallRes.outcome] at hc ⊢
      obtain ⟨d', e1, e2, e3⟩ := hc
      cases hx : (sel.call [d] (.dict 0)).ret with
      | error e => rw [hx] at e1; cases e1
      | ok m =>
        rw [hx] at e1
        cases e1
        exact ⟨_, e2, funext e3, rfl⟩

end Records
