import Verif.Spec.Lifetime
import Verif.Props.Equality
import Verif.Props.Copying
import Verif.Props.Nested
/-
C128: frozen records of immutable values.
-/
namespace Records
variable {W : World} {X : CopyEnv W}

namespace LifetimeLemmas
open Copying

theorem bare_record {nd : Node W} {i : Inst W} (h : nd.bare = (Node.record i).bare) :
    ∃ j, nd = .record j ∧ j.cid = i.cid ∧ j.dict = i.dict := by
  cases nd with
  | record j =>
    refine ⟨j, rfl, ?_⟩
    have h := Node.record.inj h
    exact ⟨congrArg (·.cid) h, congrArg (·.dict) h⟩
  | atom => cases h
  | list => cases h
  | tuple => cases h
  | dict => cases h

theorem bare_children {nd nd' : Node W} (h : nd'.bare = nd.bare) : nd'.children = nd.children := by
  cases nd with
  | record i =>
    obtain ⟨j, rfl, _, e⟩ := bare_record h
    show j.dict.values = i.dict.values
    rw [e]
  | atom => cases nd' <;> cases h; rfl
  | list => cases nd' <;> cases h; rfl
  | tuple => cases nd' <;> cases h; rfl
  | dict => cases nd' <;> cases h; rfl

theorem op_cid (E : Env W) (H : Hasher W) {C : RecClass W} (i : Inst W) (s : LState W) (op : Op W) :
    (op.run E H C i s).2.1.cid = i.cid := by
  cases op with
  | set k v => show (setInst C i k v).2.cid = _; unfold setInst; split <;> rfl
  | del k => show (delInst i k).2.cid = _; unfold delInst; split <;> rfl
  | setHash h => rfl
  | hash => exact (alike_hash E H C i s).cid
  | eq b => exact (alike_eq_left E H C i b s).cid
  | eqBy b => exact (alike_eq_right E H C b i s).cid
  | «export» o => rfl

theorem bare_of {i j : Inst W} (hc : j.cid = i.cid) (hd : j.dict = i.dict) : (Node.record j).bare = (Node.record i).bare := by
  cases i; cases j; cases hc; cases hd; rfl

/-- one operation on objects whose contents are as in `h`, up to the slot -/
theorem step_bare {h : W.Obj → Node W} {m : Nat} {S : W.Obj → Prop}
    (hp : ∀ x, S x → h x = .atom ∨ (∃ xs, h x = .tuple xs) ∨ ∃ i, h x = .record i ∧ (X.cls i.cid).frozen = true)
    (hn : ∀ x, S x → ¬ NewObj X m x) {σ : CState W} (hm : m ≤ σ.next) (hh : ∀ x, S x → (σ.heap x).bare = (h x).bare) {op : LifeOp W}
    (hd : ∀ b H k, op = .use b H (.del k) → ¬ S b) :
    m ≤ (op.run X σ).next ∧ ∀ x, S x → ((op.run X σ).heap x).bare = (h x).bare := by
  have hrec : ∀ x i, S x → σ.heap x = .record i → (X.cls i.cid).frozen = true := by
    intro x i hx hi
    have e := hh x hx
    rw [hi] at e
    obtain ⟨j, hj, hc, _⟩ := bare_record e.symm
    rcases hp x hx with e1 | ⟨_, e1⟩ | ⟨i', e1, hf⟩
    · rw [hj] at e1; cases e1
    · rw [hj] at e1; cases e1
    · rw [hj] at e1; cases e1; rw [← hc]; exact hf
  have hbox : ∀ x, S x → (∀ xs, σ.heap x ≠ .list xs) ∧ ∀ d, σ.heap x ≠ .dict d := by
    intro x hx
    have e := hh x hx
    constructor
    · intro xs hl
      rw [hl] at e
      rcases hp x hx with e1 | ⟨_, e1⟩ | ⟨i', e1, _⟩ <;> rw [e1] at e <;> cases e
    · intro d hl
      rw [hl] at e
      rcases hp x hx with e1 | ⟨_, e1⟩ | ⟨i', e1, _⟩ <;> rw [e1] at e <;> cases e
  cases op with
  | items a xs =>
    cases e : σ.heap a with
    | list ys =>
      simp only [LifeOp.run, e]
      refine ⟨hm, fun x hx => ?_⟩
      show (if x = a then _ else _ : Node W).bare = _
      rw [if_neg (by rintro rfl; exact (hbox x hx).1 ys e)]
      exact hh x hx
    | _ => simp only [LifeOp.run, e]; exact ⟨hm, hh⟩
  | entries a d =>
    cases e : σ.heap a with
    | dict ys =>
      simp only [LifeOp.run, e]
      refine ⟨hm, fun x hx => ?_⟩
      show (if x = a then _ else _ : Node W).bare = _
      rw [if_neg (by rintro rfl; exact (hbox x hx).2 ys e)]
      exact hh x hx
    | _ => simp only [LifeOp.run, e]; exact ⟨hm, hh⟩
  | use a H op =>
    cases e : σ.heap a with
    | record i =>
      simp only [LifeOp.run, e]
      refine ⟨hm, fun x hx => ?_⟩
      show (if x = a then _ else _ : Node W).bare = _
      by_cases hxa : x = a
      · subst hxa
        rw [if_pos rfl, ← hh x hx, e]
        refine bare_of (op_cid X.env H i σ.st op) ?_
        exact C70_history X.env H (hrec x i hx e) [op] (fun k hk => hd x H k (by rw [List.mem_singleton.1 hk]) hx) i σ.st
      · rw [if_neg hxa]; exact hh x hx
    | _ => simp only [LifeOp.run, e]; exact ⟨hm, hh⟩
  | compare a b H =>
    cases e : σ.heap a with
    | record i => cases e' : σ.heap b with
      | record j =>
        simp only [LifeOp.run, e, e']
        refine ⟨hm, fun x hx => ?_⟩
        have hl := alike_eq_left X.env H (X.cls i.cid) i j σ.st
        have hr := alike_eq_right X.env H (X.cls i.cid) i j σ.st
        show (if x = b then _ else if x = a then _ else _ : Node W).bare = _
        by_cases hxb : x = b
        · subst hxb
          rw [if_pos rfl, ← hh x hx, e']
          exact bare_of hr.cid hr.dict
        · rw [if_neg hxb]
          by_cases hxa : x = a
          · subst hxa
            rw [if_pos rfl, ← hh x hx, e]
            exact bare_of hl.cid hl.dict
          · rw [if_neg hxa]; exact hh x hx
      | _ => simp only [LifeOp.run, e, e']; exact ⟨hm, hh⟩
    | _ => simp only [LifeOp.run, e]; exact ⟨hm, hh⟩
  | make nd =>
    refine ⟨Nat.le_succ_of_le hm, fun x hx => ?_⟩
    show (if x = X.fresh σ.next then _ else _ : Node W).bare = _
    rw [if_neg (by rintro rfl; exact hn _ hx ⟨σ.next, hm, rfl⟩)]
    exact hh x hx

theorem run_bare {h : W.Obj → Node W} {m : Nat} {S : W.Obj → Prop}
    (hp : ∀ x, S x → h x = .atom ∨ (∃ xs, h x = .tuple xs) ∨ ∃ i, h x = .record i ∧ (X.cls i.cid).frozen = true)
    (hn : ∀ x, S x → ¬ NewObj X m x) : ∀ {ops : List (LifeOp W)} {σ : CState W}, m ≤ σ.next →
      (∀ x, S x → (σ.heap x).bare = (h x).bare) → KeepsAttrs ops S → ∀ x, S x → ((lifetime X ops σ).heap x).bare = (h x).bare
  | [], _, _, hh, _ => hh
  | op :: ops, σ, hm, hh, hd => by
    obtain ⟨h1, h2⟩ := step_bare hp hn hm hh (op := op) fun b H k e => hd b H k (by rw [e]; exact List.mem_cons_self ..)
    show ∀ x, S x → ((lifetime X ops (op.run X σ)).heap x).bare = (h x).bare
    exact run_bare hp hn h1 h2 fun b H k hk => hd b H k (List.mem_cons_of_mem _ hk)

theorem reaches_bare {h h' : W.Obj → Node W} {a : W.Obj} (he : ∀ x, Reaches h a x → (h' x).bare = (h x).bare) {x : W.Obj}
    (hx : Reaches h a x) : Reaches h' a x := by
  induction hx with
  | refl => exact .refl _
  | step hc _ ih =>
    refine .step (by rw [bare_children (he _ (.refl _))]; exact hc) (ih fun y hy => he y (.step hc hy))

theorem reaches_bare' {h h' : W.Obj → Node W} {a : W.Obj} (he : ∀ x, Reaches h a x → (h' x).bare = (h x).bare) {x : W.Obj}
    (hx : Reaches h' a x) : Reaches h a x := by
  induction hx with
  | refl => exact .refl _
  | step hc _ ih =>
    have hc' := hc
    rw [bare_children (he _ (.refl _))] at hc'
    exact .step hc' (ih fun y hy => he y (.step hc' hy))

theorem child_of {d : Dict W.Obj} {k : String} {v : W.Obj} (h : d.get? k = some v) : v ∈ d.values :=
  List.mem_map.2 ⟨(k, v), Dict.get?_eq_some_mem _ _ _ h, rfl⟩

theorem same_bare {cls : W.Cls → RecClass W} {h h' : W.Obj → Node W} {a b : W.Obj} (ht : SameTree cls h a b) :
    (∀ x, Reaches h a x → (h' x).bare = (h x).bare) → (∀ x, Reaches h b x → (h' x).bare = (h x).bare) → SameTree cls h' a b := by
  have atom : ∀ {nd : Node W}, nd.bare = (Node.atom : Node W).bare → nd = .atom := by intro nd h; cases nd <;> cases h; rfl
  have list : ∀ {nd : Node W} {xs}, nd.bare = (Node.list xs : Node W).bare → nd = .list xs := by intro nd xs h; cases nd <;> cases h; rfl
  have tuple : ∀ {nd : Node W} {xs}, nd.bare = (Node.tuple xs : Node W).bare → nd = .tuple xs := by intro nd xs h; cases nd <;> cases h; rfl
  have dict : ∀ {nd : Node W} {xs}, nd.bare = (Node.dict xs : Node W).bare → nd = .dict xs := by intro nd xs h; cases nd <;> cases h; rfl
  induction ht with
  | leaf h1 h2 h3 =>
    intro ha hb
    exact .leaf (atom (by rw [ha _ (.refl _), h1])) (atom (by rw [hb _ (.refl _), h2])) h3
  | list h1 h2 h3 _ ih =>
    intro ha hb
    refine .list (list (by rw [ha _ (.refl _), h1])) (list (by rw [hb _ (.refl _), h2])) h3 fun n x y hx hy => ?_
    exact ih n x y hx hy (fun z hz => ha z (.step (by rw [h1]; exact List.mem_of_getElem? hx) hz))
      (fun z hz => hb z (.step (by rw [h2]; exact List.mem_of_getElem? hy) hz))
  | tuple h1 h2 h3 _ ih =>
    intro ha hb
    refine .tuple (tuple (by rw [ha _ (.refl _), h1])) (tuple (by rw [hb _ (.refl _), h2])) h3 fun n x y hx hy => ?_
    exact ih n x y hx hy (fun z hz => ha z (.step (by rw [h1]; exact List.mem_of_getElem? hx) hz))
      (fun z hz => hb z (.step (by rw [h2]; exact List.mem_of_getElem? hy) hz))
  | dict h1 h2 h3 _ ih =>
    intro ha hb
    refine .dict (dict (by rw [ha _ (.refl _), h1])) (dict (by rw [hb _ (.refl _), h2])) h3 fun k x y hx hy => ?_
    exact ih k x y hx hy (fun z hz => ha z (.step (by rw [h1]; exact child_of hx) hz))
      (fun z hz => hb z (.step (by rw [h2]; exact child_of hy) hz))
  | record h1 h2 h3 _ ih =>
    intro ha hb
    obtain ⟨i', e1, e2, e3⟩ := bare_record (by rw [ha _ (.refl _), h1])
    obtain ⟨j', e4, e5, e6⟩ := bare_record (by rw [hb _ (.refl _), h2])
    refine .record e1 e4 (e2.trans (h3.trans e5.symm)) fun k x y hk hx hy => ?_
    rw [e2] at hk; rw [e3] at hx; rw [e6] at hy
    exact ih k x y hk hx hy (fun z hz => ha z (.step (by rw [h1]; exact child_of hx) hz))
      (fun z hz => hb z (.step (by rw [h2]; exact child_of hy) hz))

/-! hashes -/

theorem hashInst_cached (E : Env W) (H : Hasher W) (C : RecClass W) {i : Inst W} {n : Int} (hi : i.hash = some (some n)) (s : LState W) :
    (hashInst E H C i s).2.1 = i := by
  unfold hashInst
  cases C.frozen <;> simp [hi]

theorem eqInst_cached (E : Env W) (H : Hasher W) (C : RecClass W) (a b : Inst W) (s : LState W) (n : Int) :
    (a.hash = some (some n) → (eqInst E H C a b s).2.1.hash = some (some n)) ∧
      (b.hash = some (some n) → (eqInst E H C a b s).2.2.1.hash = some (some n)) := by
  unfold eqInst
  split
  · exact ⟨id, id⟩
  split
  · have ha : a.hash = some (some n) → (hashInst E H C a s).2.1.hash = some (some n) := fun h => by rw [hashInst_cached E H C h]; exact h
    generalize hashInst E H C a s = r at ha
    rcases r with ⟨_ | m, a', s1⟩
    · exact ⟨ha, id⟩
    · have hb : b.hash = some (some n) → (hashInst E H C b s1).2.1.hash = some (some n) := fun h => by rw [hashInst_cached E H C h]; exact h
      simp only
      generalize hashInst E H C b s1 = r at hb
      rcases r with ⟨_ | m, b', s2⟩ <;> exact ⟨ha, hb⟩
  · exact ⟨id, id⟩

theorem op_cached (E : Env W) (H : Hasher W) (C : RecClass W) {i : Inst W} {n : Int} (hi : i.hash = some (some n)) (s : LState W)
    {op : Op W} (ho : ∀ m, op ≠ .setHash m) : (op.run E H C i s).2.1.hash = some (some n) := by
  cases op with
  | set k v => show (setInst C i k v).2.hash = _; unfold setInst; split <;> exact hi
  | del k => show (delInst i k).2.hash = _; unfold delInst; split <;> exact hi
  | setHash h => exact absurd rfl (ho h)
  | hash => show (hashInst E H C i s).2.1.hash = _; rw [hashInst_cached E H C hi]; exact hi
  | eq b => exact (eqInst_cached E H C i b s n).1 hi
  | eqBy b => exact (eqInst_cached E H C b i s n).2 hi
  | «export» o => exact hi

/-- what one operation does to the record `a`, for properties that hashing and comparing keep -/
theorem step_record {a : W.Obj} {P : Inst W → Prop} {σ : CState W} {op : LifeOp W} (hn : ¬ NewObj X σ.next a)
    (huse : ∀ H op' i, op = .use a H op' → P i → P (op'.run X.env H (X.cls i.cid) i σ.st).2.1)
    (hleft : ∀ H b i j, op = .compare a b H → P i → P (eqInst X.env H (X.cls i.cid) i j σ.st).2.1)
    (hright : ∀ H b i j, op = .compare b a H → P j → P (eqInst X.env H (X.cls i.cid) i j σ.st).2.2.1)
    (ha : ∃ i, σ.heap a = .record i ∧ P i) : ¬ NewObj X (op.run X σ).next a ∧ ∃ i, (op.run X σ).heap a = .record i ∧ P i := by
  obtain ⟨i, ha, hi⟩ := ha
  cases op with
  | items b xs =>
    cases e : σ.heap b with
    | list ys =>
      simp only [LifeOp.run, e]
      refine ⟨hn, i, ?_, hi⟩
      show (if a = b then _ else _ : Node W) = _
      rw [if_neg (by rintro rfl; rw [ha] at e; cases e)]
      exact ha
    | _ => simp only [LifeOp.run, e]; exact ⟨hn, i, ha, hi⟩
  | entries b xs =>
    cases e : σ.heap b with
    | dict ys =>
      simp only [LifeOp.run, e]
      refine ⟨hn, i, ?_, hi⟩
      show (if a = b then _ else _ : Node W) = _
      rw [if_neg (by rintro rfl; rw [ha] at e; cases e)]
      exact ha
    | _ => simp only [LifeOp.run, e]; exact ⟨hn, i, ha, hi⟩
  | use b H op =>
    cases e : σ.heap b with
    | record j =>
      simp only [LifeOp.run, e]
      refine ⟨hn, ?_⟩
      show ∃ i, (if a = b then _ else _ : Node W) = .record i ∧ P i
      by_cases hab : a = b
      · subst hab
        rw [ha] at e; cases e
        rw [if_pos rfl]
        exact ⟨_, rfl, huse H op i rfl hi⟩
      · rw [if_neg hab]; exact ⟨i, ha, hi⟩
    | _ => simp only [LifeOp.run, e]; exact ⟨hn, i, ha, hi⟩
  | compare b c H =>
    cases e : σ.heap b with
    | record j => cases e' : σ.heap c with
      | record k =>
        simp only [LifeOp.run, e, e']
        refine ⟨hn, ?_⟩
        show ∃ i, (if a = c then _ else if a = b then _ else _ : Node W) = .record i ∧ P i
        by_cases hac : a = c
        · subst hac
          rw [ha] at e'; cases e'
          rw [if_pos rfl]
          exact ⟨_, rfl, hright H b j i rfl hi⟩
        · rw [if_neg hac]
          by_cases hab : a = b
          · subst hab
            rw [ha] at e; cases e
            rw [if_pos rfl]
            exact ⟨_, rfl, hleft H c i k rfl hi⟩
          · rw [if_neg hab]; exact ⟨i, ha, hi⟩
      | _ => simp only [LifeOp.run, e, e']; exact ⟨hn, i, ha, hi⟩
    | _ => simp only [LifeOp.run, e]; exact ⟨hn, i, ha, hi⟩
  | make nd =>
    refine ⟨fun ⟨k, hk, e⟩ => hn ⟨k, Nat.le_of_succ_le hk, e⟩, i, ?_, hi⟩
    show (if a = X.fresh σ.next then _ else _ : Node W) = _
    rw [if_neg (by intro e; exact hn ⟨σ.next, Nat.le_refl _, e⟩)]
    exact ha

end LifetimeLemmas

open LifetimeLemmas

/-- C128: if everything reachable from an object is a number, string, …, a tuple or a frozen record, no program that deletes no attribute
of these changes any of them (up to cached hashes). -/
theorem C128_constant {ops : List (LifeOp W)} {σ : CState W} {a : W.Obj} (hp : Permanent X.cls σ.heap a)
    (hn : ∀ x, Reaches σ.heap a x → ¬ NewObj X σ.next x) (hd : KeepsAttrs ops (Reaches σ.heap a)) :
    (∀ x, Reaches (lifetime X ops σ).heap a x ↔ Reaches σ.heap a x) ∧ Permanent X.cls (lifetime X ops σ).heap a ∧
      ∀ x, Reaches σ.heap a x → ((lifetime X ops σ).heap x).bare = (σ.heap x).bare := by
  have he := run_bare hp hn (Nat.le_refl _) (fun _ _ => rfl) hd
  refine ⟨fun x => ⟨reaches_bare' he, reaches_bare he⟩, fun x hx => ?_, he⟩
  have e := he x (reaches_bare' he hx)
  rcases hp x (reaches_bare' he hx) with e1 | ⟨xs, e1⟩ | ⟨i, e1, hf⟩
  · rw [e1] at e
    generalize (lifetime X ops σ).heap x = nd at e ⊢
    left; cases nd <;> cases e; rfl
  · rw [e1] at e
    generalize (lifetime X ops σ).heap x = nd at e ⊢
    right; left; cases nd <;> cases e; exact ⟨_, rfl⟩
  · rw [e1] at e
    obtain ⟨j, e2, e3, _⟩ := bare_record e
    exact .inr (.inr ⟨j, e2, by rw [e3]; exact hf⟩)

/-- C128: so whether two such objects are the same tree (by C122: whether they are equal) never changes. -/
theorem C128_equal {ops : List (LifeOp W)} {σ : CState W} {a b : W.Obj} (ha : Permanent X.cls σ.heap a) (hb : Permanent X.cls σ.heap b)
    (hna : ∀ x, Reaches σ.heap a x → ¬ NewObj X σ.next x) (hnb : ∀ x, Reaches σ.heap b x → ¬ NewObj X σ.next x)
    (hda : KeepsAttrs ops (Reaches σ.heap a)) (hdb : KeepsAttrs ops (Reaches σ.heap b)) :
    SameTree X.cls (lifetime X ops σ).heap a b ↔ SameTree X.cls σ.heap a b := by
  obtain ⟨ra, _, ea⟩ := C128_constant ha hna hda
  obtain ⟨rb, _, eb⟩ := C128_constant hb hnb hdb
  exact ⟨fun h => same_bare h (fun x hx => (ea x ((ra x).1 hx)).symm) (fun x hx => (eb x ((rb x).1 hx)).symm),
    fun h => same_bare h ea eb⟩

/-- C128: a frozen record whose field values keep their hashes keeps its own, whatever is done, if no attribute is deleted and the private
slot is left alone: at any later time `hash` answers as it would have at first. -/
theorem C128_hash {H : Hasher W} {a : W.Obj} : ∀ {ops : List (LifeOp W)} {σ : CState W} {i : Inst W}, σ.heap a = .record i →
    (X.cls i.cid).frozen = true → ¬ NewObj X σ.next a → KeepsAttrs ops (· = a) → KeepsSlot ops a → SameHashes H ops a →
    ∃ j, (lifetime X ops σ).heap a = .record j ∧ j.cid = i.cid ∧
      ∀ s t, (hashInst X.env H (X.cls i.cid) j t).1 = (hashInst X.env H (X.cls i.cid) i s).1 := by
  intro ops σ i hi hf hn hd hk hs
  suffices h : ∀ (ops : List (LifeOp W)) (σ : CState W), ¬ NewObj X σ.next a → KeepsAttrs ops (· = a) → KeepsSlot ops a →
      SameHashes H ops a → (∃ j, σ.heap a = .record j ∧ Alike X.env H (X.cls i.cid) i j) →
      ∃ j, (lifetime X ops σ).heap a = .record j ∧ Alike X.env H (X.cls i.cid) i j by
    obtain ⟨j, h1, h2⟩ := h ops σ hn hd hk hs ⟨i, hi, .refl _ _ _ _⟩
    exact ⟨j, h1, h2.cid, fun s t => h2.hash t s⟩
  intro ops
  induction ops with
  | nil => exact fun σ _ _ _ _ h => h
  | cons op ops ih =>
    intro σ hn hd hk hs h
    obtain ⟨hs1, hs2, hs3⟩ := hs
    obtain ⟨h1, h2⟩ := step_record (op := op) hn (P := fun j => Alike X.env H (X.cls i.cid) i j) (by
        rintro H' op' j rfl hj
        cases hs1 H' op' (List.mem_cons_self ..)
        rw [hj.cid]
        refine hj.trans (alike_op X.env H hf j σ.st ?_)
        cases op' with
        | del k => exact hd a H k (List.mem_cons_self ..) rfl
        | setHash n => exact hk H n (List.mem_cons_self ..)
        | _ => trivial) (by
        rintro H' b j k rfl hj
        cases hs2 H' b (List.mem_cons_self ..)
        rw [hj.cid]
        exact hj.trans (alike_eq_left X.env H _ j k σ.st)) (by
        rintro H' b k j rfl hj
        cases hs3 H' b (List.mem_cons_self ..)
        by_cases hc : k.cid = j.cid
        · rw [hc, hj.cid]
          exact hj.trans (alike_eq_right X.env H _ k j σ.st)
        · have : (eqInst X.env H (X.cls k.cid) k j σ.st).2.2.1 = j := by unfold eqInst; rw [if_pos hc]
          rw [this]; exact hj) h
    exact ih _ h1 (fun b H k hb => hd b H k (List.mem_cons_of_mem _ hb)) (fun H n hb => hk H n (List.mem_cons_of_mem _ hb))
      ⟨fun H' op hb => hs1 H' op (List.mem_cons_of_mem _ hb), fun H' b hb => hs2 H' b (List.mem_cons_of_mem _ hb),
        fun H' b hb => hs3 H' b (List.mem_cons_of_mem _ hb)⟩ h2

/-- C128: a hash that was computed once stays, whatever is done to the record and to the objects in it (also if attributes are deleted and
parts change their hashes), if the private slot is left alone. -/
theorem C128_cached {a : W.Obj} {n : Int} : ∀ {ops : List (LifeOp W)} {σ : CState W} {i : Inst W}, σ.heap a = .record i →
    (X.cls i.cid).frozen = true → i.hash = some (some n) → ¬ NewObj X σ.next a → KeepsSlot ops a →
    ∃ j, (lifetime X ops σ).heap a = .record j ∧ j.cid = i.cid ∧
      ∀ H t, (hashInst X.env H (X.cls i.cid) j t).1 = .ok n := by
  intro ops σ i hi hf hh hn hk
  suffices h : ∀ (ops : List (LifeOp W)) (σ : CState W), ¬ NewObj X σ.next a → KeepsSlot ops a →
      (∃ j, σ.heap a = .record j ∧ j.cid = i.cid ∧ j.hash = some (some n)) →
      ∃ j, (lifetime X ops σ).heap a = .record j ∧ j.cid = i.cid ∧ j.hash = some (some n) by
    obtain ⟨j, h1, h2, h3⟩ := h ops σ hn hk ⟨i, hi, rfl, hh⟩
    exact ⟨j, h1, h2, fun H t => by unfold hashInst; simp [hf, h3]⟩
  intro ops
  induction ops with
  | nil => exact fun σ _ _ h => h
  | cons op ops ih =>
    intro σ hn hk h
    obtain ⟨h1, h2⟩ := step_record (op := op) hn (P := fun j => j.cid = i.cid ∧ j.hash = some (some n)) (by
        rintro H' op' j rfl ⟨hj, hh⟩
        exact ⟨(op_cid ..).trans hj, op_cached _ _ _ hh _ fun m e => hk H' m (by rw [e]; exact List.mem_cons_self ..)⟩) (by
        rintro H' b j k rfl ⟨hj, hh⟩
        exact ⟨(alike_eq_left X.env H' _ j k σ.st).cid.trans hj, (eqInst_cached _ _ _ j k _ n).1 hh⟩) (by
        rintro H' b k j rfl ⟨hj, hh⟩
        exact ⟨(alike_eq_right X.env H' _ k j σ.st).cid.trans hj, (eqInst_cached _ _ _ k j _ n).2 hh⟩) h
    exact ih _ h1 (fun H n hb => hk H n (List.mem_cons_of_mem _ hb)) h2

end Records

/-! ### examples -/
namespace Records.Toy.Life
open Toy Copying

/-- `class F(RecordBase, frozen=True): x: list = []` -/
def spF : ClassSpec W := { cid := .record 5, frozen := true, anns := [("x", .plain (.cls .list))], attrs := [("x", .value (list []))] }

def F : RecClass W := clsOf spF noClass

theorem F_mk : mkClass spF = .ok F := rfl

theorem F_creatable : Creatable F := .intro spF F ⟨by decide, by decide, nofun⟩ nofun F_mk

def X : CopyEnv W := ⟨env, fun (c : TCls) => match c with | .record 5 => F | _ => B, fun k => .int (100 + k), 1⟩

/-- a frozen record (object 0) with a tuple (object 1) in a field, its twin (object 2), and a list (object 9) of both -/
def heap : TObj → Node W
  | .int 0 => .record (mkB (.int 1) (.int 3) "a")
  | .int 1 => .tuple [.int 7]
  | .int 2 => .record (mkB (.int 1) (.int 3) "a")
  | .int 9 => .list [.int 0, .int 2]
  | _ => .atom

def start : CState W := ⟨heap, 0, [], s0⟩

/-- the list is emptied, fields are assigned to, the records are hashed and compared, a record is made -/
def ops : List (LifeOp W) :=
  [.items (.int 9) [], .use (.int 0) (hasher 0) (.set "x" (.int 5)), .use (.int 0) (hasher 0) .hash, .items (.int 1) [],
    .compare (.int 0) (.int 2) (hasher 0), .make (.record (mkB (.int 2) (.int 3) "a")), .use (.int 9) (hasher 0) .hash]

def parts (a : TObj) : Prop := a = .int 0 ∨ a = .int 1 ∨ a = .int 2 ∨ a = .int 3 ∨ a = .int 7 ∨ a = .str "a"

theorem parts_closed : ∀ a, parts a → ∀ c ∈ (heap a).children, parts c := by
  rintro a (rfl | rfl | rfl | rfl | rfl | rfl) c hc
  · rcases hc with _ | ⟨_, _ | ⟨_, _ | ⟨_, hc⟩⟩⟩
    · exact .inr (.inl rfl)
    · exact .inr (.inr (.inr (.inl rfl)))
    · exact .inr (.inr (.inr (.inr (.inr rfl))))
    · cases hc
  · rcases hc with _ | ⟨_, hc⟩
    · exact .inr (.inr (.inr (.inr (.inl rfl))))
    · cases hc
  · rcases hc with _ | ⟨_, _ | ⟨_, _ | ⟨_, hc⟩⟩⟩
    · exact .inr (.inl rfl)
    · exact .inr (.inr (.inr (.inl rfl)))
    · exact .inr (.inr (.inr (.inr (.inr rfl))))
    · cases hc
  · cases hc
  · cases hc
  · cases hc

theorem reach {a x : TObj} (ha : parts a) (h : Reaches (W := W) heap a x) : parts x := reaches_in (W := Toy.W) parts parts_closed ha h

theorem permanent {a : TObj} (ha : parts a) : Permanent X.cls start.heap a := by
  intro x hx
  rcases reach ha hx with rfl | rfl | rfl | rfl | rfl | rfl
  · exact .inr (.inr ⟨_, rfl, rfl⟩)
  · exact .inr (.inl ⟨_, rfl⟩)
  · exact .inr (.inr ⟨_, rfl, rfl⟩)
  · exact .inl rfl
  · exact .inl rfl
  · exact .inl rfl

theorem old {a : TObj} (ha : parts a) : ¬ NewObj X start.next a := by
  rintro ⟨k, _, e⟩
  rcases ha with rfl | rfl | rfl | rfl | rfl | rfl
  case inr.inr.inr.inr.inr => cases e
  all_goals
    have := TObj.int.inj e
    omega

theorem keeps (S : TObj → Prop) : KeepsAttrs (W := W) ops S := by
  intro b H k h
  simp only [ops, List.mem_cons, List.not_mem_nil, or_false] at h
  rcases h with h | h | h | h | h | h | h <;> cases h

theorem slot (a : TObj) : KeepsSlot (W := W) ops a := by
  intro H n h
  simp only [ops, List.mem_cons, List.not_mem_nil, or_false] at h
  rcases h with h | h | h | h | h | h | h <;> cases h

theorem hashes (a : TObj) : SameHashes (hasher 0) ops a := by
  refine ⟨fun H op h => ?_, fun H op h => ?_, fun H op h => ?_⟩ <;>
  · simp only [ops, List.mem_cons, List.not_mem_nil, or_false] at h
    rcases h with h | h | h | h | h | h | h <;> cases h <;> rfl

example := C128_constant (W := Toy.W) (X := X) (ops := ops) (permanent (.inl rfl)) (fun _ hx => old (reach (.inl rfl) hx)) (keeps _)
example : SameTree (W := W) X.cls (lifetime X ops start).heap (.int 0) (.int 2) ↔ SameTree X.cls start.heap (.int 0) (.int 2) :=
  C128_equal (W := Toy.W) (permanent (.inl rfl)) (permanent (.inr (.inr (.inl rfl)))) (fun _ hx => old (reach (.inl rfl) hx))
    (fun _ hx => old (reach (.inr (.inr (.inl rfl))) hx)) (keeps _) (keeps _)
example := C128_hash (W := Toy.W) (X := X) (ops := ops) (σ := start) (a := .int 0) rfl rfl (old (.inl rfl)) (keeps _) (slot _) (hashes _)
/-- the list has changed, the hash of the record is cached -/
example : (lifetime X ops start).heap (.int 9) = .list [] := rfl
example : (lifetime X ops start).heap (.int 0) = .record { mkB (.int 1) (.int 3) "a" with hash := some (some 38) } := rfl
example := C128_cached (W := Toy.W) (X := X) (n := 38) (ops := ops) (σ := lifetime X ops start) (a := .int 0) rfl rfl rfl (by
  rintro ⟨k, _, e⟩; have := TObj.int.inj e; omega) (slot _)

/-- `F()`: the field holds the default, a list -/
def inst : Inst W := { cid := .record 5, dict := [("x", list [])], hash := some Option.none }

def heapF : TObj → Node W
  | .int 0 => .record inst
  | .seq .list .nil => .list []
  | _ => .atom

theorem heapF_list {x : TObj} {xs : List TObj} (h : heapF x = .list xs) : x = list [] := by
  unfold heapF at h
  split at h
  · exact absurd h nofun
  · rfl
  · exact absurd h nofun

end Records.Toy.Life

namespace Records

/-- what one could expect: if `hash` of a frozen record returns, nothing reachable from it changes -/
def C128_claim : Prop := ∀ (W : World) (X : CopyEnv W) (H : Hasher W) (σ : CState W) (a : W.Obj) (i : Inst W) (n : Int) (ops : List (LifeOp W)),
  σ.heap a = .record i → Creatable (X.cls i.cid) → (X.cls i.cid).frozen = true → Proper H (X.cls i.cid) i →
  (∀ x, Reaches σ.heap a x → ¬ NewObj X σ.next x) → (∀ x xs, σ.heap x = .list xs → W.hashable x = false) →
  (hashInst X.env H (X.cls i.cid) i σ.st).1 = .ok n → KeepsAttrs ops (Reaches σ.heap a) →
  ∀ x, Reaches σ.heap a x → ((lifetime X ops σ).heap x).bare = (σ.heap x).bare

/-- C128 (what fails): a frozen record can be hashed although a field holds a list, if that is equal to the default. -/
theorem C128_refuted : ¬ C128_claim := by
  intro h
  have hr : ∀ x : Toy.TObj, Reaches (W := Toy.W) Toy.Life.heapF (.int 0) x → x = .int 0 ∨ x = Toy.list [] := by
    intro x hx
    refine Copying.reaches_in (W := Toy.W) (fun x => x = .int 0 ∨ x = Toy.list []) ?_ (.inl rfl) hx
    rintro a (rfl | rfl) c hc
    · rcases hc with _ | ⟨_, hc⟩
      · exact .inr rfl
      · cases hc
    · cases hc
  have := h Toy.W Toy.Life.X (Toy.hasher 0) ⟨Toy.Life.heapF, 0, [], Toy.s0⟩ (.int 0) Toy.Life.inst 0 [.items (Toy.list []) [.int 1]] rfl
    Toy.Life.F_creatable rfl ⟨rfl, fun _ hk => hk, (by rintro - kv hkv; cases hkv), fun _ => .inl rfl⟩ (by
      intro x hx
      rcases hr x hx with rfl | rfl
      · rintro ⟨k, _, e⟩
        have := Toy.TObj.int.inj e
        omega
      · rintro ⟨k, _, e⟩; cases e) (by
      intro x xs hx
      rw [Toy.Life.heapF_list hx]
      rfl) rfl (by intro b H k hk; cases hk with | tail _ hk => cases hk) (Toy.list []) (.step (List.mem_cons_self ..) (.refl _))
  cases this

end Records
