import Verif.Proofs.Kin
import Verif.Props.Sort
set_option linter.unusedSimpArgs false
set_option linter.unusedSectionVars false
/-
C117: ordering and sorting records of a class and its subclasses.
-/
namespace Records
variable {W : World}

/-- C117: the fields that count in a class come first in every class of its line, in the same order. -/
theorem C117_prefix {B D : RecClass W} (h : Line B D) : ∃ more, orderNames D = orderNames B ++ more := h.continues

section
variable {E : Env W} {O : ObjCmp W} {cls : W.Cls → RecClass W} {F : W.Cls → Prop} {le : String → W.Obj → W.Obj → Prop}
  {D : String → W.Obj → Prop}

theorem Kin.continues (h : Kin O cls F le D) {c d : W.Cls} (hc : F c) (hd : F d) :
    Continues (orderNames (cls c)) (orderNames (cls d)) := by
  rcases h.related c d hc hd with ⟨_, hl⟩ | ⟨_, hl⟩
  · exact .inl hl.continues
  · exact .inr hl.continues

/-- C117: on records of a class and the classes of its line, the operators do not raise; the first field in which two records differ
decides, and of two records that agree in their common fields the one with fewer fields is smaller. -/
theorem C117_lexicographic (hS : SubOK W) (hK : Kin O cls F le D) {a b : Inst W} (ha : OfKin cls F D a) (hb : OfKin cls F D b)
    (op : CmpOp) : ∃ r, compare E O op (cls a.cid) a (cls b.cid) b = .ok r ∧
      (r = true ↔ KinAns le (orderNames (cls a.cid)) (orderNames (cls b.cid)) a b op) := by
  have hc := hK.continues ha.mem hb.mem
  have hoa := hK.ordered _ ha.mem
  have hob := hK.ordered _ hb.mem
  by_cases e : a.cid = b.cid
  · obtain ⟨ka, kb, r, h1, h2, h3, h4⟩ := listCmp_kin (E := E) hc (hK.fields _ ha.mem) ha.dom hb.dom op
    refine ⟨r, ?_, h4⟩
    unfold compare
    rw [if_neg (fun h => h.1 e)]
    have : cmpMethod E O op (cls a.cid) a (cls b.cid) b = .ok (some r) := by
      have hs : W.isSub b.cid a.cid = true := by rw [e]; exact hS.refl _
      unfold cmpMethod
      simp only [hoa, hs, orderingKey_names, h1, h2, h3, Except.map, Bool.not_true, Bool.false_eq_true, if_false]
    rw [this]
    rfl
  · rcases hK.related _ _ ha.mem hb.mem with ⟨hs, _⟩ | ⟨hs, _⟩
    · obtain ⟨ka, kb, r, h1, h2, h3, h4⟩ := listCmp_kin (E := E) hc (hK.fields _ ha.mem) ha.dom hb.dom op
      exact ⟨r, by rw [C74_subclass hS e hs hoa hob h1 h2 op]; exact h3, h4⟩
    · obtain ⟨kb, ka, r, h1, h2, h3, h4⟩ := listCmp_kin (E := E) hc.symm (hK.fields _ hb.mem) hb.dom ha.dom op.swap
      refine ⟨r, ?_, h4.trans (by cases op <;> exact Iff.rfl)⟩
      rw [C74_reflected hS e, C74_subclass hS (fun h => e h.symm) hs hob hoa h1 h2 op.swap]
      exact h3

theorem compareKin_true (hS : SubOK W) (hK : Kin O cls F le D) {a b : Inst W} (ha : OfKin cls F D a) (hb : OfKin cls F D b)
    (op : CmpOp) : compare E O op (cls a.cid) a (cls b.cid) b = .ok true ↔
      KinAns le (orderNames (cls a.cid)) (orderNames (cls b.cid)) a b op := by
  obtain ⟨r, h1, h2⟩ := C117_lexicographic (E := E) hS hK ha hb op
  rw [h1, ← h2]
  constructor
  · intro h; cases h; rfl
  · intro h; rw [h]

theorem Kin.trichotomy (hK : Kin O cls F le D) {a b : Inst W} (ha : OfKin cls F D a) (hb : OfKin cls F D b) :
    (KinLt le (orderNames (cls a.cid)) (orderNames (cls b.cid)) a b ∧ ¬ KinEq (orderNames (cls a.cid)) (orderNames (cls b.cid)) a b ∧ ¬ KinLt le (orderNames (cls b.cid)) (orderNames (cls a.cid)) b a) ∨
    (¬ KinLt le (orderNames (cls a.cid)) (orderNames (cls b.cid)) a b ∧ KinEq (orderNames (cls a.cid)) (orderNames (cls b.cid)) a b ∧ ¬ KinLt le (orderNames (cls b.cid)) (orderNames (cls a.cid)) b a) ∨
    (¬ KinLt le (orderNames (cls a.cid)) (orderNames (cls b.cid)) a b ∧ ¬ KinEq (orderNames (cls a.cid)) (orderNames (cls b.cid)) a b ∧ KinLt le (orderNames (cls b.cid)) (orderNames (cls a.cid)) b a) :=
  kin_trichotomy (hK.continues ha.mem hb.mem) (hK.fields _ ha.mem) ha.dom hb.dom

theorem Kin.trans (hK : Kin O cls F le D) {a b c : Inst W} (ha : OfKin cls F D a) (hb : OfKin cls F D b) (hc : OfKin cls F D c)
    (h1 : KinLt le (orderNames (cls a.cid)) (orderNames (cls b.cid)) a b ∨ KinEq (orderNames (cls a.cid)) (orderNames (cls b.cid)) a b)
    (h2 : KinLt le (orderNames (cls b.cid)) (orderNames (cls c.cid)) b c ∨ KinEq (orderNames (cls b.cid)) (orderNames (cls c.cid)) b c) :
    KinLt le (orderNames (cls a.cid)) (orderNames (cls c.cid)) a c ∨ KinEq (orderNames (cls a.cid)) (orderNames (cls c.cid)) a c :=
  kin_trans (hK.continues ha.mem hb.mem) (hK.continues hb.mem hc.mem) (hK.fields _ ha.mem) ha.dom hb.dom hc.dom h1 h2

theorem Kin.eq_symm (hK : Kin O cls F le D) {a b : Inst W} (ha : OfKin cls F D a) (hb : OfKin cls F D b)
    (h : KinEq (orderNames (cls a.cid)) (orderNames (cls b.cid)) a b) : KinEq (orderNames (cls b.cid)) (orderNames (cls a.cid)) b a :=
  kinEq_symm (hK.fields _ ha.mem) ha.dom hb.dom h

/-- C117: `<=` is total on these records. -/
theorem C117_total (hS : SubOK W) (hK : Kin O cls F le D) {a b : Inst W} (ha : OfKin cls F D a) (hb : OfKin cls F D b) :
    compare E O .le (cls a.cid) a (cls b.cid) b = .ok true ∨ compare E O .le (cls b.cid) b (cls a.cid) a = .ok true := by
  rw [compareKin_true hS hK ha hb, compareKin_true hS hK hb ha]
  rcases hK.trichotomy ha hb with h | h | h
  · exact .inl (.inl h.1)
  · exact .inl (.inr h.2.1)
  · exact .inr (.inl h.2.2)

/-- C117: `<=` is transitive on these records, whatever their classes are. -/
theorem C117_trans (hS : SubOK W) (hK : Kin O cls F le D) {a b c : Inst W} (ha : OfKin cls F D a) (hb : OfKin cls F D b)
    (hc : OfKin cls F D c) (h1 : compare E O .le (cls a.cid) a (cls b.cid) b = .ok true)
    (h2 : compare E O .le (cls b.cid) b (cls c.cid) c = .ok true) : compare E O .le (cls a.cid) a (cls c.cid) c = .ok true := by
  rw [compareKin_true hS hK ha hb] at h1
  rw [compareKin_true hS hK hb hc] at h2
  rw [compareKin_true hS hK ha hc]
  exact hK.trans ha hb hc h1 h2

/-- C117: `a < b` iff not `b <= a`; `a > b` iff `b < a`; `a >= b` iff `b <= a`. -/
theorem C117_consistent (hS : SubOK W) (hK : Kin O cls F le D) {a b : Inst W} (ha : OfKin cls F D a) (hb : OfKin cls F D b) :
    (compare E O .lt (cls a.cid) a (cls b.cid) b = .ok true ↔ compare E O .le (cls b.cid) b (cls a.cid) a = .ok false) ∧
    (compare E O .gt (cls a.cid) a (cls b.cid) b = .ok true ↔ compare E O .lt (cls b.cid) b (cls a.cid) a = .ok true) ∧
    (compare E O .ge (cls a.cid) a (cls b.cid) b = .ok true ↔ compare E O .le (cls b.cid) b (cls a.cid) a = .ok true) := by
  refine ⟨?_, ?_, ?_⟩
  · rw [compareKin_true hS hK ha hb]
    obtain ⟨r, h1, h2⟩ := C117_lexicographic (E := E) hS hK hb ha .le
    rw [h1]
    have h3 : KinAns le (orderNames (cls a.cid)) (orderNames (cls b.cid)) a b .lt ↔ ¬ r = true := by
      rw [h2]
      show KinLt .. ↔ ¬ (KinLt .. ∨ KinEq ..)
      rcases hK.trichotomy ha hb with h | h | h
      · exact ⟨fun _ hx => hx.elim h.2.2 fun he => h.2.1 (hK.eq_symm hb ha he), fun _ => h.1⟩
      · exact ⟨fun hx => absurd hx h.1, fun hx => absurd (.inr (hK.eq_symm ha hb h.2.1)) hx⟩
      · exact ⟨fun hx => absurd hx h.1, fun hx => absurd (.inl h.2.2) hx⟩
    rw [h3]
    cases r <;> simp
  · rw [compareKin_true hS hK ha hb, compareKin_true hS hK hb ha]; exact Iff.rfl
  · rw [compareKin_true hS hK ha hb, compareKin_true hS hK hb ha]; exact Iff.rfl

/-- C117: `a <= b` and `b <= a` iff the same fields count in both classes, and the records agree in them. -/
theorem C117_mutual (hS : SubOK W) (hK : Kin O cls F le D) {a b : Inst W} (ha : OfKin cls F D a) (hb : OfKin cls F D b) :
    (compare E O .le (cls a.cid) a (cls b.cid) b = .ok true ∧ compare E O .le (cls b.cid) b (cls a.cid) a = .ok true) ↔
      orderNames (cls a.cid) = orderNames (cls b.cid) ∧ ∀ k ∈ orderNames (cls a.cid), SameField a b k := by
  rw [compareKin_true hS hK ha hb, compareKin_true hS hK hb ha]
  show (KinLt .. ∨ KinEq ..) ∧ (KinLt .. ∨ KinEq ..) ↔ KinEq (orderNames (cls a.cid)) (orderNames (cls b.cid)) a b
  rcases hK.trichotomy ha hb with h | h | h
  · exact ⟨fun hx => absurd hx.2 (fun hx => hx.elim h.2.2 fun he => h.2.1 (hK.eq_symm hb ha he)), fun hx => absurd hx h.2.1⟩
  · exact ⟨fun _ => h.2.1, fun hx => ⟨.inr hx, .inr (hK.eq_symm ha hb hx)⟩⟩
  · exact ⟨fun hx => absurd hx.1 (fun hx => hx.elim h.1 h.2.1), fun hx => absurd hx h.2.1⟩

/-! ### sorting -/

theorem askKin_ok (hS : SubOK W) (hK : Kin O cls F le D) {recs : List (Inst W)} (hr : ∀ a ∈ recs, OfKin cls F D a) :
    ∃ lt : Nat → Nat → Bool,
      (∀ i j, askKin E O cls recs i j = if i < recs.length ∧ j < recs.length then .ok (lt i j) else .error .indexError) ∧
      (∀ i j a b, recs[i]? = some a → recs[j]? = some b →
        (lt i j = true ↔ KinLt le (orderNames (cls a.cid)) (orderNames (cls b.cid)) a b)) ∧
      StrictWeak recs.length lt := by
  have ans : ∀ i j a b, recs[i]? = some a → recs[j]? = some b →
      ∃ r, askKin E O cls recs i j = .ok r ∧ (r = true ↔ KinLt le (orderNames (cls a.cid)) (orderNames (cls b.cid)) a b) := by
    intro i j a b ha hb
    unfold askKin
    rw [ha, hb]
    exact C117_lexicographic hS hK (hr a (List.mem_of_getElem? ha)) (hr b (List.mem_of_getElem? hb)) .lt
  let lt : Nat → Nat → Bool := fun i j => match askKin E O cls recs i j with | .ok r => r | .error _ => false
  have hlt : ∀ i j a b, recs[i]? = some a → recs[j]? = some b →
      (lt i j = true ↔ KinLt le (orderNames (cls a.cid)) (orderNames (cls b.cid)) a b) := by
    intro i j a b ha hb
    obtain ⟨r, h1, h2⟩ := ans i j a b ha hb
    show (match askKin E O cls recs i j with | .ok r => r | .error _ => false) = true ↔ _
    rw [h1]
    exact h2
  have get : ∀ i, i < recs.length → ∃ a, recs[i]? = some a ∧ OfKin cls F D a := fun i hi =>
    ⟨recs[i], List.getElem?_eq_getElem hi, hr _ (List.getElem_mem hi)⟩
  refine ⟨lt, ?_, hlt, ?_, ?_, ?_⟩
  · intro i j
    split
    · next h =>
      obtain ⟨a, ha, _⟩ := get i h.1
      obtain ⟨b, hb, _⟩ := get j h.2
      obtain ⟨r, h1, _⟩ := ans i j a b ha hb
      show _ = Except.ok (match askKin E O cls recs i j with | .ok r => r | .error _ => false)
      rw [h1]
    · next h =>
      unfold askKin
      split
      · next a b ha hb =>
        exact absurd ⟨(List.getElem?_eq_some_iff.1 ha).1, (List.getElem?_eq_some_iff.1 hb).1⟩ h
      · rfl
  · intro i hi
    obtain ⟨a, ha, da⟩ := get i hi
    rw [← Bool.not_eq_true, hlt i i a a ha ha]
    rcases hK.trichotomy da da with h | h | h
    · exact h.2.2
    · exact h.1
    · exact h.1
  · intro i j k hi hj hk h1 h2
    obtain ⟨a, ha, da⟩ := get i hi
    obtain ⟨b, hb, db⟩ := get j hj
    obtain ⟨c, hc, dc⟩ := get k hk
    rw [hlt i j a b ha hb] at h1
    rw [hlt j k b c hb hc] at h2
    rw [hlt i k a c ha hc]
    rcases hK.trans da db dc (.inl h1) (.inl h2) with h | h
    · exact h
    · have h3 := hK.trans db dc da (.inl h2) (.inr (hK.eq_symm da dc h))
      rcases hK.trichotomy da db with t | t | t
      · rcases h3 with h3 | h3
        · exact absurd h3 t.2.2
        · exact absurd (hK.eq_symm db da h3) t.2.1
      · exact absurd h1 t.1
      · exact absurd h1 t.1
  · intro i j k hi hj hk h
    obtain ⟨a, ha, da⟩ := get i hi
    obtain ⟨b, hb, db⟩ := get j hj
    obtain ⟨c, hc, dc⟩ := get k hk
    rw [hlt i k a c ha hc] at h
    rw [hlt i j a b ha hb, hlt j k b c hb hc]
    rcases hK.trichotomy da db with t | t | t
    · exact .inl t.1
    · refine .inr ?_
      rcases hK.trans db da dc (.inr (hK.eq_symm da db t.2.1)) (.inl h) with hx | hx
      · exact hx
      · have h4 := hK.trans da db dc (.inr t.2.1) (.inr hx)
        have h5 := hK.trans dc db da (.inr (hK.eq_symm db dc hx)) (.inr (hK.eq_symm da db t.2.1))
        rcases hK.trichotomy da dc with u | u | u
        · exact absurd h5 (fun hx => hx.elim u.2.2 fun he => u.2.1 (hK.eq_symm dc da he))
        · exact absurd h u.1
        · exact absurd h u.1
    · refine .inr ?_
      rcases hK.trichotomy db dc with v | v | v
      · exact v.1
      · have h5 := hK.trans dc db da (.inr (hK.eq_symm db dc v.2.1)) (.inl t.2.2)
        rcases hK.trichotomy da dc with u | u | u
        · exact absurd h5 (fun hx => hx.elim u.2.2 fun he => u.2.1 (hK.eq_symm dc da he))
        · exact absurd h u.1
        · exact absurd h u.1
      · have h5 := hK.trans dc db da (.inl v.2.2) (.inl t.2.2)
        rcases hK.trichotomy da dc with u | u | u
        · exact absurd h5 (fun hx => hx.elim u.2.2 fun he => u.2.1 (hK.eq_symm dc da he))
        · exact absurd h u.1
        · exact absurd h u.1

/-- C117: any stable comparison sort of such records terminates without an exception; the result has the positions of the input in
this order, and records that are alike in it in the order of the input. -/
theorem C117_stable (hS : SubOK W) (hK : Kin O cls F le D) {recs : List (Inst W)} (hr : ∀ a ∈ recs, OfKin cls F D a) {t : Sorter}
    (ht : StableSort recs.length t) :
    ∃ order : List Nat, sortKin E O cls t recs = .ok (order.filterMap fun i => recs[i]?) ∧ order.Perm (List.range recs.length) ∧
      order.Pairwise fun i j => ∃ a b, recs[i]? = some a ∧ recs[j]? = some b ∧
        (KinLt le (orderNames (cls a.cid)) (orderNames (cls b.cid)) a b ∨
          KinEq (orderNames (cls a.cid)) (orderNames (cls b.cid)) a b ∧ i < j) := by
  obtain ⟨lt, h1, h2, h3⟩ := askKin_ok (E := E) hS hK hr
  obtain ⟨order, h4, h5⟩ := ht.works lt h3
  refine ⟨order, ?_, h5.perm, ?_⟩
  · unfold sortKin
    rw [Sorter.run_congr h1, h4]
    rfl
  · refine h5.sorted.imp_of_mem fun {i j} hi hj h => ?_
    have hi' := List.mem_range.1 (h5.perm.mem_iff.1 hi)
    have hj' := List.mem_range.1 (h5.perm.mem_iff.1 hj)
    refine ⟨recs[i], recs[j], List.getElem?_eq_getElem hi', List.getElem?_eq_getElem hj', ?_⟩
    have e1 := h2 i j _ _ (List.getElem?_eq_getElem hi') (List.getElem?_eq_getElem hj')
    have e2 := h2 j i _ _ (List.getElem?_eq_getElem hj') (List.getElem?_eq_getElem hi')
    rcases h with h | ⟨h, hij⟩
    · exact .inl (e1.1 h)
    · rw [← Bool.not_eq_true, e2] at h
      rcases hK.trichotomy (hr _ (List.getElem_mem hi')) (hr _ (List.getElem_mem hj')) with t | t | t
      · exact .inl t.1
      · exact .inr ⟨t.2.1, hij⟩
      · exact absurd t.2.2 h

end

end Records

/-! ### examples -/
namespace Records.Toy.Kin
open Toy Toy.Order Toy.Sort

def num? (_ : String) (v : TObj) : Prop := ∃ i, num v = some i

/-- the classes `P` and `Q(P)` -/
def cls : TCls → RecClass W
  | .record 2 => Q true
  | _ => P
def F (c : TCls) : Prop := c = .record 1 ∨ c = .record 2

theorem owners_ne {C : RecClass W} {o c : TCls} (h : C.fields.map (·.2.owner) = C.fields.map fun _ => o) (hne : o ≠ c) :
    ∀ kf ∈ C.fields, kf.2.owner ≠ c := by
  intro kf hkf e
  have : kf.2.owner ∈ C.fields.map (·.2.owner) := List.mem_map.2 ⟨kf, hkf, rfl⟩
  rw [h] at this
  obtain ⟨_, _, h2⟩ := List.mem_map.1 this
  exact hne (h2.trans e)
theorem P_owners : P.fields.map (·.2.owner) = P.fields.map fun _ => TCls.record 1 := rfl

theorem line : Line P (Q true) := .step (spQ true) P (Q true) [] ⟨by decide, by decide, by
    intro p hp
    rcases hp with _ | ⟨_, hp⟩
    · show ∀ kf ∈ P.fields, kf.2.owner ≠ TCls.record 2
      exact owners_ne P_owners (by decide)
    · cases hp⟩ (by
    intro p hp
    rcases hp with _ | ⟨_, hp⟩
    · exact P_creatable
    · cases hp) rfl rfl .refl

theorem kin : Kin (W := W) O cls F (fun _ => leNum) num? where
  ordered := by rintro c (rfl | rfl) <;> rfl
  related := by
    rintro c d (rfl | rfl) (rfl | rfl)
    · exact .inl ⟨rfl, .refl⟩
    · exact .inl ⟨rfl, line⟩
    · exact .inr ⟨rfl, line⟩
    · exact .inl ⟨rfl, .refl⟩
  fields := fun _ _ _ _ => totalNum

theorem Q_names : orderNames (Q true) = ["x", "y", "z"] := by decide
example : ∃ more, orderNames (Q true) = orderNames P ++ more := C117_prefix line

theorem ofP (x n y : Int) : OfKin cls F num? (mkP x n y) := ⟨.inl rfl, mkP_dom x n y⟩
theorem ofQ (x n y z : Int) : OfKin cls F num? (mkQ x n y z) := by
  refine ⟨.inr rfl, ?_⟩
  intro k hk
  have hk : k ∈ orderNames (Q true) := hk
  rw [Q_names] at hk
  rcases hk with _ | ⟨_, _ | ⟨_, _ | ⟨_, hk⟩⟩⟩
  · exact ⟨_, rfl, x, rfl⟩
  · exact ⟨_, rfl, y, rfl⟩
  · exact ⟨_, rfl, z, rfl⟩
  · cases hk

-- the shorter record is smaller, a smaller field decides
example : compare env O .lt P (mkP 1 9 1) (Q true) (mkQ 1 0 1 (-5)) = .ok true := rfl
example : compare env O .lt P (mkP 1 9 1) (Q true) (mkQ 1 0 0 7) = .ok false := rfl
example := C117_lexicographic (E := env) subOK kin (ofP 1 9 1) (ofQ 1 0 1 (-5)) .lt
example := C117_total (E := env) subOK kin (ofQ 1 9 1 0) (ofP 1 0 1)
example : compare env O .le P (mkP 1 9 1) P (mkP 2 0 0) = .ok true :=
  C117_trans subOK kin (ofP 1 9 1) (ofQ 1 0 1 (-5)) (ofP 2 0 0) rfl rfl
example := C117_consistent (E := env) subOK kin (ofQ 1 9 1 0) (ofP 1 0 1)
example := C117_mutual (E := env) subOK kin (ofQ 1 9 1 0) (ofQ 1 0 1 0)
/-- a mixed list -/
def mixed : List (Inst W) := [mkQ 1 0 1 4, mkP 1 3 1, mkQ 0 0 0 0, mkP 1 2 1]
theorem mixed_kin : ∀ a ∈ mixed, OfKin cls F num? a := by
  intro a ha
  rcases ha with _ | ⟨_, _ | ⟨_, _ | ⟨_, _ | ⟨_, ha⟩⟩⟩⟩
  · exact ofQ ..
  · exact ofP ..
  · exact ofQ ..
  · exact ofP ..
  · cases ha
example : sortKin env O cls (insSort 4 0 []) mixed = .ok [mkQ 0 0 0 0, mkP 1 3 1, mkP 1 2 1, mkQ 1 0 1 4] := rfl
example := C117_stable (E := env) subOK kin mixed_kin (insSort_stable 4)

/-- `class M(RecordBase, ordered=True): x: int`, `class N(RecordBase, ordered=True): y: int`, `class R(M, N, ordered=True): z: int` -/
def spM : ClassSpec W := { cid := .record 8, ordered := true, anns := [("x", .plain (.cls .int))] }
def M : RecClass W := clsOf spM noClass
def spN : ClassSpec W := { cid := .record 9, ordered := true, anns := [("y", .plain (.cls .int))] }
def N : RecClass W := clsOf spN noClass
def spR : ClassSpec W := { cid := .record 10, ordered := true, anns := [("z", .plain (.cls .int))], parents := [M, N] }
theorem M_owners : M.fields.map (·.2.owner) = M.fields.map fun _ => TCls.record 8 := rfl
theorem N_owners : N.fields.map (·.2.owner) = N.fields.map fun _ => TCls.record 9 := rfl
def R : RecClass W := clsOf spR noClass
theorem M_creatable : Creatable M := .intro spM M ⟨by decide, by decide, nofun⟩ nofun rfl
theorem N_creatable : Creatable N := .intro spN N ⟨by decide, by decide, nofun⟩ nofun rfl
theorem R_parents : ∀ p ∈ spR.parents, Creatable p := by
  intro p hp
  rcases hp with _ | ⟨_, _ | ⟨_, hp⟩⟩
  · exact M_creatable
  · exact N_creatable
  · cases hp
theorem R_ok : spR.OK := ⟨by decide, by decide, by
    intro p hp
    rcases hp with _ | ⟨_, _ | ⟨_, hp⟩⟩
    · exact owners_ne M_owners (c := TCls.record 10) (by decide)
    · exact owners_ne N_owners (c := TCls.record 10) (by decide)
    · cases hp⟩
def instN : Inst W := ⟨.record 9, [("y", .int 1)], none⟩
def instR : Inst W := ⟨.record 10, [("x", .int 0), ("y", .int 2), ("z", .int 0)], none⟩
/-- with the first parent a class is in line -/
theorem lineR : Line M R := .step spR M R [N] R_ok R_parents rfl rfl .refl
example : ∃ more, orderNames R = orderNames M ++ more := C117_prefix lineR

end Records.Toy.Kin

/-! ### refuted claims -/
namespace Records
open Toy Toy.Order Toy.Kin

/-- The claim that a record is smaller than a record of a subclass if the first of its own fields in which they differ is smaller. -/
def C117_claim : Prop := ∀ (W : World) (E : Env W) (O : ObjCmp W), SubOK W → ∀ (sp : ClassSpec W) (B D : RecClass W), sp.OK →
  (∀ p ∈ sp.parents, Creatable p) → mkClass sp = .ok D → B ∈ sp.parents → B.ordered = true → D.ordered = true →
  ∀ (le : String → W.Obj → W.Obj → Prop) (dom : String → W.Obj → Prop), FieldsOrdered O D le dom → ∀ (a b : Inst W), a.cid = B.cid →
    b.cid = D.cid → W.isSub b.cid a.cid = true → InDomain B dom a → InDomain D dom b → LexLt le (orderNames B) a b →
    compare E O .lt B a D b = .ok true

/-- C117: it does not hold: fields are compared by position, so a field of the first parent is compared with one of the second. -/
theorem C117_refuted : ¬ C117_claim := by
  intro h
  have := h Toy.W env O subOK spR N R R_ok R_parents rfl (List.mem_cons_of_mem _ (List.mem_cons_self ..)) rfl rfl (fun _ => leNum) num? (fun _ _ => totalNum)
    instN instR rfl rfl rfl (by
      intro k hk
      rcases hk with _ | ⟨_, hk⟩
      · exact ⟨_, rfl, 1, rfl⟩
      · cases hk) (by
      intro k hk
      have hk : k ∈ ["x", "y", "z"] := hk
      rcases hk with _ | ⟨_, _ | ⟨_, _ | ⟨_, hk⟩⟩⟩
      · exact ⟨_, rfl, 0, rfl⟩
      · exact ⟨_, rfl, 2, rfl⟩
      · exact ⟨_, rfl, 0, rfl⟩
      · cases hk)
    ⟨[], "y", [], rfl, nofun, .int 1, .int 2, rfl, rfl, fun h => absurd ((leNum_iff (i := 2) (j := 1) rfl rfl).1 h) (by decide)⟩
  cases this

end Records
