import Verif.Spec.Nested
import Verif.Props.Order
import Verif.Props.Roundtrip
/-
C122: records in records.
-/
namespace Records
variable {W : World} {E : Env W} {H : Hasher W} {cls : W.Cls → RecClass W} {h : W.Obj → Node W}

namespace NestedLemmas

theorem subset_back : ∀ {xs ys : List String}, xs.Nodup → (∀ x ∈ xs, x ∈ ys) → ys.length ≤ xs.length → ∀ y ∈ ys, y ∈ xs
  | [], [], _, _, _, _, hy => by cases hy
  | [], _ :: _, _, _, hl, _, _ => by simp at hl
  | x :: xs, ys, hn, hs, hl, y, hy => by
    have hx : x ∈ ys := hs x List.mem_cons_self
    obtain ⟨hx', hn'⟩ := List.nodup_cons.1 hn
    by_cases e : y = x
    · exact e ▸ List.mem_cons_self
    · refine List.mem_cons_of_mem _ (subset_back (ys := ys.erase x) hn' ?_ ?_ y ?_)
      · intro z hz
        have hzx : z ≠ x := fun e => hx' (e ▸ hz)
        exact (List.mem_erase_of_ne hzx).2 (hs z (List.mem_cons_of_mem _ hz))
      · rw [List.length_erase_of_mem hx]
        simp only [List.length_cons] at hl
        omega
      · exact (List.mem_erase_of_ne e).2 hy

theorem sameItem_iff {x y : W.Obj} : sameItem x y = true ↔ x = y ∨ W.eq x y = true := by
  unfold sameItem
  simp

theorem seqEq_iff : ∀ {xs ys : List W.Obj}, seqEq xs ys = true ↔
    xs.length = ys.length ∧ ∀ (n : Nat) x y, xs[n]? = some x → ys[n]? = some y → sameItem x y = true
  | [], [] => by simp [seqEq]
  | [], _ :: _ => by simp [seqEq]
  | _ :: _, [] => by simp [seqEq]
  | x :: xs, y :: ys => by
    unfold seqEq
    rw [Bool.and_eq_true, seqEq_iff]
    constructor
    · rintro ⟨h1, h2, h3⟩
      refine ⟨by simp [h2], fun n x' y' hx hy => ?_⟩
      cases n with
      | zero => simp at hx hy; subst hx; subst hy; exact h1
      | succ n => simp at hx hy; exact h3 n x' y' hx hy
    · rintro ⟨h1, h2⟩
      refine ⟨h2 0 x y rfl rfl, by simpa using h1, fun n x' y' hx hy => h2 (n + 1) x' y' (by simpa using hx) (by simpa using hy)⟩

theorem dictEq_iff {m m' : Dict W.Obj} (hm : (m.map (·.1)).Nodup) : dictEq m m' = true ↔
    (∀ k, k ∈ m.map (·.1) ↔ k ∈ m'.map (·.1)) ∧ m.length = m'.length ∧
      ∀ k x y, m.get? k = some x → m'.get? k = some y → sameItem x y = true := by
  unfold dictEq
  rw [Bool.and_eq_true, List.all_eq_true, decide_eq_true_eq]
  constructor
  · rintro ⟨h1, h2⟩
    have hsub : ∀ k ∈ m.map (·.1), k ∈ m'.map (·.1) := by
      intro k hk
      obtain ⟨⟨k, v⟩, hkv, rfl⟩ := List.mem_map.1 hk
      have := h2 _ hkv
      cases e : m'.get? k with
      | none => simp only [e] at this; cases this
      | some w => exact List.mem_map.2 ⟨(k, w), Dict.get?_eq_some_mem _ _ _ e, rfl⟩
    refine ⟨fun k => ⟨hsub k, subset_back hm hsub (by simp [h1]) k⟩, h1, fun k x y hx hy => ?_⟩
    have := h2 _ (Dict.get?_eq_some_mem _ _ _ hx)
    simp only [hy] at this
    exact this
  · rintro ⟨h1, h2, h3⟩
    refine ⟨h2, fun ⟨k, v⟩ hkv => ?_⟩
    have hk : k ∈ m'.map (·.1) := (h1 k).1 (List.mem_map.2 ⟨_, hkv, rfl⟩)
    cases e : m'.get? k with
    | none => exact absurd hk ((Dict.get?_eq_none_iff m' k).1 e)
    | some w => exact h3 k v w (Dict.mem_get? _ hm _ _ hkv) e

/-- frozen records with the same hash and equal fields, or non-frozen records with equal fields -/
theorem record_eq {i j : Inst W} (hC : Creatable (cls i.cid)) (hi : Proper H (cls i.cid) i) (hj : Proper H (cls j.cid) j) (s : LState W) :
    ∃ r, (eqInst E H (cls i.cid) i j s).1 = .ok r ∧ (r = true ↔ i.cid = j.cid ∧ SameFields (cls i.cid) i j ∧
      ((cls i.cid).frozen = true → recordHash H (cls i.cid) i = recordHash H (cls i.cid) j)) := by
  unfold eqInst
  by_cases hc : i.cid = j.cid
  · rw [if_neg (by simp [hc])]
    rw [← hc] at hj
    obtain ⟨r, hr, hr'⟩ := eqFields_spec (E := E) (a := i) (b := j) (ks := (cls i.cid).fields.keys) (fun k hk => hi.full.get hk)
      (fun k hk => hj.full.get hk)
    cases hf : (cls i.cid).frozen with
    | false =>
      refine ⟨r, by simp [hr], ?_⟩
      rw [hr']
      exact ⟨fun h => ⟨hc, h, nofun⟩, fun h => h.2.1⟩
    | true =>
      simp only [if_true, hashInst_proper hC.wf hf hi, hashInst_proper hC.wf hf hj]
      by_cases hh : recordHash H (cls i.cid) i = recordHash H (cls i.cid) j
      · refine ⟨r, by simp [hh, hr], ?_⟩
        rw [hr']
        exact ⟨fun h => ⟨hc, h, fun _ => hh⟩, fun h => h.2.1⟩
      · refine ⟨false, by simp [hh], ?_⟩
        exact ⟨fun h => (nomatch h), fun h => absurd (h.2.2 trivial) hh⟩
  · rw [if_pos hc]
    exact ⟨false, rfl, fun h => (nomatch h), fun h => absurd h.1 hc⟩

/-- what `==` of two objects means, by what they contain -/
inductive EqCases (H : Hasher W) (cls : W.Cls → RecClass W) (h : W.Obj → Node W) (a b : W.Obj) : Prop
  | leaf : h a = .atom → h b = .atom → W.eq a b = true → EqCases H cls h a b
  | list {xs ys} : h a = .list xs → h b = .list ys → xs.length = ys.length →
      (∀ (n : Nat) x y, xs[n]? = some x → ys[n]? = some y → sameItem x y = true) → EqCases H cls h a b
  | tuple {xs ys} : h a = .tuple xs → h b = .tuple ys → xs.length = ys.length →
      (∀ (n : Nat) x y, xs[n]? = some x → ys[n]? = some y → sameItem x y = true) → EqCases H cls h a b
  | dict {m m'} : h a = .dict m → h b = .dict m' → (∀ k, k ∈ m.map (·.1) ↔ k ∈ m'.map (·.1)) → m.length = m'.length →
      (∀ k x y, m.get? k = some x → m'.get? k = some y → sameItem x y = true) → EqCases H cls h a b
  | record {i j} : h a = .record i → h b = .record j → i.cid = j.cid →
      (∀ k x y, k ∈ (cls i.cid).fields.map (·.1) → i.dict.get? k = some x → j.dict.get? k = some y → W.eq x y = true) →
      ((cls i.cid).frozen = true → recordHash H (cls i.cid) i = recordHash H (cls i.cid) j) → EqCases H cls h a b

theorem eq_iff (hN : Nested E H cls h) [Nonempty (LState W)] (a b : W.Obj) : W.eq a b = true ↔ EqCases H cls h a b := by
  obtain ⟨s⟩ := ‹Nonempty (LState W)›
  have key := hN.eq a b s
  cases ha : h a with
  | atom =>
    cases hb : h b with
    | atom =>
      refine ⟨fun he => .leaf ha hb he, fun hc => ?_⟩
      cases hc with
      | leaf _ _ he => exact he
      | list e => rw [ha] at e; cases e
      | tuple e => rw [ha] at e; cases e
      | dict e => rw [ha] at e; cases e
      | record e => rw [ha] at e; cases e
    | _ =>
      rw [ha, hb] at key
      rw [key _ rfl]
      refine ⟨fun e => (nomatch e), fun hc => ?_⟩
      cases hc with
      | leaf _ e => rw [hb] at e; cases e
      | list e => rw [ha] at e; cases e
      | tuple e => rw [ha] at e; cases e
      | dict e => rw [ha] at e; cases e
      | record e => rw [ha] at e; cases e
  | list xs =>
    cases hb : h b with
    | list ys =>
      rw [ha, hb] at key
      rw [key _ rfl, seqEq_iff]
      refine ⟨fun hc => .list ha hb hc.1 hc.2, fun hc => ?_⟩
      cases hc with
      | leaf e => rw [ha] at e; cases e
      | list e e' h1 h2 => rw [ha] at e; rw [hb] at e'; cases e; cases e'; exact ⟨h1, h2⟩
      | tuple e => rw [ha] at e; cases e
      | dict e => rw [ha] at e; cases e
      | record e => rw [ha] at e; cases e
    | _ =>
      rw [ha, hb] at key
      rw [key _ rfl]
      refine ⟨fun e => (nomatch e), fun hc => ?_⟩
      cases hc with
      | leaf e => rw [ha] at e; cases e
      | list _ e => rw [hb] at e; cases e
      | tuple e => rw [ha] at e; cases e
      | dict e => rw [ha] at e; cases e
      | record e => rw [ha] at e; cases e
  | tuple xs =>
    cases hb : h b with
    | tuple ys =>
      rw [ha, hb] at key
      rw [key _ rfl, seqEq_iff]
      refine ⟨fun hc => .tuple ha hb hc.1 hc.2, fun hc => ?_⟩
      cases hc with
      | leaf e => rw [ha] at e; cases e
      | tuple e e' h1 h2 => rw [ha] at e; rw [hb] at e'; cases e; cases e'; exact ⟨h1, h2⟩
      | list e => rw [ha] at e; cases e
      | dict e => rw [ha] at e; cases e
      | record e => rw [ha] at e; cases e
    | _ =>
      rw [ha, hb] at key
      rw [key _ rfl]
      refine ⟨fun e => (nomatch e), fun hc => ?_⟩
      cases hc with
      | leaf e => rw [ha] at e; cases e
      | tuple _ e => rw [hb] at e; cases e
      | list e => rw [ha] at e; cases e
      | dict e => rw [ha] at e; cases e
      | record e => rw [ha] at e; cases e
  | dict m =>
    cases hb : h b with
    | dict m' =>
      rw [ha, hb] at key
      rw [key _ rfl, dictEq_iff (hN.dicts a m ha)]
      refine ⟨fun hc => .dict ha hb hc.1 hc.2.1 hc.2.2, fun hc => ?_⟩
      cases hc with
      | leaf e => rw [ha] at e; cases e
      | dict e e' h1 h2 h3 => rw [ha] at e; rw [hb] at e'; cases e; cases e'; exact ⟨h1, h2, h3⟩
      | list e => rw [ha] at e; cases e
      | tuple e => rw [ha] at e; cases e
      | record e => rw [ha] at e; cases e
    | _ =>
      rw [ha, hb] at key
      rw [key _ rfl]
      refine ⟨fun e => (nomatch e), fun hc => ?_⟩
      cases hc with
      | leaf e => rw [ha] at e; cases e
      | dict _ e => rw [hb] at e; cases e
      | list e => rw [ha] at e; cases e
      | tuple e => rw [ha] at e; cases e
      | record e => rw [ha] at e; cases e
  | record i =>
    cases hb : h b with
    | record j =>
      obtain ⟨hC, hi⟩ := hN.records a i ha
      obtain ⟨_, hj⟩ := hN.records b j hb
      obtain ⟨r, hr, hr'⟩ := record_eq (E := E) hC hi hj s
      rw [ha, hb] at key
      rw [key r (congrArg some hr), hr']
      constructor
      · rintro ⟨h1, h2, h3⟩
        refine .record ha hb h1 (fun k x y hk hx hy => ?_) h3
        obtain ⟨v, w, e1, e2, e3⟩ := h2 k hk
        rw [hx] at e1; rw [hy] at e2
        cases e1; cases e2
        exact e3
      · intro hc
        cases hc with
        | leaf e => rw [ha] at e; cases e
        | record e e' h1 h2 h3 =>
          rw [ha] at e; rw [hb] at e'; cases e; cases e'
          refine ⟨h1, fun k hk => ?_, h3⟩
          obtain ⟨v, hv⟩ := hi.full.get hk
          rw [h1] at hk
          obtain ⟨w, hw⟩ := hj.full.get hk
          exact ⟨v, w, hv, hw, h2 k v w (by rw [h1]; exact hk) hv hw⟩
        | list e => rw [ha] at e; cases e
        | tuple e => rw [ha] at e; cases e
        | dict e => rw [ha] at e; cases e
    | _ =>
      rw [ha, hb] at key
      rw [key _ rfl]
      refine ⟨fun e => (nomatch e), fun hc => ?_⟩
      cases hc with
      | leaf e => rw [ha] at e; cases e
      | record _ e => rw [hb] at e; cases e
      | list e => rw [ha] at e; cases e
      | tuple e => rw [ha] at e; cases e
      | dict e => rw [ha] at e; cases e

theorem child_seq {xs : List W.Obj} {n : Nat} {x : W.Obj} (h : xs[n]? = some x) : x ∈ xs := List.mem_of_getElem? h

theorem child_dict {m : Dict W.Obj} {k : String} {x : W.Obj} (h : m.get? k = some x) : x ∈ m.values :=
  List.mem_map.2 ⟨(k, x), Dict.get?_eq_some_mem _ _ _ h, rfl⟩

theorem eq_refl (hN : Nested E H cls h) [Nonempty (LState W)] : ∀ a, W.eq a a = true := by
  obtain ⟨rank, hr⟩ := hN.depth
  intro a
  induction a using (measure rank).wf.induction with
  | _ a ih =>
  have ih : ∀ c ∈ (h a).children, W.eq c c = true := fun c hc => ih c (hr a c hc)
  rw [eq_iff hN]
  cases ha : h a with
  | atom => exact .leaf ha ha (hN.refl a ha)
  | list xs => exact .list ha ha rfl fun n x y hx hy => sameItem_iff.2 (.inl (by rw [hx] at hy; cases hy; rfl))
  | tuple xs => exact .tuple ha ha rfl fun n x y hx hy => sameItem_iff.2 (.inl (by rw [hx] at hy; cases hy; rfl))
  | dict m => exact .dict ha ha (fun _ => Iff.rfl) rfl fun k x y hx hy => sameItem_iff.2 (.inl (by rw [hx] at hy; cases hy; rfl))
  | record i =>
    refine .record ha ha rfl (fun k x y _ hx hy => ?_) fun _ => rfl
    rw [hx] at hy
    cases hy
    exact ih x (by rw [ha]; exact child_dict hx)

theorem eq_symm (hN : Nested E H cls h) [Nonempty (LState W)] : ∀ a b, W.eq a b = true → W.eq b a = true := by
  obtain ⟨rank, hr⟩ := hN.depth
  intro a
  induction a using (measure rank).wf.induction with
  | _ a ih =>
  intro b hab
  have ih : ∀ c ∈ (h a).children, ∀ d, W.eq c d = true → W.eq d c = true := fun c hc => ih c (hr a c hc)
  have ih' : ∀ c ∈ (h a).children, ∀ d, sameItem c d = true → sameItem d c = true := fun c hc d hd =>
    sameItem_iff.2 ((sameItem_iff.1 hd).elim (fun e => .inl e.symm) fun e => .inr (ih c hc d e))
  rw [eq_iff hN] at hab ⊢
  cases hab with
  | leaf ha hb he => exact .leaf hb ha (hN.symm a b ha hb he)
  | list ha hb hl he =>
    rw [ha] at ih'
    exact .list hb ha hl.symm fun n x y hx hy => ih' y (child_seq hy) x (he n y x hy hx)
  | tuple ha hb hl he =>
    rw [ha] at ih'
    exact .tuple hb ha hl.symm fun n x y hx hy => ih' y (child_seq hy) x (he n y x hy hx)
  | dict ha hb hk hl he =>
    rw [ha] at ih'
    exact .dict hb ha (fun k => (hk k).symm) hl.symm fun k x y hx hy => ih' y (child_dict hy) x (he k y x hy hx)
  | record ha hb hc he hh =>
    rw [ha] at ih
    exact .record hb ha hc.symm (fun k x y hk hx hy => ih y (child_dict hy) x (he k y x (by rw [hc]; exact hk) hy hx))
      fun hf => by rw [← hc] at hf ⊢; exact (hh hf).symm

theorem eq_trans (hN : Nested E H cls h) [Nonempty (LState W)] : ∀ b a c, W.eq a b = true → W.eq b c = true → W.eq a c = true := by
  obtain ⟨rank, hr⟩ := hN.depth
  intro b
  induction b using (measure rank).wf.induction with
  | _ b ih =>
  intro a c hab hbc
  have ih : ∀ y ∈ (h b).children, ∀ x z, W.eq x y = true → W.eq y z = true → W.eq x z = true := fun y hy => ih y (hr b y hy)
  have ih' : ∀ y ∈ (h b).children, ∀ x z, sameItem x y = true → sameItem y z = true → sameItem x z = true := by
    intro y hy x z h1 h2
    rw [sameItem_iff] at h1 h2 ⊢
    rcases h1 with rfl | h1
    · exact h2
    · rcases h2 with rfl | h2
      · exact .inr h1
      · exact .inr (ih y hy x z h1 h2)
  rw [eq_iff hN] at hab hbc ⊢
  cases hab with
  | leaf ha hb he =>
    cases hbc with
    | leaf _ hc he' => exact .leaf ha hc (hN.trans a b c ha hb hc he he')
    | list e => rw [hb] at e; cases e
    | tuple e => rw [hb] at e; cases e
    | dict e => rw [hb] at e; cases e
    | record e => rw [hb] at e; cases e
  | @list xs ys ha hb hl he =>
    rw [hb] at ih'
    cases hbc with
    | list e hc hl' he' =>
      rw [hb] at e; cases e
      refine .list ha hc (hl.trans hl') fun n x z hx hz => ?_
      have hn : n < ys.length := by rw [← hl]; exact (List.getElem?_eq_some_iff.1 hx).1
      have hy : ys[n]? = some ys[n] := List.getElem?_eq_getElem hn
      exact ih' _ (child_seq hy) x z (he n x _ hx hy) (he' n _ z hy hz)
    | leaf e => rw [hb] at e; cases e
    | tuple e => rw [hb] at e; cases e
    | dict e => rw [hb] at e; cases e
    | record e => rw [hb] at e; cases e
  | @tuple xs ys ha hb hl he =>
    rw [hb] at ih'
    cases hbc with
    | tuple e hc hl' he' =>
      rw [hb] at e; cases e
      refine .tuple ha hc (hl.trans hl') fun n x z hx hz => ?_
      have hn : n < ys.length := by rw [← hl]; exact (List.getElem?_eq_some_iff.1 hx).1
      have hy : ys[n]? = some ys[n] := List.getElem?_eq_getElem hn
      exact ih' _ (child_seq hy) x z (he n x _ hx hy) (he' n _ z hy hz)
    | leaf e => rw [hb] at e; cases e
    | list e => rw [hb] at e; cases e
    | dict e => rw [hb] at e; cases e
    | record e => rw [hb] at e; cases e
  | @dict m m' ha hb hk hl he =>
    rw [hb] at ih'
    cases hbc with
    | dict e hc hk' hl' he' =>
      rw [hb] at e; cases e
      refine .dict ha hc (fun k => (hk k).trans (hk' k)) (hl.trans hl') fun k x z hx hz => ?_
      cases hy : Dict.get? m' k with
      | none =>
        exact absurd ((hk k).1 (List.mem_map.2 ⟨(k, x), Dict.get?_eq_some_mem _ _ _ hx, rfl⟩)) ((Dict.get?_eq_none_iff m' k).1 hy)
      | some y => exact ih' y (child_dict hy) x z (he k x y hx hy) (he' k y z hy hz)
    | leaf e => rw [hb] at e; cases e
    | list e => rw [hb] at e; cases e
    | tuple e => rw [hb] at e; cases e
    | record e => rw [hb] at e; cases e
  | @record i j ha hb hc he hh =>
    rw [hb] at ih
    cases hbc with
    | record e hc' hc2 he' hh' =>
      rw [hb] at e; cases e
      refine .record ha hc' (hc.trans hc2) (fun k x z hk hx hz => ?_) fun hf => ?_
      · obtain ⟨y, hy⟩ := (hN.records b j hb).2.full.get (hc ▸ hk)
        exact ih y (child_dict hy) x z (he k x y hk hx hy) (he' k y z (hc ▸ hk) hy hz)
      · exact (hh hf).trans (by rw [hc] at hf ⊢; exact hh' hf)
    | leaf e => rw [hb] at e; cases e
    | list e => rw [hb] at e; cases e
    | tuple e => rw [hb] at e; cases e
    | dict e => rw [hb] at e; cases e

/-- the hash of a record of a frozen class; records of other classes have none -/
theorem record_hash (hN : Nested E H cls h) [Nonempty (LState W)] {a : W.Obj} {i : Inst W} (ha : h a = .record i) :
    (W.hashable a = true ↔ (cls i.cid).frozen = true) ∧ ((cls i.cid).frozen = true → H.obj a = recordHash H (cls i.cid) i) := by
  obtain ⟨s⟩ := ‹Nonempty (LState W)›
  obtain ⟨hC, hi⟩ := hN.records a i ha
  have key := hN.hash a s (hashInst E H (cls i.cid) i s).1 (by rw [ha]; rfl)
  cases hf : (cls i.cid).frozen with
  | false =>
    have e : (hashInst E H (cls i.cid) i s).1 = .error .typeError := by unfold hashInst; rw [hf]; rfl
    rw [e] at key
    exact ⟨by rw [key.1]; exact ⟨fun ⟨_, h⟩ => (nomatch h), nofun⟩, nofun⟩
  | true =>
    rw [hashInst_proper hC.wf hf hi] at key
    exact ⟨by rw [key.1]; exact ⟨fun _ => rfl, fun _ => ⟨_, rfl⟩⟩, fun _ => key.2 _ rfl⟩

theorem tuple_hash (hN : Nested E H cls h) [Nonempty (LState W)] {a : W.Obj} {xs : List W.Obj} (ha : h a = .tuple xs) :
    (W.hashable a = true ↔ ∀ x ∈ xs, W.hashable x = true) ∧ ((∀ x ∈ xs, W.hashable x = true) → H.obj a = H.tuple (xs.map H.obj)) := by
  obtain ⟨s⟩ := ‹Nonempty (LState W)›
  have key := hN.hash a s (hashTuple H xs) (by rw [ha]; rfl)
  by_cases hx : xs.all W.hashable = true
  · have e : hashTuple H xs = .ok (H.tuple (xs.map H.obj)) := by unfold hashTuple; rw [if_pos hx]
    rw [e] at key
    exact ⟨by rw [key.1]; exact ⟨fun _ => List.all_eq_true.1 hx, fun _ => ⟨_, rfl⟩⟩, fun _ => key.2 _ rfl⟩
  · have e : hashTuple H xs = .error .typeError := by unfold hashTuple; rw [if_neg hx]
    rw [e] at key
    exact ⟨by rw [key.1]; exact ⟨fun ⟨_, h⟩ => (nomatch h), fun h => absurd (List.all_eq_true.2 h) hx⟩,
      fun h => absurd (List.all_eq_true.2 h) hx⟩

theorem list_hash (hN : Nested E H cls h) [Nonempty (LState W)] {a : W.Obj} {xs : List W.Obj} (ha : h a = .list xs) :
    W.hashable a = false := by
  obtain ⟨s⟩ := ‹Nonempty (LState W)›
  have key := (hN.hash a s (.error .typeError) (by rw [ha]; rfl)).1
  cases hh : W.hashable a with
  | false => rfl
  | true => obtain ⟨_, e⟩ := key.1 hh; cases e

theorem dict_hash (hN : Nested E H cls h) [Nonempty (LState W)] {a : W.Obj} {m : Dict W.Obj} (ha : h a = .dict m) :
    W.hashable a = false := by
  obtain ⟨s⟩ := ‹Nonempty (LState W)›
  have key := (hN.hash a s (.error .typeError) (by rw [ha]; rfl)).1
  cases hh : W.hashable a with
  | false => rfl
  | true => obtain ⟨_, e⟩ := key.1 hh; cases e

theorem contract (hN : Nested E H cls h) [Nonempty (LState W)] : HashContract H := by
  obtain ⟨rank, hr⟩ := hN.depth
  intro a
  induction a using (measure rank).wf.induction with
  | _ a ih =>
  intro b hab hha hhb
  have ih : ∀ c ∈ (h a).children, ∀ d, W.eq c d = true → W.hashable c = true → W.hashable d = true → H.obj c = H.obj d :=
    fun c hc => ih c (hr a c hc)
  have hab' := hab
  rw [eq_iff hN] at hab
  cases hab with
  | leaf ha hb he => exact hN.contract a b ha hb he hha hhb
  | list ha => rw [list_hash hN ha] at hha; cases hha
  | dict ha => rw [dict_hash hN ha] at hha; cases hha
  | record ha hb hc he hh =>
    have h1 := record_hash hN ha
    have h2 := record_hash hN hb
    have hf := h1.1.1 hha
    rw [h1.2 hf, hh hf, h2.2 (hc ▸ hf), hc]
  | tuple ha hb hl he =>
    have h1 := tuple_hash hN ha
    have h2 := tuple_hash hN hb
    rw [h1.2 (h1.1.1 hha), h2.2 (h2.1.1 hhb)]
    congr 1
    apply List.ext_getElem?
    intro n
    rw [List.getElem?_map, List.getElem?_map]
    rename_i xs ys
    by_cases hn : n < xs.length
    · have hx : xs[n]? = some xs[n] := List.getElem?_eq_getElem hn
      have hy : ys[n]? = some (ys[n]'(hl ▸ hn)) := List.getElem?_eq_getElem (hl ▸ hn)
      rw [hx, hy]
      rcases sameItem_iff.1 (he n _ _ hx hy) with e | e
      · rw [e]
      · exact congrArg some (ih _ (by rw [ha]; exact child_seq hx) _ e (h1.1.1 hha _ (child_seq hx)) (h2.1.1 hhb _ (child_seq hy)))
    · rw [List.getElem?_eq_none (by omega), List.getElem?_eq_none (by omega)]

theorem same_item (hN : Nested E H cls h) [Nonempty (LState W)] {x y : W.Obj} : sameItem x y = true ↔ W.eq x y = true := by
  rw [sameItem_iff]
  exact ⟨fun e => e.elim (fun e => e ▸ eq_refl hN x) id, .inr⟩

theorem nodup_length : ∀ {xs ys : List String}, xs.Nodup → (∀ x ∈ xs, x ∈ ys) → xs.length ≤ ys.length
  | [], _, _, _ => by simp
  | x :: xs, ys, hn, hs => by
    obtain ⟨hx', hn'⟩ := List.nodup_cons.1 hn
    have hx : x ∈ ys := hs x List.mem_cons_self
    have := nodup_length (ys := ys.erase x) hn' fun z hz => (List.mem_erase_of_ne (by intro e; subst e; exact hx' hz)).2 (hs z (List.mem_cons_of_mem _ hz))
    rw [List.length_erase_of_mem hx] at this
    have := List.length_pos_of_mem hx
    simp only [List.length_cons]
    omega

end NestedLemmas

open NestedLemmas

set_option linter.unusedSimpArgs false

/-- C122: with records nested to any depth in each other and in lists, tuples and dicts, `==` of all objects is an equivalence relation, and
equal hashable objects have equal hashes, if that holds for the objects without parts. -/
theorem C122_equivalence (hN : Nested E H cls h) [Nonempty (LState W)] : EqOK W ∧ HashContract H :=
  ⟨⟨eq_refl hN, fun {a b} => eq_symm hN a b, fun {a b c} => eq_trans hN b a c⟩, contract hN⟩

/-- C122: two objects are equal iff they are trees of the same shape, with records of the same class at the same places, and equal leaves;
whatever their classes are (frozen or not) and whichever hashes have been computed before. -/
theorem C122_tree (hN : Nested E H cls h) [Nonempty (LState W)] (a b : W.Obj) : W.eq a b = true ↔ SameTree cls h a b := by
  constructor
  · obtain ⟨rank, hr⟩ := hN.depth
    induction a using (measure rank).wf.induction generalizing b with
    | _ a ih =>
    have ih : ∀ c ∈ (h a).children, ∀ d, W.eq c d = true → SameTree cls h c d := fun c hc d => ih c (hr a c hc) d
    intro hab
    rw [eq_iff hN] at hab
    cases hab with
    | leaf ha hb he => exact .leaf ha hb he
    | list ha hb hl he =>
      rw [ha] at ih
      exact .list ha hb hl fun n x y hx hy => ih x (child_seq hx) y ((same_item hN).1 (he n x y hx hy))
    | tuple ha hb hl he =>
      rw [ha] at ih
      exact .tuple ha hb hl fun n x y hx hy => ih x (child_seq hx) y ((same_item hN).1 (he n x y hx hy))
    | dict ha hb hk hl he =>
      rw [ha] at ih
      exact .dict ha hb hk fun k x y hx hy => ih x (child_dict hx) y ((same_item hN).1 (he k x y hx hy))
    | record ha hb hc he hh =>
      rw [ha] at ih
      exact .record ha hb hc fun k x y hk hx hy => ih x (child_dict hx) y (he k x y hk hx hy)
  · obtain ⟨hW, hH⟩ := C122_equivalence hN
    intro ht
    induction ht with
    | leaf _ _ he => exact he
    | list ha hb hl _ ih => exact (eq_iff hN _ _).2 (.list ha hb hl fun n x y hx hy => (same_item hN).2 (ih n x y hx hy))
    | tuple ha hb hl _ ih => exact (eq_iff hN _ _).2 (.tuple ha hb hl fun n x y hx hy => (same_item hN).2 (ih n x y hx hy))
    | dict ha hb hk _ ih =>
      refine (eq_iff hN _ _).2 (.dict ha hb hk ?_ fun k x y hx hy => (same_item hN).2 (ih k x y hx hy))
      have h1 := nodup_length (hN.dicts _ _ ha) fun k => (hk k).1
      have h2 := nodup_length (hN.dicts _ _ hb) fun k => (hk k).2
      simp only [List.length_map] at h1 h2
      omega
    | @record a b i j ha hb hc _ ih =>
      refine (eq_iff hN _ _).2 (.record ha hb hc ih fun hf => ?_)
      obtain ⟨_, hi⟩ := hN.records _ _ ha
      obtain ⟨_, hj⟩ := hN.records _ _ hb
      rw [← hc] at hj
      refine recordHash_same hW hH (fun k hk => ?_) (hi.hashable hf) (hj.hashable hf)
      obtain ⟨v, hv⟩ := hi.full.get hk
      obtain ⟨w, hw⟩ := hj.full.get hk
      exact ⟨v, w, hv, hw, ih k v w hk hv hw⟩

/-- C122: an object is hashable iff it is a hashable leaf, a tuple of hashable objects, or a record of a frozen class; records of frozen
classes can be fields of records of frozen classes, to any depth. -/
theorem C122_hashable (hN : Nested E H cls h) [Nonempty (LState W)] (a : W.Obj) : W.hashable a = true ↔ HashableTree cls h a := by
  constructor
  · obtain ⟨rank, hr⟩ := hN.depth
    induction a using (measure rank).wf.induction with
    | _ a ih =>
    intro hh
    cases ha : h a with
    | atom => exact .leaf ha hh
    | list xs => rw [list_hash hN ha] at hh; cases hh
    | dict xs => rw [dict_hash hN ha] at hh; cases hh
    | tuple xs => exact .tuple ha fun x hx => ih x (hr a x (by rw [ha]; exact hx)) ((tuple_hash hN ha).1.1 hh x hx)
    | record i => exact .record ha ((record_hash hN ha).1.1 hh)
  · intro ht
    induction ht with
    | leaf _ hh => exact hh
    | tuple ha _ ih => exact (tuple_hash hN ha).1.2 ih
    | record ha hf => exact (record_hash hN ha).1.2 hf

/-- C122: trees of the same shape with equal leaves have the same hash, if they are hashable; so they are interchangeable as keys. -/
theorem C122_hash (hN : Nested E H cls h) [Nonempty (LState W)] {a b : W.Obj} (ht : SameTree cls h a b) (ha : HashableTree cls h a)
    (hb : HashableTree cls h b) : H.obj a = H.obj b :=
  (C122_equivalence hN).2 a b ((C122_tree hN a b).2 ht) ((C122_hashable hN a).2 ha) ((C122_hashable hN b).2 hb)

/-! ### C123 -/

namespace NestedLemmas

theorem names_all {C : RecClass W} (hx : ∀ kf ∈ C.fields, excludeTag ∉ kf.2.tags) : orderNames C = C.fields.map (·.1) := by
  unfold orderNames
  rw [List.filter_eq_self.2]
  intro kf hkf
  simpa [List.contains_iff_mem] using hx kf hkf

theorem listCmp_eq {O : ObjCmp W} {op : CmpOp} {a b : W.Obj} {as bs : List W.Obj} (h : a = b ∨ W.eq a b = true) :
    listCmp O op (a :: as) (b :: bs) = listCmp O op as bs := by
  rw [listCmp, if_pos h]

theorem listCmp_ne {O : ObjCmp W} {op : CmpOp} {a b : W.Obj} {as bs : List W.Obj} (h : ¬ (a = b ∨ W.eq a b = true)) :
    listCmp O op (a :: as) (b :: bs) = O op a b := by
  rw [listCmp, if_neg h]

theorem record_total (hN : Nested E H cls h) [Nonempty (LState W)] {O : ObjCmp W} (hO : NestedCmp E O cls h) {c : W.Cls}
    (hcid : (cls c).cid = c) (ho : (cls c).ordered = true) (hs : W.isSub c c = true) (hx : ∀ kf ∈ (cls c).fields, excludeTag ∉ kf.2.tags)
    {le : String → W.Obj → W.Obj → Prop} {D : String → W.Obj → Prop} (hF : FieldsOrdered O (cls c) le D) :
    TotalOn O (fun a b => ∃ i j, h a = .record i ∧ h b = .record j ∧ LexLe le (orderNames (cls c)) i j)
      (fun a => ∃ i, h a = .record i ∧ i.cid = c ∧ InDomain (cls c) D i) := by
  obtain ⟨hW, hH⟩ := C122_equivalence hN
  have hs' : W.isSub (cls c).cid (cls c).cid = true := by rw [hcid]; exact hs
  have lex : ∀ {a b : W.Obj} {i j : Inst W}, h a = .record i → h b = .record j →
      ((∃ i j, h a = .record i ∧ h b = .record j ∧ LexLe le (orderNames (cls c)) i j) ↔ LexLe le (orderNames (cls c)) i j) := by
    intro a b i j ha hb
    constructor
    · rintro ⟨i', j', e1, e2, hl⟩
      rw [ha] at e1; rw [hb] at e2; cases e1; cases e2; exact hl
    · exact fun hl => ⟨i, j, ha, hb, hl⟩
  refine ⟨?_, ?_, ?_, ?_⟩
  · rintro a b ⟨i, ha, hi, di⟩ ⟨j, hb, hj, dj⟩
    rw [lex ha hb, lex hb ha]
    rcases lex_trichotomy hF di dj with t | t | t
    · exact .inl (.inl t.1)
    · exact .inl (.inr t.2.1)
    · exact .inr (.inl t.2.2)
  · rintro a b d ⟨i, ha, hi, di⟩ ⟨j, hb, hj, dj⟩ ⟨k, hd, hk, dk⟩
    rw [lex ha hb, lex hb hd, lex ha hd]
    exact lex_trans hF di dj dk
  · rintro a b ⟨i, ha, hi, di⟩ ⟨j, hb, hj, dj⟩
    rw [lex ha hb, lex hb ha, C122_tree hN]
    have tri := lex_trichotomy hF di dj
    have hsy : LexEq (orderNames (cls c)) j i ↔ LexEq (orderNames (cls c)) i j := ⟨lexEq_symm hF dj di, lexEq_symm hF di dj⟩
    have : SameTree cls h a b ↔ LexEq (orderNames (cls c)) i j := by
      rw [names_all hx]
      obtain ⟨_, pi⟩ := hN.records a i ha
      obtain ⟨_, pj⟩ := hN.records b j hb
      rw [hi] at pi; rw [hj] at pj
      constructor
      · intro ht k hk
        cases ht with
        | record e1 e2 _ ht =>
          rw [ha] at e1; rw [hb] at e2; cases e1; cases e2
          obtain ⟨v, hv⟩ := pi.full.get hk
          obtain ⟨w, hw⟩ := pj.full.get hk
          exact ⟨v, w, hv, hw, (C122_tree hN v w).2 (ht k v w (by rw [hi]; exact hk) hv hw)⟩
        | leaf e => rw [ha] at e; cases e
        | list e => rw [ha] at e; cases e
        | tuple e => rw [ha] at e; cases e
        | dict e => rw [ha] at e; cases e
      · intro hl
        refine .record ha hb (hi.trans hj.symm) fun k x y hk hx' hy => ?_
        obtain ⟨v, w, e1, e2, e3⟩ := hl k (by rw [hi] at hk; exact hk)
        rw [hx'] at e1; rw [hy] at e2; cases e1; cases e2
        exact (C122_tree hN _ _).1 e3
    rw [this]
    unfold LexLe
    rw [hsy]
    grind
  · rintro a b op ⟨i, ha, hi, di⟩ ⟨j, hb, hj, dj⟩
    rw [hO.records op a b i j ha hb]
    obtain ⟨r, h1, h2⟩ := compare_same (E := E) ho (hi.trans hcid.symm) (hj.trans hcid.symm) hs' hF di dj op
    refine ⟨r, by rw [hi, hj]; exact h1, ?_⟩
    rw [h2]
    have tri := lex_trichotomy hF di dj
    have hsy : LexEq (orderNames (cls c)) j i ↔ LexEq (orderNames (cls c)) i j := ⟨lexEq_symm hF dj di, lexEq_symm hF di dj⟩
    have e1 := lex ha hb
    have e2 := lex hb ha
    cases op <;> simp only [LexAns, e1, e2, LexLe, hsy] <;> grind

theorem seqIn_cons {D : Nat → W.Obj → Prop} {x : W.Obj} {xs : List W.Obj} (hx : SeqIn D (x :: xs)) :
    D 0 x ∧ SeqIn (fun n => D (n + 1)) xs :=
  ⟨hx 0 x rfl, fun n y hy => hx (n + 1) y hy⟩

theorem seq_total : ∀ {xs ys : List W.Obj} {O : ObjCmp W} {le : Nat → W.Obj → W.Obj → Prop} {D : Nat → W.Obj → Prop},
    (∀ n, TotalOn O (le n) (D n)) → SeqIn D xs → SeqIn D ys → SeqLe le xs ys ∨ SeqLe le ys xs
  | [], _, _, _, _, _, _, _ => .inl trivial
  | _ :: _, [], _, _, _, _, _, _ => .inr trivial
  | x :: xs, y :: ys, O, le, D, hT, hx, hy => by
    obtain ⟨dx, hx⟩ := seqIn_cons hx
    obtain ⟨dy, hy⟩ := seqIn_cons hy
    have t := (hT 0).total dx dy
    have ih := seq_total (fun n => hT (n + 1)) hx hy
    simp only [SeqLe]
    grind

theorem seq_trans : ∀ {xs ys zs : List W.Obj} {O : ObjCmp W} {le : Nat → W.Obj → W.Obj → Prop} {D : Nat → W.Obj → Prop},
    (∀ n, TotalOn O (le n) (D n)) → SeqIn D xs → SeqIn D ys → SeqIn D zs → SeqLe le xs ys → SeqLe le ys zs → SeqLe le xs zs
  | [], _, _, _, _, _, _, _, _, _, _, _ => trivial
  | _ :: _, [], _, _, _, _, _, _, _, _, h, _ => h.elim
  | _ :: _, _ :: _, [], _, _, _, _, _, _, _, _, h => h.elim
  | x :: xs, y :: ys, z :: zs, O, le, D, hT, hx, hy, hz, h1, h2 => by
    obtain ⟨dx, hx⟩ := seqIn_cons hx
    obtain ⟨dy, hy⟩ := seqIn_cons hy
    obtain ⟨dz, hz⟩ := seqIn_cons hz
    obtain ⟨l1, r1⟩ := h1
    obtain ⟨l2, r2⟩ := h2
    refine ⟨(hT 0).trans dx dy dz l1 l2, fun l => ?_⟩
    exact seq_trans (fun n => hT (n + 1)) hx hy hz (r1 ((hT 0).trans dy dz dx l2 l)) (r2 ((hT 0).trans dz dx dy l l1))

theorem seq_eq : ∀ {xs ys : List W.Obj} {O : ObjCmp W} {le : Nat → W.Obj → W.Obj → Prop} {D : Nat → W.Obj → Prop},
    (∀ n, TotalOn O (le n) (D n)) → SeqIn D xs → SeqIn D ys →
    ((SeqLe le xs ys ∧ SeqLe le ys xs) ↔
      xs.length = ys.length ∧ ∀ (n : Nat) x y, xs[n]? = some x → ys[n]? = some y → W.eq x y = true)
  | [], [], _, _, _, _, _, _ => ⟨fun _ => ⟨rfl, fun _ _ _ h => nomatch h⟩, fun _ => ⟨trivial, trivial⟩⟩
  | [], _ :: _, _, _, _, _, _, _ => ⟨fun h => h.2.elim, fun h => nomatch h.1⟩
  | _ :: _, [], _, _, _, _, _, _ => ⟨fun h => h.1.elim, fun h => nomatch h.1⟩
  | x :: xs, y :: ys, O, le, D, hT, hx, hy => by
    obtain ⟨dx, hx⟩ := seqIn_cons hx
    obtain ⟨dy, hy⟩ := seqIn_cons hy
    have ih := seq_eq (fun n => hT (n + 1)) hx hy
    have e := (hT 0).eq dx dy
    constructor
    · rintro ⟨⟨l1, r1⟩, ⟨l2, r2⟩⟩
      obtain ⟨hl, hn⟩ := ih.1 ⟨r1 l2, r2 l1⟩
      refine ⟨by simp [hl], fun n a b ha hb => ?_⟩
      cases n with
      | zero => cases ha; cases hb; exact e.2 ⟨l1, l2⟩
      | succ n => exact hn n a b ha hb
    · rintro ⟨hl, hn⟩
      obtain ⟨l1, l2⟩ := e.1 (hn 0 x y rfl rfl)
      obtain ⟨r1, r2⟩ := ih.2 ⟨by simpa using hl, fun n a b ha hb => hn (n + 1) a b ha hb⟩
      exact ⟨⟨l1, fun _ => r1⟩, ⟨l2, fun _ => r2⟩⟩

theorem seq_ans : ∀ {xs ys : List W.Obj} {O : ObjCmp W} {le : Nat → W.Obj → W.Obj → Prop} {D : Nat → W.Obj → Prop} (op : CmpOp),
    (∀ n, TotalOn O (le n) (D n)) → SeqIn D xs → SeqIn D ys → ∃ r, listCmp O op xs ys = .ok r ∧
      (r = true ↔ match op with
        | .lt => ¬ SeqLe le ys xs | .le => SeqLe le xs ys | .gt => ¬ SeqLe le xs ys | .ge => SeqLe le ys xs)
  | [], [], _, _, _, op, _, _, _ => ⟨_, by rw [listCmp]; nofun, by cases op <;> simp [CmpOp.nat, SeqLe]⟩
  | [], _ :: _, _, _, _, op, _, _, _ => ⟨_, by rw [listCmp]; nofun, by cases op <;> simp [CmpOp.nat, SeqLe]⟩
  | _ :: _, [], _, _, _, op, _, _, _ => ⟨_, by rw [listCmp]; nofun, by cases op <;> simp [CmpOp.nat, SeqLe]⟩
  | x :: xs, y :: ys, O, le, D, op, hT, hx, hy => by
    obtain ⟨dx, hx⟩ := seqIn_cons hx
    obtain ⟨dy, hy⟩ := seqIn_cons hy
    obtain ⟨r, h1, h2⟩ := seq_ans op (fun n => hT (n + 1)) hx hy
    have e := (hT 0).eq dx dy
    have t := (hT 0).total dx dy
    by_cases c : x = y ∨ W.eq x y = true
    · refine ⟨r, by rw [listCmp_eq c]; exact h1, h2.trans ?_⟩
      have : le 0 x y ∧ le 0 y x := by
        rcases c with rfl | c
        · exact ⟨t.elim id id, t.elim id id⟩
        · exact e.1 c
      cases op <;> simp only [SeqLe] <;> grind
    · obtain ⟨r, h1, h2⟩ := (hT 0).ans op dx dy
      refine ⟨r, by rw [listCmp_ne c]; exact h1, h2.trans ?_⟩
      have : ¬ (le 0 x y ∧ le 0 y x) := fun h => c (.inr (e.2 h))
      cases op <;> simp only [SeqLe] <;> grind

/-- sequences, in whatever kind of node they are -/
theorem sequence_total {O : ObjCmp W} {node : List W.Obj → Node W} (inj : ∀ xs ys, node xs = node ys → xs = ys)
    (heq : ∀ a b xs ys, h a = node xs → h b = node ys →
      (W.eq a b = true ↔ xs.length = ys.length ∧ ∀ (n : Nat) x y, xs[n]? = some x → ys[n]? = some y → W.eq x y = true))
    (hc : ∀ op a b xs ys, h a = node xs → h b = node ys → O op a b = listCmp O op xs ys)
    {le : Nat → W.Obj → W.Obj → Prop} {D : Nat → W.Obj → Prop} (hT : ∀ n, TotalOn O (le n) (D n)) :
    TotalOn O (fun a b => ∃ xs ys, h a = node xs ∧ h b = node ys ∧ SeqLe le xs ys) (fun a => ∃ xs, h a = node xs ∧ SeqIn D xs) := by
  have seq : ∀ {a b : W.Obj} {xs ys : List W.Obj}, h a = node xs → h b = node ys →
      ((∃ xs ys, h a = node xs ∧ h b = node ys ∧ SeqLe le xs ys) ↔ SeqLe le xs ys) := by
    intro a b xs ys ha hb
    constructor
    · rintro ⟨xs', ys', e1, e2, hl⟩
      rw [ha] at e1; rw [hb] at e2
      cases inj _ _ e1; cases inj _ _ e2; exact hl
    · exact fun hl => ⟨xs, ys, ha, hb, hl⟩
  refine ⟨?_, ?_, ?_, ?_⟩
  · rintro a b ⟨xs, ha, dx⟩ ⟨ys, hb, dy⟩
    rw [seq ha hb, seq hb ha]
    exact seq_total hT dx dy
  · rintro a b d ⟨xs, ha, dx⟩ ⟨ys, hb, dy⟩ ⟨zs, hd, dz⟩
    rw [seq ha hb, seq hb hd, seq ha hd]
    exact seq_trans hT dx dy dz
  · rintro a b ⟨xs, ha, dx⟩ ⟨ys, hb, dy⟩
    rw [seq ha hb, seq hb ha, seq_eq hT dx dy]
    exact heq a b xs ys ha hb
  · rintro a b op ⟨xs, ha, dx⟩ ⟨ys, hb, dy⟩
    rw [hc op a b xs ys ha hb]
    obtain ⟨r, h1, h2⟩ := seq_ans op hT dx dy
    refine ⟨r, h1, h2.trans ?_⟩
    have e1 := seq ha hb
    have e2 := seq hb ha
    cases op <;> simp only [e1, e2]

theorem list_same (hN : Nested E H cls h) [Nonempty (LState W)] {a b : W.Obj} {xs ys : List W.Obj} (ha : h a = .list xs)
    (hb : h b = .list ys) :
    W.eq a b = true ↔ xs.length = ys.length ∧ ∀ (n : Nat) x y, xs[n]? = some x → ys[n]? = some y → W.eq x y = true := by
  rw [C122_tree hN]
  constructor
  · intro ht
    cases ht with
    | list e1 e2 hl ht =>
      rw [ha] at e1; rw [hb] at e2; cases e1; cases e2
      exact ⟨hl, fun n x y hx hy => (C122_tree hN x y).2 (ht n x y hx hy)⟩
    | leaf e => rw [ha] at e; cases e
    | record e => rw [ha] at e; cases e
    | tuple e => rw [ha] at e; cases e
    | dict e => rw [ha] at e; cases e
  · exact fun ⟨hl, ht⟩ => .list ha hb hl fun n x y hx hy => (C122_tree hN x y).1 (ht n x y hx hy)

theorem tuple_same (hN : Nested E H cls h) [Nonempty (LState W)] {a b : W.Obj} {xs ys : List W.Obj} (ha : h a = .tuple xs)
    (hb : h b = .tuple ys) :
    W.eq a b = true ↔ xs.length = ys.length ∧ ∀ (n : Nat) x y, xs[n]? = some x → ys[n]? = some y → W.eq x y = true := by
  rw [C122_tree hN]
  constructor
  · intro ht
    cases ht with
    | tuple e1 e2 hl ht =>
      rw [ha] at e1; rw [hb] at e2; cases e1; cases e2
      exact ⟨hl, fun n x y hx hy => (C122_tree hN x y).2 (ht n x y hx hy)⟩
    | leaf e => rw [ha] at e; cases e
    | record e => rw [ha] at e; cases e
    | list e => rw [ha] at e; cases e
    | dict e => rw [ha] at e; cases e
  · exact fun ⟨hl, ht⟩ => .tuple ha hb hl fun n x y hx hy => (C122_tree hN x y).1 (ht n x y hx hy)

end NestedLemmas

/-- C123: if objects of the base kinds are totally ordered, records of ordered classes without excluded fields, whose fields hold such
objects, such records in turn, or lists or tuples of them, are totally ordered, to any depth: the operators do not raise, they are the
lexicographic order of the fields and of the elements, and `<=` in both directions is `==`. -/
theorem C123_total (hN : Nested E H cls h) [Nonempty (LState W)] {O : ObjCmp W} (hO : NestedCmp E O cls h) {k : SortKind W}
    (hk : k.OK O cls h) : TotalOn O (k.le cls h) (k.dom cls h) := by
  induction k with
  | base le D => exact hk
  | record c ks ih =>
    obtain ⟨h1, h2, h3, h4, h5⟩ := hk
    exact record_total hN hO h1 h2 h3 h4 fun k hk => ih k (h5 k hk)
  | list ks ih => exact sequence_total (node := .list) (fun _ _ e => by cases e; rfl) (fun _ _ _ _ => list_same hN) hO.lists fun n => ih n (hk n)
  | tuple ks ih => exact sequence_total (node := .tuple) (fun _ _ e => by cases e; rfl) (fun _ _ _ _ => tuple_same hN) hO.tuples fun n => ih n (hk n)

end Records

/-! ### examples -/
namespace Records.Toy.Nest

/-- numbers, records of the class `P` (`id` is the identity of the object), and pairs of them -/
inductive F
  | int (i : Int)
  | p (id : Nat) (x e : F)
  | tup (id : Nat) (x y : F)
  deriving DecidableEq, Repr

/-- all those, records of the class `Q`, lists of two elements and dicts with the keys `x` and `y` -/
inductive NObj
  | fr (f : F)
  | q (id : Nat) (x y : NObj)
  | lst (id : Nat) (x y : NObj)
  | dct (id : Nat) (x y : NObj)
  deriving DecidableEq, Repr

def F.eq : F → F → Bool
  | .int i, .int j => i = j
  | .p _ x e, .p _ x' e' => F.eq x x' && F.eq e e'
  | .tup _ x e, .tup _ x' e' => F.eq x x' && F.eq e e'
  | _, _ => false

def NObj.eq : NObj → NObj → Bool
  | .fr f, .fr g => F.eq f g
  | .q _ x y, .q _ x' y' => NObj.eq x x' && NObj.eq y y'
  | .lst _ x y, .lst _ x' y' => NObj.eq x x' && NObj.eq y y'
  | .dct _ x y, .dct _ x' y' => NObj.eq x x' && NObj.eq y y'
  | _, _ => false

def F.hash : F → Int
  | .int i => i
  | .p _ x e => 31 * F.hash x + F.hash e
  | .tup _ x e => 31 * F.hash x + F.hash e

/-- the world of these objects -/
def NW : World where
  Obj := NObj
  Cls := TCls
  St := List Nat
  decObj := inferInstance
  decCls := inferInstance
  objectCls := .object
  boolCls := .bool
  noneCls := .none
  ellipsisCls := .ellipsis
  typeCls := .type
  tupleCls := .tuple
  typeOf v := match v with
    | .fr (.int _) => .int
    | .fr (.p _ _ _) => .record 0
    | .fr (.tup _ _ _) => .tuple
    | .q _ _ _ => .record 1
    | .lst _ _ _ => .list
    | .dct _ _ _ => .dict
  isSub c d := c = d || d = .object
  isAbstract _ := false
  isNone _ := false
  isEllipsis _ := false
  isCallable _ := false
  eq := NObj.eq
  truthy _ := true
  hashable v := match v with | .fr _ => true | _ => false
  asClass _ := none
  strOf _ := none
  isIterable _ := false
  isMapping _ := false
  elems _ := []
  items _ := []
  bool b := .fr (.int (if b then 1 else 0))
  zero := .fr (.int 0)
  one := .fr (.int 1)
  mkIter _ _ s := (.error .typeError, s)
  drains _ := true
  maxlen v := v
  mkDeque _ _ _ s := (.error .typeError, s)
  mkMap _ _ s := (.error .typeError, s)
  defaultFactory v := v
  mkDefaultDict _ _ _ s := (.error .typeError, s)
  construct _ _ _ s := (.error .typeError, s)

def s0 : LState NW := ⟨([] : List Nat), fun _ => []⟩

instance : Nonempty (LState NW) := ⟨s0⟩

def env : Env NW where
  getattr _ _ := M.throw .attributeError
  clsAttr _ _ := none
  chainView _ := M.throw .typeError
  starView _ := M.throw .typeError
  dictView _ := M.throw .typeError
  jsonLoads _ _ := M.throw .valueError
  rewrap _ := .ok
  setOrder := id
  setOrder_perm _ := .refl _

def hasher : Hasher NW where
  obj v := match v with | NObj.fr f => f.hash | _ => 0
  tuple l := match l with | [a, b] => 31 * a + b | _ => 0

/-- `class P(RecordBase, frozen=True, ordered=True): x: object; e: Annotated[object, exclude_from_ordering]` -/
def spP : ClassSpec NW :=
  { cid := .record 0, frozen := true, ordered := true,
    anns := [("x", .plain (.cls .object)), ("e", .plain (.annotated (.cls .object) [.tag excludeTag]))] }

/-- `class Q(RecordBase, ordered=True): x: object; y: object` -/
def spQ : ClassSpec NW :=
  { cid := .record 1, ordered := true, anns := [("x", .plain (.cls .object)), ("y", .plain (.cls .object))] }

/-- a dummy -/
def noClass : RecClass NW :=
  { cid := .object, fields := [], isFieldDict := true, required := [], optional := [], style := .hollow, frozen := false,
    unary := false, ordered := false, parsers := [], postNew := fun i => M.pure (i, none), truthy := fun _ => true }

def clsOf (sp : ClassSpec NW) : RecClass NW := match mkClass sp with | .ok C => C | .error _ => noClass

def P : RecClass NW := clsOf spP
def Q : RecClass NW := clsOf spQ

theorem P_creatable : Creatable P := .intro spP P ⟨by decide, by decide, nofun⟩ nofun rfl
theorem Q_creatable : Creatable Q := .intro spQ Q ⟨by decide, by decide, nofun⟩ nofun rfl

def cls (c : TCls) : RecClass NW := if c = .record 0 then P else Q

def instP (x e : F) : Inst NW := { cid := .record 0, dict := [("x", NObj.fr x), ("e", NObj.fr e)], hash := some none }
def instQ (x y : NObj) : Inst NW := { cid := .record 1, dict := [("x", x), ("y", y)], hash := none }

def heap : NObj → Node NW
  | .fr (.int _) => .atom
  | .fr (.p _ x e) => .record (instP x e)
  | .fr (.tup _ x y) => .tuple [NObj.fr x, NObj.fr y]
  | .q _ x y => .record (instQ x y)
  | .lst _ x y => .list [x, y]
  | .dct _ x y => .dict [("x", x), ("y", y)]

def F.size : F → Nat
  | .int _ => 0
  | .p _ x e => x.size + e.size + 1
  | .tup _ x e => x.size + e.size + 1

def NObj.size : NObj → Nat
  | .fr f => f.size
  | .q _ x y => x.size + y.size + 1
  | .lst _ x y => x.size + y.size + 1
  | .dct _ x y => x.size + y.size + 1

theorem F.eq_refl (f : F) : f.eq f = true := by
  induction f with
  | int i => simp [F.eq]
  | p _ x e h1 h2 => simp [F.eq, h1, h2]
  | tup _ x e h1 h2 => simp [F.eq, h1, h2]

theorem NObj.eq_refl (a : NObj) : a.eq a = true := by
  induction a with
  | fr f => exact f.eq_refl
  | q _ x e h1 h2 => simp [NObj.eq, h1, h2]
  | lst _ x e h1 h2 => simp [NObj.eq, h1, h2]
  | dct _ x e h1 h2 => simp [NObj.eq, h1, h2]

theorem F.eq_hash (f : F) : ∀ g, f.eq g = true → f.hash = g.hash := by
  induction f with
  | int i => intro g h; cases g <;> simp_all [F.eq, F.hash]
  | p _ x e h1 h2 =>
    intro g h
    cases g with
    | p _ x' e' => simp only [F.eq, Bool.and_eq_true] at h; simp only [F.hash, h1 _ h.1, h2 _ h.2]
    | _ => simp [F.eq] at h
  | tup _ x e h1 h2 =>
    intro g h
    cases g with
    | tup _ x' e' => simp only [F.eq, Bool.and_eq_true] at h; simp only [F.hash, h1 _ h.1, h2 _ h.2]
    | _ => simp [F.eq] at h

theorem same_item (x y : NObj) : sameItem (W := NW) x y = NObj.eq x y := by
  unfold sameItem
  by_cases h : x = y
  · subst h; show (_ || NObj.eq x x) = _; rw [NObj.eq_refl]; simp
  · show (decide (x = y) || NObj.eq x y) = _; simp [h]

theorem P_proper (x e : F) : Proper hasher P (instP x e) := by
  refine ⟨rfl, fun _ h => h, fun _ kv hkv => ?_, fun _ => .inl rfl⟩
  have : shown P (instP x e) = [("x", NObj.fr x), ("e", NObj.fr e)] := rfl
  rw [this] at hkv
  rcases hkv with _ | ⟨_, _ | ⟨_, h⟩⟩
  · rfl
  · rfl
  · cases h

theorem Q_proper (x y : NObj) : Proper hasher Q (instQ x y) := ⟨rfl, fun _ h => h, nofun, nofun⟩

theorem P_same (x e x' e' : F) : SameFields P (instP x e) (instP x' e') ↔ (F.eq x x' && F.eq e e') = true := by
  rw [Bool.and_eq_true]
  constructor
  · intro h
    obtain ⟨_, _, e1, e2, h1⟩ := h "x" (.head _)
    obtain ⟨_, _, e3, e4, h2⟩ := h "e" (.tail _ (.head _))
    cases e1; cases e2; cases e3; cases e4
    exact ⟨h1, h2⟩
  · rintro ⟨h1, h2⟩ k hk
    rcases hk with _ | ⟨_, _ | ⟨_, h⟩⟩
    · exact ⟨_, _, rfl, rfl, h1⟩
    · exact ⟨_, _, rfl, rfl, h2⟩
    · cases h

theorem Q_same (x e x' e' : NObj) : SameFields Q (instQ x e) (instQ x' e') ↔ (NObj.eq x x' && NObj.eq e e') = true := by
  rw [Bool.and_eq_true]
  constructor
  · intro h
    obtain ⟨_, _, e1, e2, h1⟩ := h "x" (.head _)
    obtain ⟨_, _, e3, e4, h2⟩ := h "y" (.tail _ (.head _))
    cases e1; cases e2; cases e3; cases e4
    exact ⟨h1, h2⟩
  · rintro ⟨h1, h2⟩ k hk
    rcases hk with _ | ⟨_, _ | ⟨_, h⟩⟩
    · exact ⟨_, _, rfl, rfl, h1⟩
    · exact ⟨_, _, rfl, rfl, h2⟩
    · cases h

theorem world_eq (a b : NObj) (s : LState NW) (r : Bool) (h : nodeEq env hasher cls s (heap a) (heap b) = some (.ok r)) :
    NObj.eq a b = r := by
  have seq2 : ∀ x y x' y' : NObj, seqEq (W := NW) [x, y] [x', y'] = (NObj.eq x x' && NObj.eq y y') := by
    intro x y x' y'
    show (sameItem (W := NW) x x' && (sameItem (W := NW) y y' && true)) = _
    rw [same_item, same_item, Bool.and_true]
  have dict2 : ∀ x y x' y' : NObj, dictEq (W := NW) [("x", x), ("y", y)] [("x", x'), ("y", y')] = (NObj.eq x x' && NObj.eq y y') := by
    intro x y x' y'
    show (true && (sameItem (W := NW) x x' && (sameItem (W := NW) y y' && true))) = _
    rw [same_item, same_item, Bool.and_true, Bool.true_and]
  have recP : ∀ x e x' e' : F, (eqInst env hasher P (instP x e) (instP x' e') s).1 = .ok r → (F.eq x x' && F.eq e e') = r := by
    intro x e x' e' he
    obtain ⟨r', h1, h2⟩ := NestedLemmas.record_eq (E := env) (cls := cls) (i := instP x e) (j := instP x' e') P_creatable
      (P_proper x e) (P_proper x' e') s
    have h1 : (eqInst env hasher P (instP x e) (instP x' e') s).1 = .ok r' := h1
    rw [h1] at he
    cases he
    have h2 : r = true ↔ _ ∧ SameFields P (instP x e) (instP x' e') ∧ _ := h2
    rw [P_same] at h2
    rw [Bool.eq_iff_iff, h2]
    refine ⟨fun h => ⟨rfl, h, fun _ => ?_⟩, fun h => h.2.1⟩
    rw [Bool.and_eq_true] at h
    show 31 * F.hash x + F.hash e = 31 * F.hash x' + F.hash e'
    rw [F.eq_hash _ _ h.1, F.eq_hash _ _ h.2]
  have recQ : ∀ x e x' e' : NObj, (eqInst env hasher Q (instQ x e) (instQ x' e') s).1 = .ok r → (NObj.eq x x' && NObj.eq e e') = r := by
    intro x e x' e' he
    obtain ⟨r', h1, h2⟩ := NestedLemmas.record_eq (E := env) (cls := cls) (i := instQ x e) (j := instQ x' e') Q_creatable
      (Q_proper x e) (Q_proper x' e') s
    have h1 : (eqInst env hasher Q (instQ x e) (instQ x' e') s).1 = .ok r' := h1
    rw [h1] at he
    cases he
    have h2 : r = true ↔ _ ∧ SameFields Q (instQ x e) (instQ x' e') ∧ _ := h2
    rw [Q_same] at h2
    rw [Bool.eq_iff_iff, h2]
    exact ⟨fun h => ⟨rfl, h, nofun⟩, fun h => h.2.1⟩
  cases a with
  | fr f => cases b with
    | fr g => cases f with
      | int i => cases g with
        | int j => cases h
        | _ => injection h with h; injection h
      | p _ x e => cases g with
        | p _ x' e' => injection h with h; exact recP _ _ _ _ h
        | _ => injection h with h; injection h
      | tup _ x e => cases g with
        | tup _ x' e' => injection h with h; injection h with h; rw [seq2] at h; exact h
        | _ => injection h with h; injection h
    | q _ x y => cases f with
      | p _ x' e' => injection h with h; injection h
      | _ => injection h with h; injection h
    | _ => cases f <;> (injection h with h; injection h)
  | q _ x y => cases b with
    | fr g => cases g <;> (injection h with h; injection h)
    | q _ x' y' => injection h with h; exact recQ _ _ _ _ h
    | _ => injection h with h; injection h
  | lst _ x y => cases b with
    | fr g => cases g <;> (injection h with h; injection h)
    | lst _ x' y' => injection h with h; injection h with h; rw [seq2] at h; exact h
    | _ => injection h with h; injection h
  | dct _ x y => cases b with
    | fr g => cases g <;> (injection h with h; injection h)
    | dct _ x' y' => injection h with h; injection h with h; rw [dict2] at h; exact h
    | _ => injection h with h; injection h

theorem nested : Nested env hasher cls heap where
  eq := world_eq
  hash a s r h := by
    cases a with
    | fr f => cases f with
      | int i => cases h
      | p _ x e => injection h with h; subst h; exact ⟨⟨fun _ => ⟨_, rfl⟩, fun _ => rfl⟩, fun n hn => by injection hn⟩
      | tup _ x e => injection h with h; subst h; exact ⟨⟨fun _ => ⟨_, rfl⟩, fun _ => rfl⟩, fun n hn => by injection hn⟩
    | q _ x y => injection h with h; subst h; exact ⟨⟨nofun, fun ⟨_, h⟩ => nomatch h⟩, nofun⟩
    | lst _ x y => injection h with h; subst h; exact ⟨⟨nofun, fun ⟨_, h⟩ => nomatch h⟩, nofun⟩
    | dct _ x y => injection h with h; subst h; exact ⟨⟨nofun, fun ⟨_, h⟩ => nomatch h⟩, nofun⟩
  refl a _ := NObj.eq_refl a
  symm a b ha hb h := by
    rcases a with ⟨⟨i⟩ | _ | _⟩ | _ | _ | _ <;> try cases ha
    rcases b with ⟨⟨j⟩ | _ | _⟩ | _ | _ | _ <;> try cases hb
    have h : decide (i = j) = true := h
    show decide (j = i) = true
    simp at h ⊢; exact h.symm
  trans a b c ha hb hc h h' := by
    rcases a with ⟨⟨i⟩ | _ | _⟩ | _ | _ | _ <;> try cases ha
    rcases b with ⟨⟨j⟩ | _ | _⟩ | _ | _ | _ <;> try cases hb
    rcases c with ⟨⟨k⟩ | _ | _⟩ | _ | _ | _ <;> try cases hc
    have h : decide (i = j) = true := h
    have h' : decide (j = k) = true := h'
    show decide (i = k) = true
    simp at h h' ⊢; exact h.trans h'
  contract a b ha hb h _ _ := by
    rcases a with ⟨⟨i⟩ | _ | _⟩ | _ | _ | _ <;> try cases ha
    rcases b with ⟨⟨j⟩ | _ | _⟩ | _ | _ | _ <;> try cases hb
    have h : decide (i = j) = true := h
    show i = j
    simpa using h
  records a i h := by
    rcases a with ⟨_ | _ | _⟩ | _ | _ | _ <;> try cases h
    · exact ⟨P_creatable, P_proper _ _⟩
    · exact ⟨Q_creatable, Q_proper _ _⟩
  dicts a m h := by
    rcases a with ⟨_ | _ | _⟩ | _ | _ | _ <;> try cases h
    show ["x", "y"].Nodup
    decide
  depth := by
    refine ⟨NObj.size, fun a c hc => ?_⟩
    have two : ∀ x y : NObj, c ∈ [x, y] → c.size < x.size + y.size + 1 := by
      intro x y h
      rcases h with _ | ⟨_, _ | ⟨_, h⟩⟩
      · omega
      · omega
      · cases h
    rcases a with ⟨_ | _ | _⟩ | _ | _ | _
    · cases hc
    · exact two _ _ hc
    · exact two _ _ hc
    · exact two _ _ hc
    · exact two _ _ hc
    · exact two _ _ hc

/-- `Q([P(1, 2), P(1, 2)], {'x': (P(1, 2), 3), 'y': 4})`, as two different objects -/
def obj (n : Nat) : NObj :=
  .q n (.lst (n + 1) (.fr (.p (n + 2) (.int 1) (.int 2))) (.fr (.p (n + 3) (.int 1) (.int 2))))
    (.dct (n + 4) (.fr (.tup (n + 5) (.p (n + 6) (.int 1) (.int 2)) (.int 3))) (.fr (.int 4)))

example := C122_equivalence nested
example : SameTree (W := NW) cls heap (obj 0) (obj 10) := (C122_tree nested _ _).1 rfl
example : ¬ SameTree (W := NW) cls heap (obj 0) (NObj.q 20 (.fr (.int 1)) (.fr (.int 2))) := fun h =>
  absurd ((C122_tree nested _ _).2 h) (by show ¬ (false = true); decide)
example : HashableTree (W := NW) cls heap (NObj.fr (.p 0 (.p 1 (.int 1) (.int 2)) (.int 2))) := (C122_hashable nested _).1 rfl
example : ¬ HashableTree (W := NW) cls heap (obj 0) := fun h => absurd ((C122_hashable nested _).2 h) (by show ¬ (false = true); decide)
example := C122_hash nested (a := NObj.fr (.p 0 (.p 1 (.int 1) (.int 2)) (.int 2))) (b := NObj.fr (.p 7 (.p 8 (.int 1) (.int 2)) (.int 2)))
  ((C122_tree nested _ _).1 rfl) ((C122_hashable nested _).1 rfl) ((C122_hashable nested _).1 rfl)

/-! C123 -/

def cmpNum (op : CmpOp) (i j : Int) : Bool := match op with
  | .lt => decide (i < j) | .le => decide (i ≤ j) | .gt => decide (j < i) | .ge => decide (j ≤ i)

def F.cmp (op : CmpOp) : F → F → Except Exc Bool
  | .int i, .int j => .ok (cmpNum op i j)
  | .p _ x _, .p _ x' _ => if F.eq x x' = true then .ok (op.nat 0 0) else F.cmp op x x'
  | .tup _ x y, .tup _ x' y' =>
    if F.eq x x' = true then if F.eq y y' = true then .ok (op.nat 0 0) else F.cmp op y y' else F.cmp op x x'
  | _, _ => .error .typeError

def NObj.cmp (op : CmpOp) : NObj → NObj → Except Exc Bool
  | .fr f, .fr g => F.cmp op f g
  | .q _ x y, .q _ x' y' =>
    if NObj.eq x x' = true then if NObj.eq y y' = true then .ok (op.nat 0 0) else NObj.cmp op y y' else NObj.cmp op x x'
  | .lst _ x y, .lst _ x' y' =>
    if NObj.eq x x' = true then if NObj.eq y y' = true then .ok (op.nat 0 0) else NObj.cmp op y y' else NObj.cmp op x x'
  | _, _ => .error .typeError

def O : ObjCmp NW := NObj.cmp

theorem item (x y : NObj) : (x = y ∨ NW.eq x y = true) ↔ NObj.eq x y = true :=
  ⟨fun h => h.elim (fun e => e ▸ NObj.eq_refl x) id, .inr⟩

theorem compareP (op : CmpOp) (x e x' e' : F) : compare env O op P (instP x e) P (instP x' e') =
    if F.eq x x' = true then .ok (op.nat 0 0) else F.cmp op x x' := by
  have key : cmpMethod env O op P (instP x e) P (instP x' e') =
      Except.map some (listCmp (W := NW) O op [NObj.fr x] [NObj.fr x']) := rfl
  have e1 : listCmp (W := NW) O op [NObj.fr x] [NObj.fr x'] = if F.eq x x' = true then .ok (op.nat 0 0) else F.cmp op x x' := by
    by_cases h : F.eq x x' = true
    · rw [if_pos h]; exact NestedLemmas.listCmp_eq (W := NW) ((item (.fr x) (.fr x')).2 h)
    · rw [if_neg h]; exact NestedLemmas.listCmp_ne (W := NW) fun h' => h ((item (.fr x) (.fr x')).1 h')
  unfold compare
  rw [if_neg (by rintro ⟨h, _⟩; exact h rfl), key, e1]
  generalize (if F.eq x x' = true then (Except.ok (op.nat 0 0) : Except Exc Bool) else F.cmp op x x') = r
  cases r <;> rfl

theorem listCmp_two (op : CmpOp) (x y x' y' : NObj) : listCmp (W := NW) O op [x, y] [x', y'] =
    if NObj.eq x x' = true then if NObj.eq y y' = true then .ok (op.nat 0 0) else NObj.cmp op y y' else NObj.cmp op x x' := by
  by_cases h : NObj.eq x x' = true
  · rw [if_pos h]
    refine (NestedLemmas.listCmp_eq (W := NW) ((item x x').2 h)).trans ?_
    by_cases h : NObj.eq y y' = true
    · rw [if_pos h]; exact NestedLemmas.listCmp_eq (W := NW) ((item y y').2 h)
    · rw [if_neg h]; exact NestedLemmas.listCmp_ne (W := NW) fun h' => h ((item y y').1 h')
  · rw [if_neg h]; exact NestedLemmas.listCmp_ne (W := NW) fun h' => h ((item x x').1 h')

theorem compareQ (op : CmpOp) (x y x' y' : NObj) : compare env O op Q (instQ x y) Q (instQ x' y') =
    if NObj.eq x x' = true then if NObj.eq y y' = true then .ok (op.nat 0 0) else NObj.cmp op y y' else NObj.cmp op x x' := by
  have key : cmpMethod env O op Q (instQ x y) Q (instQ x' y') = Except.map some (listCmp (W := NW) O op [x, y] [x', y']) := rfl
  unfold compare
  rw [if_neg (by rintro ⟨h, _⟩; exact h rfl), key, listCmp_two]
  generalize (if NObj.eq x x' = true then if NObj.eq y y' = true then (Except.ok (op.nat 0 0) : Except Exc Bool) else NObj.cmp op y y'
    else NObj.cmp op x x') = r
  cases r <;> rfl

theorem nestedCmp : NestedCmp env O cls heap := by
  refine ⟨?_, ?_, ?_⟩
  rotate_left
  · intro op a b xs ys ha hb
    rcases a with ⟨_ | _ | _⟩ | _ | ⟨_, x, y⟩ | _ <;> try cases ha
    rcases b with ⟨_ | _ | _⟩ | _ | ⟨_, x', y'⟩ | _ <;> try cases hb
    exact (listCmp_two op x y x' y').symm
  · intro op a b xs ys ha hb
    rcases a with ⟨_ | _ | ⟨_, x, y⟩⟩ | _ | _ | _ <;> try cases ha
    rcases b with ⟨_ | _ | ⟨_, x', y'⟩⟩ | _ | _ | _ <;> try cases hb
    exact (listCmp_two op (.fr x) (.fr y) (.fr x') (.fr y')).symm
  intro op a b i j ha hb
  rcases a with ⟨_ | ⟨_, x, e⟩ | _⟩ | ⟨_, x, e⟩ | _ | _ <;> try cases ha
  · rcases b with ⟨_ | ⟨_, x', e'⟩ | _⟩ | ⟨_, x', e'⟩ | _ | _ <;> try cases hb
    · exact (compareP op x e x' e').symm
    · cases op <;> rfl
  · rcases b with ⟨_ | ⟨_, x', e'⟩ | _⟩ | ⟨_, x', e'⟩ | _ | _ <;> try cases hb
    · cases op <;> rfl
    · exact (compareQ op x e x' e').symm

/-- numbers -/
def ints : SortKind NW := .base (fun a b => ∃ i j, a = NObj.fr (.int i) ∧ b = NObj.fr (.int j) ∧ i ≤ j) fun a => ∃ i, a = NObj.fr (.int i)

theorem ints_total : TotalOn O (ints.le cls heap) (ints.dom cls heap) where
  total := by
    rintro _ _ ⟨i, rfl⟩ ⟨j, rfl⟩
    rcases Int.le_total i j with h | h
    · exact .inl ⟨i, j, rfl, rfl, h⟩
    · exact .inr ⟨j, i, rfl, rfl, h⟩
  trans := by
    rintro _ _ _ ⟨i, rfl⟩ ⟨j, rfl⟩ ⟨k, rfl⟩ ⟨_, _, e1, e2, h1⟩ ⟨_, _, e3, e4, h2⟩
    cases e1; cases e2; cases e3; cases e4
    exact ⟨i, k, rfl, rfl, Int.le_trans h1 h2⟩
  eq := by
    rintro _ _ ⟨i, rfl⟩ ⟨j, rfl⟩
    show decide (i = j) = true ↔ _
    rw [decide_eq_true_eq]
    constructor
    · rintro rfl; exact ⟨⟨i, i, rfl, rfl, Int.le_refl _⟩, ⟨i, i, rfl, rfl, Int.le_refl _⟩⟩
    · rintro ⟨⟨_, _, e1, e2, h1⟩, ⟨_, _, e3, e4, h2⟩⟩
      cases e1; cases e2; cases e3; cases e4
      omega
  ans := by
    rintro _ _ op ⟨i, rfl⟩ ⟨j, rfl⟩
    refine ⟨cmpNum op i j, rfl, ?_⟩
    have key : ∀ i j : Int, ints.le cls heap (NObj.fr (.int i)) (NObj.fr (.int j)) ↔ i ≤ j := by
      intro i j
      constructor
      · rintro ⟨_, _, e1, e2, h1⟩; cases e1; cases e2; exact h1
      · intro h; exact ⟨i, j, rfl, rfl, h⟩
    cases op <;> simp only [key, cmpNum, decide_eq_true_eq] <;> omega

/-- `Q(x=Q(x=<int>, y=<int>), y=<int>)` -/
def kind : SortKind NW := .record (.record 1) fun k => if k = "x" then .record (.record 1) fun _ => ints else ints

theorem Q_plain : ∀ kf ∈ Q.fields, excludeTag ∉ kf.2.tags := by
  intro kf hkf
  rcases hkf with _ | ⟨_, _ | ⟨_, h⟩⟩
  · exact nofun
  · exact nofun
  · cases h

theorem kind_ok : kind.OK O cls heap := by
  refine ⟨rfl, rfl, rfl, Q_plain, fun k _ => ?_⟩
  show SortKind.OK O cls heap (if k = "x" then .record (.record 1) fun _ => ints else ints)
  by_cases h : k = "x"
  · rw [if_pos h]
    exact ⟨rfl, rfl, rfl, Q_plain, fun _ _ => ints_total⟩
  · rw [if_neg h]
    exact ints_total

example := C123_total nested nestedCmp kind_ok

/-- `[<record of the kind above>, (<int>, <int>), ...]` in a field: `Q(x=[Q(...), (1, 2)], y=<int>)` -/
def kind2 : SortKind NW := .record (.record 1) fun k => if k = "x" then .list fun n => if n = 0 then kind else .tuple fun _ => ints else ints

theorem kind2_ok : kind2.OK O cls heap := by
  refine ⟨rfl, rfl, rfl, Q_plain, fun k _ => ?_⟩
  show SortKind.OK O cls heap (if k = "x" then .list fun n => if n = 0 then kind else .tuple fun _ => ints else ints)
  by_cases h : k = "x"
  · rw [if_pos h]
    intro n
    show SortKind.OK O cls heap (if n = 0 then kind else .tuple fun _ => ints)
    by_cases h : n = 0
    · rw [if_pos h]; exact kind_ok
    · rw [if_neg h]; exact fun _ => ints_total
  · rw [if_neg h]
    exact ints_total

example := C123_total nested nestedCmp kind2_ok

/-- `Q(x=Q(x=a, y=b), y=c)` -/
def two (n : Nat) (a b c : Int) : NObj := .q n (.q (n + 1) (.fr (.int a)) (.fr (.int b))) (.fr (.int c))

example : O .lt (two 0 1 2 9) (two 2 1 3 0) = .ok true := rfl

/-- `Q(x=[Q(x=Q(x=1, y=2), y=9), (a, b)], y=c)` -/
def three (n : Nat) (a b c : Int) : NObj := .q n (.lst (n + 1) (two (n + 2) 1 2 9) (.fr (.tup (n + 4) (.int a) (.int b)))) (.fr (.int c))

example : O .lt (three 0 1 2 9) (three 5 1 3 0) = .ok true := rfl

/-- `Q(x=P(x=a, e=b), y=c)` -/
def bad (n : Nat) (a b c : Int) : NObj := .q n (.fr (.p (n + 1) (.int a) (.int b))) (.fr (.int c))

theorem bad_cycle : O .le (bad 0 0 1 1) (bad 2 0 2 0) = .ok true ∧ O .le (bad 2 0 2 0) (bad 4 0 1 0) = .ok true ∧
    O .le (bad 0 0 1 1) (bad 4 0 1 0) = .ok false := ⟨rfl, rfl, rfl⟩

end Records.Toy.Nest

namespace Records

/-- C123 (what fails): `<=` of an ordered class need not be transitive if a field holds records of an ordered class in which a field is
excluded from the ordering. -/
theorem C123_refuted_transitive : ∃ (W : World) (E : Env W) (H : Hasher W) (O : ObjCmp W) (cls : W.Cls → RecClass W) (h : W.Obj → Node W)
    (a b c : W.Obj) (i j k : Inst W), Nested E H cls h ∧ NestedCmp E O cls h ∧ h a = .record i ∧ h b = .record j ∧ h c = .record k ∧
      i.cid = j.cid ∧ j.cid = k.cid ∧ (cls i.cid).ordered = true ∧
      O .le a b = .ok true ∧ O .le b c = .ok true ∧ O .le a c = .ok false :=
  ⟨Toy.Nest.NW, Toy.Nest.env, Toy.Nest.hasher, Toy.Nest.O, Toy.Nest.cls, Toy.Nest.heap, Toy.Nest.bad 0 0 1 1, Toy.Nest.bad 2 0 2 0,
    Toy.Nest.bad 4 0 1 0, _, _, _, Toy.Nest.nested, Toy.Nest.nestedCmp, rfl, rfl, rfl, rfl, rfl, rfl, Toy.Nest.bad_cycle⟩

end Records
