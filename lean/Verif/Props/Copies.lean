import Verif.Spec.Copies
import Verif.Props.Copying
import Verif.Props.Pickling
import Verif.Props.Nested
/-
C127: copies of nested records are equal to the originals.
-/
namespace Records
variable {W : World} {X : CopyEnv W}

namespace CopiesLemmas
open Copying

theorem child_get {d : Dict W.Obj} {k : String} {v : W.Obj} (h : d.get? k = some v) : v ∈ d.values :=
  List.mem_map.2 ⟨(k, v), Dict.get?_eq_some_mem _ _ _ h, rfl⟩

theorem same_self {cls : W.Cls → RecClass W} {h : W.Obj → Node W} {x : W.Obj} (hg : Grounded h x) (hl : SelfEqual h x) :
    ∀ a, Reaches h x a → SameTree cls h a a := by
  obtain ⟨rank, hr⟩ := hg
  intro a
  induction a using (measure rank).wf.induction with
  | _ a ih =>
  intro ha
  have ih : ∀ c ∈ (h a).children, SameTree cls h c c := fun c hc => ih c (hr a ha c hc) (reaches_trans ha (.step hc (.refl _)))
  have heq : ∀ {x y : W.Obj}, (x : W.Obj) = y → x ∈ (h a).children → SameTree cls h x y := by
    rintro x _ rfl hx
    exact ih x hx
  cases e : h a with
  | atom => exact .leaf e e (hl a ha e)
  | list xs => exact .list e e rfl fun n x y hx hy => heq (Option.some.inj (hx.symm.trans hy)) (by rw [e]; exact List.mem_of_getElem? hx)
  | tuple xs => exact .tuple e e rfl fun n x y hx hy => heq (Option.some.inj (hx.symm.trans hy)) (by rw [e]; exact List.mem_of_getElem? hx)
  | dict m => exact .dict e e (fun _ => .rfl) fun k x y hx hy => heq (Option.some.inj (hx.symm.trans hy)) (by rw [e]; exact child_get hx)
  | record i => exact .record e e rfl fun k x y _ hx hy => heq (Option.some.inj (hx.symm.trans hy)) (by rw [e]; exact child_get hx)

/-- trees stay what they are if their objects do -/
theorem same_frame {cls : W.Cls → RecClass W} {h h' : W.Obj → Node W} {a b : W.Obj} (hs : SameTree cls h a b) :
    (∀ o, Reaches h a o → h' o = h o) → (∀ o, Reaches h b o → h' o = h o) → SameTree cls h' a b := by
  have down : ∀ {a c : W.Obj}, (∀ o, Reaches h a o → h' o = h o) → c ∈ (h a).children → ∀ o, Reaches h c o → h' o = h o :=
    fun ha hc o ho => ha o (.step hc ho)
  induction hs with
  | leaf ha hb he => intro h1 h2; exact .leaf ((h1 _ (.refl _)).trans ha) ((h2 _ (.refl _)).trans hb) he
  | list ha hb hl _ ih =>
    intro h1 h2
    exact .list ((h1 _ (.refl _)).trans ha) ((h2 _ (.refl _)).trans hb) hl fun n x y hx hy =>
      ih n x y hx hy (down h1 (by rw [ha]; exact List.mem_of_getElem? hx)) (down h2 (by rw [hb]; exact List.mem_of_getElem? hy))
  | tuple ha hb hl _ ih =>
    intro h1 h2
    exact .tuple ((h1 _ (.refl _)).trans ha) ((h2 _ (.refl _)).trans hb) hl fun n x y hx hy =>
      ih n x y hx hy (down h1 (by rw [ha]; exact List.mem_of_getElem? hx)) (down h2 (by rw [hb]; exact List.mem_of_getElem? hy))
  | dict ha hb hl _ ih =>
    intro h1 h2
    exact .dict ((h1 _ (.refl _)).trans ha) ((h2 _ (.refl _)).trans hb) hl fun n x y hx hy =>
      ih n x y hx hy (down h1 (by rw [ha]; exact child_get hx)) (down h2 (by rw [hb]; exact child_get hy))
  | record ha hb hl _ ih =>
    intro h1 h2
    exact .record ((h1 _ (.refl _)).trans ha) ((h2 _ (.refl _)).trans hb) hl fun n x y hn hx hy =>
      ih n x y hn hx hy (down h1 (by rw [ha]; exact child_get hx)) (down h2 (by rw [hb]; exact child_get hy))

theorem along_len {α β : Type} {r : α → β → Prop} : ∀ {xs : List α} {ys : List β}, Along r xs ys → xs.length = ys.length
  | [], [], _ => rfl
  | _ :: _, _ :: _, h => by simp [along_len h.2]

theorem along_at {α β : Type} {r : α → β → Prop} : ∀ {xs : List α} {ys : List β}, Along r xs ys → ∀ (n : Nat) x y, xs[n]? = some x →
    ys[n]? = some y → r x y
  | [], [], _, n, x, y, hx, _ => by simp at hx
  | a :: xs, b :: ys, h, 0, x, y, hx, hy => by
    simp at hx hy
    subst hx; subst hy
    exact h.1
  | a :: xs, b :: ys, h, n + 1, x, y, hx, hy => along_at h.2 n x y (by simpa using hx) (by simpa using hy)

theorem along_entry {r : W.Obj → W.Obj → Prop} : ∀ {m m' : Dict W.Obj}, m'.keys = m.keys → Along r m.values m'.values → ∀ k x y,
    m.get? k = some x → m'.get? k = some y → r x y
  | [], [], _, _, k, x, y, hx, _ => by cases hx
  | (k1, v) :: m, (k2, w) :: m', hk, h, k, x, y, hx, hy => by
    have hk' : k2 = k1 ∧ Dict.keys m' = Dict.keys m := by simpa [Dict.keys] using hk
    obtain ⟨rfl, hk'⟩ := hk'
    unfold Dict.get? at hx hy
    by_cases e : k2 = k
    · rw [if_pos e] at hx hy
      cases hx; cases hy
      exact h.1
    · rw [if_neg e] at hx hy
      exact along_entry hk' h.2 k x y hx hy
  | [], _ :: _, hk, _, _, _, _, _, _ => by cases hk
  | _ :: _, [], hk, _, _, _, _, _, _ => by cases hk

end CopiesLemmas

open CopiesLemmas Copying

/-- **C127**: a deep copy is a tree of the same shape as the original, with equal leaves: the two are equal (C122). -/
theorem C127_copy (hX : ∀ j k, X.fresh j = X.fresh k → j = k) {n : Nat} {x y : W.Obj} {σ σ' : CState W} (h0 : σ.memo = [])
    (hs : CopySource X σ x) (ht : ∀ xs, σ.heap x ≠ .tuple xs) (hd : ∀ o, OfDefault X σ.heap x o → ¬ NewObj X σ.next o)
    (hg : Grounded σ.heap x) (hl : SelfEqual σ.heap x) (he : DefaultTrees X σ.heap x) (h : deepcopy X n x σ = (.ok y, σ')) :
    SameTree X.cls σ'.heap x y := by
  obtain ⟨φ, hφ⟩ := C121_copy hX h0 hs ht h
  have hself := same_self (cls := X.cls) hg hl
  have hkept : ∀ a, Reaches σ.heap x a → ∀ o, Reaches σ.heap a o → σ'.heap o = σ.heap o := fun a ha o ho =>
    hφ.kept o (hs.known o (reaches_trans ha ho))
  obtain ⟨rank, hr⟩ := hg
  have key : ∀ a b, φ a b → SameTree X.cls σ'.heap a b := by
    intro a
    induction a using (measure rank).wf.induction with
    | _ a ih =>
    intro b hab
    have ha := hφ.source a b hab
    have ih : ∀ c ∈ (σ.heap a).children, ∀ d, φ c d → SameTree X.cls σ'.heap c d := fun c hc d => ih c (hr a ha c hc) d
    rcases hφ.copy a b hab with ⟨-, rfl⟩ | ⟨-, hc⟩
    · exact same_frame (hself b ha) (hkept b ha) (hkept b ha)
    · have ha' : σ'.heap a = σ.heap a := hkept a ha a (.refl _)
      generalize hu : σ.heap a = u at hc ha' ih
      generalize hv : σ'.heap b = v at hc
      cases hc with
      | list hal => exact .list ha' hv (along_len hal) fun n p q hp hq => ih p (List.mem_of_getElem? hp) q (along_at hal n p q hp hq)
      | tuple hal => exact .tuple ha' hv (along_len hal) fun n p q hp hq => ih p (List.mem_of_getElem? hp) q (along_at hal n p q hp hq)
      | dict hk hal =>
        exact .dict ha' hv (fun k => by show k ∈ Dict.keys _ ↔ k ∈ Dict.keys _; rw [hk]) fun k p q hp hq =>
          ih p (child_get hp) q (along_entry hk hal k p q hp hq)
      | @record i j hij =>
        refine .record ha' hv hij.cls.symm fun k p q _ hp hq => ?_
        obtain ⟨f, v', hkf, hv', hc | ⟨hdef, hw⟩⟩ := hij.values k q (Dict.get?_eq_some_mem _ _ _ hq)
        all_goals
          rw [hp] at hv'
          cases hv'
        · exact ih p (child_get hp) q hc.2
        · obtain ⟨d, hd1, hd2⟩ := hdef
          have e : d = q := by rw [hw] at hd1; cases hd1; rfl
          subst e
          have hpr : Reaches σ.heap x p := reaches_trans ha (.step (by rw [hu]; exact child_get hp) (.refl _))
          exact same_frame (he a i k f p d ha hu hkf hp hd1 hd2) (hkept p hpr) fun o ho =>
            hφ.kept o (hd o ⟨a, i, k, f, p, d, ha, hu, hkf, hp, ⟨d, hd1, hd2⟩, hd1, ho⟩)
  exact key x y hφ.root

/-- **C127**: so is what a pickle is loaded to, in a process (`g`) in which the original still exists. -/
theorem C127_pickle (hX : ∀ j k, X.fresh j = X.fresh k → j = k) {h g : W.Obj → Node W} {n next : Nat} {x y : W.Obj} {t t' : LState W}
    {ops : List (POp W)} {s : LoadState W} (hs : PickleSource X h next x) (hk : ∀ a, Reaches h x a → ¬ NewObj X next a ∧ g a = h a)
    (hg : Grounded h x) (hl : SelfEqual h x) (hd : dumps X h n x t = .ok ops) (hy : loads X ops g next t' = .ok (y, s)) :
    SameTree X.cls s.heap x y := by
  obtain ⟨φ, hφ⟩ := C125_restored hX hs hd hy
  have hkept : ∀ a, Reaches h x a → s.heap a = h a := fun a ha => (hφ.kept a (hk a ha).1).trans (hk a ha).2
  obtain ⟨rank, hr⟩ := hg
  have key : ∀ a b, φ a b → SameTree X.cls s.heap a b := by
    intro a
    induction a using (measure rank).wf.induction with
    | _ a ih =>
    intro b hab
    have ha := (hφ.source a).1 ⟨b, hab⟩
    have ih : ∀ c ∈ (h a).children, ∀ d, φ c d → SameTree X.cls s.heap c d := fun c hc d => ih c (hr a ha c hc) d
    rcases hφ.restored a b hab with ⟨hat, rfl⟩ | ⟨-, hc⟩
    · exact .leaf ((hkept b ha).trans hat) ((hkept b ha).trans hat) (hl b ha hat)
    · have ha' : s.heap a = h a := hkept a ha
      generalize hu : h a = u at hc ha' ih
      generalize hv : s.heap b = v at hc
      cases hc with
      | list hal => exact .list ha' hv (along_len hal) fun n p q hp hq => ih p (List.mem_of_getElem? hp) q (along_at hal n p q hp hq)
      | tuple hal => exact .tuple ha' hv (along_len hal) fun n p q hp hq => ih p (List.mem_of_getElem? hp) q (along_at hal n p q hp hq)
      | dict hk hal =>
        exact .dict ha' hv (fun k => by show k ∈ Dict.keys _ ↔ k ∈ Dict.keys _; rw [hk]) fun k p q hp hq =>
          ih p (child_get hp) q (along_entry hk hal k p q hp hq)
      | @record i j hij =>
        exact .record ha' hv hij.cls.symm fun k p q _ hp hq => ih p (child_get hp) q
          (hij.values k p q (Dict.get?_eq_some_mem _ _ _ hp) (Dict.get?_eq_some_mem _ _ _ hq))
  exact key x y hφ.root

end Records

namespace Records.Toy.Cop
open Toy Copying

theorem two_set (a : TObj) (ha : Reaches (W := W) two (.int 0) a) : twoSet a := reaches_in (W := Toy.W) twoSet two_closed (.inl rfl) ha

theorem two_grounded : Grounded (W := W) two (.int 0) := by
  refine ⟨fun (a : TObj) => if a = TObj.int 0 then 2 else if a = TObj.int 1 ∨ a = TObj.int 2 then 1 else 0, fun a ha c hc => ?_⟩
  rcases two_set a ha with rfl | rfl | rfl | rfl | rfl
  · rcases hc with _ | ⟨_, _ | ⟨_, hc⟩⟩
    · decide
    · decide
    · cases hc
  · rcases hc with _ | ⟨_, _ | ⟨_, hc⟩⟩
    · decide
    · decide
    · cases hc
  · rcases hc with _ | ⟨_, _ | ⟨_, hc⟩⟩
    · decide
    · decide
    · cases hc
  · cases hc
  · cases hc

theorem two_self : SelfEqual (W := W) two (.int 0) := by
  intro a ha _
  rcases two_set a ha with rfl | rfl | rfl | rfl | rfl <;> rfl

theorem two_trees : DefaultTrees X two (.int 0) := by
  intro r i k f v d h1 h2 h3 h4 h5 h6
  have hi : i = mkA (.int 7) (.int 3) := by
    rcases two_set r h1 with rfl | rfl | rfl | rfl | rfl <;> cases h2 <;> rfl
  subst hi
  rcases h3 with _ | ⟨_, _ | ⟨_, h3⟩⟩
  · cases h5
  · cases h5
    cases h4
    exact .leaf rfl rfl rfl
  · cases h3

/-- the copy of two records that share a list is equal to the original -/
example := C127_copy (W := Toy.W) inj (n := 9) (y := .int 100) rfl two_source nofun two_default two_grounded two_self two_trees rfl

theorem two_pickle : PickleSource X two 0 (.int 0) := by
  refine ⟨fun a ha _ => twoSet_old (two_set a ha), fun r i ha hi => ?_, fun r m ha hi => ?_⟩
  · rcases two_set r ha with rfl | rfl | rfl | rfl | rfl <;> cases hi <;> exact Pic.picklable 7 3
  · rcases two_set r ha with rfl | rfl | rfl | rfl | rfl <;> cases hi

def twoEnd' : LoadState W := match Records.loads X Pic.twoOps two 0 s0 with
  | .ok (_, s) => s
  | .error _ => ⟨two, 0, [], [], s0⟩

set_option maxHeartbeats 4000000 in
theorem two_dumps : dumps X two 9 (.int 0) s0 = .ok Pic.twoOps := by with_unfolding_all rfl
set_option maxHeartbeats 4000000 in
theorem two_loads : Records.loads X Pic.twoOps two 0 s0 = .ok (.int 100, twoEnd') := by with_unfolding_all rfl

/-- and so is what its pickle is loaded to -/
example := C127_pickle (W := Toy.W) inj two_pickle (g := two) (fun a ha => ⟨twoSet_old (two_set a ha), rfl⟩) two_grounded two_self two_dumps two_loads

end Records.Toy.Cop
