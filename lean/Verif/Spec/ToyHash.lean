import Verif.Spec.Instance
import Verif.Spec.ToyEnv
/-
Hashing and ordering in the concrete world.
-/
namespace Records.Toy

theorem eq_cases {a b : TObj} : eq a b = true ↔ (∃ i, num a = some i ∧ num b = some i) ∨ (num a = Option.none ∧ a = b) := by
  unfold eq
  cases ha : num a with
  | none =>
    simp only [decide_eq_true_eq]
    constructor
    · intro h; exact .inr ⟨trivial, h⟩
    · rintro (⟨i, h, _⟩ | ⟨_, h⟩)
      · cases h
      · exact h
  | some i => cases hb : num b with
    | none =>
      simp only [decide_eq_true_eq]
      constructor
      · intro h; rw [h, hb] at ha; cases ha
      · rintro (⟨i, _, h⟩ | ⟨h, _⟩) <;> cases h
    | some j =>
      simp only [decide_eq_true_eq]
      constructor
      · intro h; exact .inl ⟨i, rfl, by rw [h]⟩
      · rintro (⟨k, h1, h2⟩ | ⟨h, _⟩)
        · cases h1; cases h2; rfl
        · cases h

theorem eq_refl (a : TObj) : eq a a = true := by
  rw [eq_cases]
  cases h : num a with
  | none => exact .inr ⟨rfl, rfl⟩
  | some i => exact .inl ⟨i, rfl, rfl⟩

theorem eq_symm {a b : TObj} (h : eq a b = true) : eq b a = true := by
  rw [eq_cases] at *
  rcases h with ⟨i, h1, h2⟩ | ⟨h1, rfl⟩
  · exact .inl ⟨i, h2, h1⟩
  · exact .inr ⟨h1, rfl⟩

theorem eq_trans {a b c : TObj} (h : eq a b = true) (h' : eq b c = true) : eq a c = true := by
  rw [eq_cases] at *
  rcases h with ⟨i, h1, h2⟩ | ⟨h1, rfl⟩
  · rcases h' with ⟨j, h3, h4⟩ | ⟨h3, rfl⟩
    · rw [h2] at h3; cases h3; exact .inl ⟨i, h1, h4⟩
    · exact .inl ⟨i, h1, h2⟩
  · exact h'

theorem eqOK : EqOK W := ⟨eq_refl, eq_symm, eq_trans⟩

/-- numbers hash to themselves, everything else to 7 -/
def hashOf (v : TObj) : Int := match num v with | some i => i | Option.none => 7

theorem hashOf_eq {a b : TObj} (h : eq a b = true) : hashOf a = hashOf b := by
  rw [eq_cases] at h
  unfold hashOf
  rcases h with ⟨i, h1, h2⟩ | ⟨_, rfl⟩
  · rw [h1, h2]
  · rfl

/-- hashing in a process: `seed` is mixed into the hash of tuples -/
def hasher (seed : Int) : Hasher W where
  obj := hashOf
  tuple l := l.foldl (fun acc x => 31 * acc + x) seed

theorem contract (seed : Int) : HashContract (hasher seed) := fun _ _ h _ _ => hashOf_eq h

/-- an instance of `B` -/
def mkB (x y : TObj) (z : String) (h : Option Int := Option.none) : Inst W :=
  { cid := .record 1, dict := [("x", x), ("y", y), ("z", .str z)], hash := some h }

/-- an instance of `A` -/
def mkA (x y : TObj) : Inst W := { cid := .record 0, dict := [("x", x), ("y", y)], hash := Option.none }

theorem mkA_proper (H : Hasher W) (x y : TObj) : Proper H A (mkA x y) :=
  ⟨rfl, fun _ hk => hk, nofun, nofun⟩

theorem mkB_full (x y : TObj) (z : String) (h : Option Int) : Full B (mkB x y z h) := fun _ hk => hk

/-- numbers make a hashable `B` -/
theorem mkB_proper (H : Hasher W) (i j : Int) (z : String) : Proper H B (mkB (.int i) (.int j) z) := by
  refine ⟨rfl, mkB_full _ _ _ _, ?_, fun _ => .inl rfl⟩
  intro _ kv hkv
  unfold shown at hkv
  obtain ⟨kf, hkf, he⟩ := List.mem_filterMap.1 hkv
  have key : ∀ kf : String × Field W, ∀ v, (mkB (.int i) (.int j) z).dict.get? kf.1 = some v → W.hashable v = true := by
    rintro ⟨_, f⟩ v hv
    simp only [mkB, Dict.get?] at hv
    split at hv
    · cases hv; rfl
    · split at hv
      · cases hv; rfl
      · split at hv
        · cases hv; rfl
        · cases hv
  cases hg : (mkB (.int i) (.int j) z).dict.get? kf.1 with
  | none => rw [hg] at he; cases he
  | some v =>
    rw [hg] at he
    simp only at he
    split at he
    · cases he
    · cases he; exact key kf v hg

end Records.Toy
