import Verif.Model.Base
/- Lemmas about the dict model. -/
namespace Records.Dict
variable {V : Type}

@[simp] theorem get?_nil (k : String) : get? ([] : Dict V) k = none := rfl

@[simp] theorem get?_cons (k' : String) (v : V) (d : Dict V) (k : String) :
    get? ((k', v) :: d) k = if k' = k then some v else get? d k := rfl

@[simp] theorem keys_nil : keys ([] : Dict V) = [] := rfl
@[simp] theorem keys_cons (kv : String × V) (d : Dict V) : keys (kv :: d) = kv.1 :: keys d := rfl
@[simp] theorem values_nil : values ([] : Dict V) = [] := rfl
@[simp] theorem values_cons (kv : String × V) (d : Dict V) : values (kv :: d) = kv.2 :: values d := rfl
@[simp] theorem keys_append (d e : Dict V) : keys (d ++ e) = keys d ++ keys e := by simp [keys]
@[simp] theorem values_append (d e : Dict V) : values (d ++ e) = values d ++ values e := by simp [values]

theorem get?_isSome_iff (d : Dict V) (k : String) : (get? d k).isSome = true ↔ k ∈ keys d := by
  induction d with
  | nil => simp
  | cons kv d ih =>
    obtain ⟨k', v⟩ := kv
    simp only [get?_cons, keys_cons, List.mem_cons]
    by_cases h : k' = k
    · simp [h]
    · simp [h, ih, Ne.symm h]

theorem has_iff (d : Dict V) (k : String) : has d k = true ↔ k ∈ keys d := get?_isSome_iff d k

theorem has_eq_false_iff (d : Dict V) (k : String) : has d k = false ↔ k ∉ keys d := by
  rw [← has_iff]; cases has d k <;> simp

theorem get?_eq_none_iff (d : Dict V) (k : String) : get? d k = none ↔ k ∉ keys d := by
  rw [← get?_isSome_iff]; cases get? d k <;> simp

theorem get?_eq_some_mem (d : Dict V) (k : String) (v : V) (h : get? d k = some v) : (k, v) ∈ d := by
  induction d with
  | nil => simp at h
  | cons kv d ih =>
    obtain ⟨k', v'⟩ := kv
    simp only [get?_cons] at h
    by_cases hk : k' = k
    · simp [hk] at h; simp [hk, h]
    · simp [hk] at h; exact List.mem_cons_of_mem _ (ih h)

theorem mem_get? (d : Dict V) (hd : WF d) (k : String) (v : V) (h : (k, v) ∈ d) : get? d k = some v := by
  induction d with
  | nil => simp at h
  | cons kv d ih =>
    obtain ⟨k', v'⟩ := kv
    simp only [WF, keys_cons, List.nodup_cons] at hd
    rcases List.mem_cons.1 h with h | h
    · cases h; simp
    · have : k ∈ keys d := List.mem_map.2 ⟨(k, v), h, rfl⟩
      have hne : k' ≠ k := fun e => hd.1 (e ▸ this)
      simp [hne, ih hd.2 h]

theorem get?_iff_mem (d : Dict V) (hd : WF d) (k : String) (v : V) : get? d k = some v ↔ (k, v) ∈ d :=
  ⟨get?_eq_some_mem d k v, mem_get? d hd k v⟩

theorem keys_mem_of_mem {d : Dict V} {kv : String × V} (h : kv ∈ d) : kv.1 ∈ keys d :=
  List.mem_map.2 ⟨kv, h, rfl⟩

/-! ### set -/

theorem get?_set (d : Dict V) (k k' : String) (v : V) :
    get? (set d k v) k' = if k' = k then some v else get? d k' := by
  induction d with
  | nil => simp only [set, get?_cons, get?_nil]; by_cases h : k = k' <;> simp [h, eq_comm]
  | cons kv d ih =>
    obtain ⟨k0, v0⟩ := kv
    simp only [set]
    by_cases h : k0 = k
    · subst h; simp only [if_true, get?_cons]
      by_cases h2 : k' = k0
      · simp [h2]
      · simp [h2, Ne.symm h2]
    · simp only [if_neg h, get?_cons, ih]
      by_cases h1 : k0 = k'
      · subst h1; simp [h]
      · simp [h1]

theorem set_of_not_mem (d : Dict V) (k : String) (v : V) (h : k ∉ keys d) : set d k v = d ++ [(k, v)] := by
  induction d with
  | nil => rfl
  | cons kv d ih =>
    obtain ⟨k0, v0⟩ := kv
    simp only [keys_cons, List.mem_cons, not_or] at h
    simp [set, Ne.symm h.1, ih h.2]

theorem keys_set_of_mem (d : Dict V) (k : String) (v : V) (h : k ∈ keys d) : keys (set d k v) = keys d := by
  induction d with
  | nil => simp at h
  | cons kv d ih =>
    obtain ⟨k0, v0⟩ := kv
    simp only [set]
    by_cases hk : k0 = k
    · simp [hk]
    · simp only [keys_cons, List.mem_cons] at h
      have : k ∈ keys d := by rcases h with h | h; exact absurd h.symm hk; exact h
      simp [hk, ih this]

theorem mem_keys_set (d : Dict V) (k k' : String) (v : V) : k' ∈ keys (set d k v) ↔ k' = k ∨ k' ∈ keys d := by
  rw [← get?_isSome_iff, get?_set, ← get?_isSome_iff]
  by_cases h : k' = k <;> simp [h]

theorem WF.set {d : Dict V} (hd : WF d) (k : String) (v : V) : WF (set d k v) := by
  by_cases h : k ∈ keys d
  · simp only [WF, keys_set_of_mem d k v h]; exact hd
  · rw [set_of_not_mem d k v h]
    simp only [WF, keys_append, keys_cons, keys_nil, List.nodup_append]
    refine ⟨hd, by simp, ?_⟩
    intro a ha b hb
    simp at hb; subst hb; intro e; exact h (e ▸ ha)

/-! ### erase -/

theorem erase_of_not_mem (d : Dict V) (k : String) (h : k ∉ keys d) : erase d k = d := by
  induction d with
  | nil => rfl
  | cons kv d ih =>
    obtain ⟨k0, v0⟩ := kv
    simp only [keys_cons, List.mem_cons, not_or] at h
    simp [erase, Ne.symm h.1, ih h.2]

theorem erase_eq_filter (d : Dict V) (hd : WF d) (k : String) : erase d k = d.filter (fun kv => kv.1 ≠ k) := by
  induction d with
  | nil => rfl
  | cons kv d ih =>
    obtain ⟨k0, v0⟩ := kv
    simp only [WF, keys_cons, List.nodup_cons] at hd
    simp only [erase]
    by_cases h : k0 = k
    · subst h
      simp only [if_true, ne_eq, decide_not, List.filter_cons, decide_true, Bool.not_true]
      have : d = d.filter (fun kv => !decide (kv.1 = k0)) := by
        symm; rw [List.filter_eq_self]
        intro a ha
        have : a.1 ∈ keys d := keys_mem_of_mem ha
        simp; intro e; exact hd.1 (e ▸ this)
      simpa using this
    · simp [h, ih hd.2]

theorem keys_erase_sublist (d : Dict V) (k : String) : (keys (erase d k)).Sublist (keys d) := by
  induction d with
  | nil => simp [erase]
  | cons kv d ih =>
    obtain ⟨k0, v0⟩ := kv
    simp only [erase]
    by_cases h : k0 = k
    · simp [h]
    · simp [h, ih]

theorem WF.erase {d : Dict V} (hd : WF d) (k : String) : WF (erase d k) :=
  List.Nodup.sublist (keys_erase_sublist d k) hd

theorem get?_erase (d : Dict V) (hd : WF d) (k k' : String) :
    get? (erase d k) k' = if k' = k then none else get? d k' := by
  induction d with
  | nil => simp [erase]
  | cons kv d ih =>
    obtain ⟨k0, v0⟩ := kv
    simp only [WF, keys_cons, List.nodup_cons] at hd
    simp only [erase]
    by_cases h : k0 = k
    · subst h
      simp only [if_true, get?_cons]
      by_cases h2 : k' = k0
      · subst h2; simp [get?_eq_none_iff, hd.1]
      · simp [h2, Ne.symm h2]
    · simp only [if_neg h, get?_cons, ih hd.2]
      by_cases h1 : k0 = k'
      · subst h1; simp [h]
      · simp [h1]

theorem mem_keys_erase (d : Dict V) (hd : WF d) (k k' : String) :
    k' ∈ keys (erase d k) ↔ k' ≠ k ∧ k' ∈ keys d := by
  rw [← get?_isSome_iff, get?_erase d hd, ← get?_isSome_iff]
  by_cases h : k' = k <;> simp [h]

/-! ### update -/

@[simp] theorem update_nil (d : Dict V) : update d [] = d := rfl
@[simp] theorem update_cons (d e : Dict V) (kv : String × V) :
    update d (kv :: e) = update (d.set kv.1 kv.2) e := rfl

theorem WF.update {d : Dict V} (hd : WF d) (e : Dict V) : WF (update d e) := by
  induction e generalizing d with
  | nil => exact hd
  | cons kv e ih => exact ih (hd.set _ _)

theorem get?_update (d e : Dict V) (he : WF e) (k : String) :
    get? (update d e) k = (get? e k).or (get? d k) := by
  induction e generalizing d with
  | nil => simp
  | cons kv e ih =>
    obtain ⟨k0, v0⟩ := kv
    simp only [WF, keys_cons, List.nodup_cons] at he
    rw [update_cons, ih _ he.2, get?_set, get?_cons]
    by_cases h : k0 = k
    · subst h
      have : get? e k0 = none := by rw [get?_eq_none_iff]; exact he.1
      simp [this]
    · simp [h, Ne.symm h]

theorem mem_keys_update (d e : Dict V) (k : String) :
    k ∈ keys (update d e) ↔ k ∈ keys e ∨ k ∈ keys d := by
  induction e generalizing d with
  | nil => simp
  | cons kv e ih =>
    obtain ⟨k0, v0⟩ := kv
    rw [update_cons, ih, mem_keys_set, keys_cons, List.mem_cons]
    constructor
    · rintro (h | h | h) <;> simp [h]
    · rintro ((h | h) | h) <;> simp [h]

theorem update_of_disjoint (d e : Dict V) (he : WF e) (h : ∀ k ∈ keys e, k ∉ keys d) :
    update d e = d ++ e := by
  induction e generalizing d with
  | nil => simp
  | cons kv e ih =>
    obtain ⟨k0, v0⟩ := kv
    simp only [WF, keys_cons, List.nodup_cons] at he
    rw [update_cons, set_of_not_mem _ _ _ (h k0 (by simp))]
    rw [ih _ he.2]
    · simp
    · intro k hk
      simp only [keys_append, keys_cons, keys_nil, List.mem_append, List.mem_singleton, not_or]
      refine ⟨h k (by simp [hk]), fun e => he.1 (e ▸ hk)⟩

/-- dicts with the same keys in the same order and the same lookups are the same -/
theorem ext_of_keys {d e : Dict V} (hd : WF d) (hk : keys d = keys e)
    (hg : ∀ k, get? d k = get? e k) : d = e := by
  induction d generalizing e with
  | nil => cases e with
    | nil => rfl
    | cons _ _ => simp at hk
  | cons kv d ih =>
    cases e with
    | nil => simp at hk
    | cons kv' e =>
      obtain ⟨k, v⟩ := kv; obtain ⟨k', v'⟩ := kv'
      simp only [keys_cons, List.cons.injEq] at hk
      obtain ⟨rfl, hk⟩ := hk
      simp only [WF, keys_cons, List.nodup_cons] at hd
      have h0 := hg k
      simp at h0
      subst h0
      congr 1
      apply ih hd.2 hk
      intro k2
      by_cases h2 : k = k2
      · subst h2
        rw [(get?_eq_none_iff _ _).2 hd.1, (get?_eq_none_iff _ _).2 (hk ▸ hd.1)]
      · have := hg k2; simpa [h2] using this

end Records.Dict
