import Verif.Spec.Printing
import Verif.Props.Copies
import Verif.Props.Repr
/-
C131: printing records that contain each other.
-/
namespace Records
variable {W : World}

namespace Printing

/-- all of the texts, if there are all -/
def allTexts (f : W.Obj → Option String) : List W.Obj → Option (List String)
  | [] => some []
  | x :: xs => match f x with
    | none => none
    | some t => (allTexts f xs).map (t :: ·)

/-- the text of an object from those of its parts -/
def assemble (T : Texts W) (cls : W.Cls → RecClass W) (a : W.Obj) : Node W → List String → String
  | .atom, _ => T.leaf a
  | .list _, ts => "[" ++ ", ".intercalate ts ++ "]"
  | .tuple _, ts => tupleText ts
  | .dict m, ts => "{" ++ ", ".intercalate (List.zipWith (fun k t => T.key k ++ ": " ++ t) m.keys ts) ++ "}"
  | .record i, ts => T.qual i.cid ++ "(" ++ ", ".intercalate (List.zipWith (fun k t => k ++ "=" ++ t) (shown (cls i.cid) i).keys ts) ++ ")"

def dots : Node W → Option String
  | .list _ => some "[...]"
  | .tuple _ => some "(...)"
  | .dict _ => some "{...}"
  | _ => none

/-- the containers being printed while the parts are -/
def busyIn (a : W.Obj) (busy : List W.Obj) (u : Node W) : List W.Obj := if (dots u).isSome then a :: busy else busy

/-- the same without states -/
def text (T : Texts W) (cls : W.Cls → RecClass W) (h : W.Obj → Node W) : Nat → List W.Obj → W.Obj → Option String
  | 0, _, _ => none
  | n + 1, busy, a =>
    if a ∈ busy ∧ (dots (h a)).isSome then dots (h a)
    else (allTexts (text T cls h n (busyIn a busy (h a))) ((h a).printed cls)).map (assemble T cls a (h a))

/-- the outcome of printing -/
def outcome : Option String → Except Exc String
  | some t => .ok t
  | none => .error .recursionError

theorem allTexts_cons (f : W.Obj → Option String) (x : W.Obj) (xs : List W.Obj) :
    allTexts f (x :: xs) = match f x with | none => none | some t => (allTexts f xs).map (t :: ·) := rfl

/-- the outcome of printing several -/
def outcomes : Option (List String) → Except Exc (List String)
  | some ts => .ok ts
  | none => .error .recursionError

theorem bind_texts {x : M W (List String)} {o : Option (List String)} {s : LState W} (f : List String → String) (hx : x s = (outcomes o, s)) :
    M.bind x (fun ts => M.pure (f ts)) s = (outcome (o.map f), s) := by
  simp only [M.bind, hx]
  cases o <;> rfl

theorem mapM_texts {f : W.Obj → M W String} {g : W.Obj → Option String} {s : LState W} : ∀ {xs : List W.Obj},
    (∀ x ∈ xs, f x s = (outcome (g x), s)) →
    M.mapM f xs s = (outcomes (allTexts g xs), s)
  | [], _ => rfl
  | x :: xs, hx => by
    simp only [M.mapM, M.bind, hx x (by simp), allTexts_cons]
    cases g x with
    | none => rfl
    | some t =>
      simp only [outcome, mapM_texts (xs := xs) fun y hy => hx y (by simp [hy])]
      cases allTexts g xs <;> rfl

theorem mapM_entries {f : W.Obj → M W String} {g : W.Obj → Option String} {s : LState W} (w : String → String → String) :
    ∀ {m : Dict W.Obj}, (∀ x ∈ m.values, f x s = (outcome (g x), s)) →
    M.mapM (fun kv => M.bind (f kv.2) fun t => M.pure (w kv.1 t)) m s =
      (outcomes ((allTexts g m.values).map (List.zipWith w m.keys)), s)
  | [], _ => rfl
  | (k, x) :: m, hx => by
    have hv : Dict.values ((k, x) :: m) = x :: Dict.values m := rfl
    have hk : Dict.keys ((k, x) :: m) = k :: Dict.keys m := rfl
    rw [hv] at hx ⊢
    have ih := mapM_entries w (m := m) fun y hy => hx y (by simp [hy])
    rw [allTexts_cons, hk]
    generalize hF : (fun (kv : String × W.Obj) => M.bind (f kv.2) fun t => M.pure (w kv.1 t)) = F at ih ⊢
    rw [M.mapM]
    have h1 : F (k, x) s = (outcome ((g x).map (w k)), s) := by
      rw [← hF]
      simp only [M.bind, hx x (by simp)]
      cases g x <;> rfl
    cases hg : g x with
    | none =>
      rw [hg] at h1
      unfold M.bind
      rw [h1]
      rfl
    | some t =>
      rw [hg] at h1
      unfold M.bind
      rw [h1]
      simp only [Option.map, outcome, ih]
      cases allTexts g (Dict.values m) <;> rfl

theorem printable_step {cls : W.Cls → RecClass W} {h : W.Obj → Node W} {a c : W.Obj} (hp : Printable cls h a)
    (hc : c ∈ (h a).printed cls) : Printable cls h c := fun r i hr => hp r i (.step hc hr)

/-- printing is the pure function above -/
theorem reprN_text {E : Env W} {T : Texts W} {cls : W.Cls → RecClass W} {h : W.Obj → Node W} (n : Nat) : ∀ (busy : List W.Obj) (a : W.Obj),
    Printable cls h a → ∀ s, reprN E T cls h n busy a s = (outcome (text T cls h n busy a), s) := by
  induction n with
  | zero => intros; rfl
  | succ n ih =>
    intro busy a hp s
    unfold reprN text
    have hc : ∀ busy' s, ∀ c ∈ (h a).printed cls, reprN E T cls h n busy' c s = (outcome (text T cls h n busy' c), s) :=
      fun busy' s c hc => ih busy' c (printable_step hp hc) s
    cases hu : h a with
    | atom => simp [dots, Node.printed, allTexts, assemble, outcome, M.pure]
    | list xs =>
      rw [hu] at hc
      by_cases hb : a ∈ busy
      · simp [hb, dots, outcome, M.pure]
      · simp only [hb, if_false, false_and]
        exact bind_texts _ (mapM_texts (hc (a :: busy) s))
    | tuple xs =>
      rw [hu] at hc
      by_cases hb : a ∈ busy
      · simp [hb, dots, outcome, M.pure]
      · simp only [hb, if_false, false_and]
        exact bind_texts _ (mapM_texts (hc (a :: busy) s))
    | dict m =>
      rw [hu] at hc
      by_cases hb : a ∈ busy
      · simp [hb, dots, outcome, M.pure]
      · simp only [hb, if_false, false_and]
        refine (bind_texts _ (mapM_entries (fun k t => T.key k ++ ": " ++ t) (hc (a :: busy) s))).trans ?_
        rw [Option.map_map]
        rfl
    | record i =>
      have hr := hp a i (.refl _) hu
      rw [hu] at hc
      simp only [dots, Option.isSome, Bool.false_eq_true, and_false, if_false]
      rw [M.bind, toDict_shown hr.1.wf hr.2]
      refine (bind_texts _ (mapM_entries (fun k t => k ++ "=" ++ t) (hc busy s))).trans ?_
      rw [Option.map_map]
      rfl

theorem allTexts_none {f : W.Obj → Option String} {x : W.Obj} (hx : f x = none) : ∀ {xs : List W.Obj}, x ∈ xs → allTexts f xs = none
  | y :: xs, hm => by
    rw [allTexts_cons]
    cases hy : f y with
    | none => rfl
    | some t =>
      rcases List.mem_cons.1 hm with rfl | hm
      · rw [hx] at hy; cases hy
      · simp only [allTexts_none hx hm]; rfl

theorem allTexts_some {f : W.Obj → Option String} : ∀ {xs : List W.Obj}, (∀ x ∈ xs, ∃ t, f x = some t) → ∃ ts, allTexts f xs = some ts
  | [], _ => ⟨[], rfl⟩
  | y :: xs, hm => by
    obtain ⟨t, ht⟩ := hm y (by simp)
    obtain ⟨ts, hts⟩ := allTexts_some (xs := xs) fun x hx => hm x (by simp [hx])
    exact ⟨t :: ts, by rw [allTexts_cons, ht, hts]; rfl⟩

theorem allTexts_mono {f g : W.Obj → Option String} (hfg : ∀ x t, f x = some t → g x = some t) : ∀ {xs : List W.Obj} {ts},
    allTexts f xs = some ts → allTexts g xs = some ts
  | [], ts, h => h
  | y :: xs, ts, h => by
    rw [allTexts_cons] at h ⊢
    cases hy : f y with
    | none => rw [hy] at h; cases h
    | some t =>
      rw [hy] at h
      simp only [hfg y t hy] at h ⊢
      cases hx : allTexts f xs with
      | none => rw [hx] at h; cases h
      | some us => rw [hx] at h; rw [allTexts_mono hfg hx]; exact h

theorem text_mono {T : Texts W} {cls : W.Cls → RecClass W} {h : W.Obj → Node W} : ∀ (n : Nat) (busy : List W.Obj) (a : W.Obj) (t : String),
    text T cls h n busy a = some t → text T cls h (n + 1) busy a = some t := by
  intro n
  induction n with
  | zero => intro _ _ _ h; cases h
  | succ n ih =>
    intro busy a t ht
    unfold text at ht ⊢
    split at ht
    · rename_i hb; rw [if_pos hb]; exact ht
    · rename_i hb
      rw [if_neg hb]
      cases hx : allTexts (text T cls h n (busyIn a busy (h a))) ((h a).printed cls) with
      | none => rw [hx] at ht; cases ht
      | some ts =>
        rw [hx] at ht
        rw [allTexts_mono (fun x t => ih (busyIn a busy (h a)) x t) hx]
        exact ht

theorem text_le {T : Texts W} {cls : W.Cls → RecClass W} {h : W.Obj → Node W} {n m : Nat} (hnm : n ≤ m) {busy : List W.Obj} {a : W.Obj}
    {t : String} (ht : text T cls h n busy a = some t) : text T cls h m busy a = some t := by
  induction hnm with
  | refl => exact ht
  | step _ ih => exact text_mono _ _ _ _ ih

/-! ### loops -/

theorem chain_record {cls : W.Cls → RecClass W} {h : W.Obj → Node W} {a b : W.Obj} (hc : FieldChain cls h a b) : HoldsRecord h a := by
  induction hc with
  | one ha _ _ => exact ha
  | more _ _ _ ih => exact ih

theorem chain_first {cls : W.Cls → RecClass W} {h : W.Obj → Node W} {a b : W.Obj} (hc : FieldChain cls h a b) :
    ∃ c ∈ (h a).printed cls, c = b ∨ FieldChain cls h c b := by
  induction hc with
  | one _ _ hm => exact ⟨_, hm, .inl rfl⟩
  | more h1 hr hm ih =>
    obtain ⟨d, hd, rfl | hd'⟩ := ih
    · refine ⟨d, hd, .inr (.one ?_ hr hm)⟩
      cases h1 with
      | one _ hb _ => exact hb
      | more _ hb _ => exact hb
    · exact ⟨d, hd, .inr (.more hd' hr hm)⟩

theorem dots_record {u : Node W} {i : Inst W} (hu : u = .record i) : dots u = none := by subst hu; rfl

theorem loop_none {T : Texts W} {cls : W.Cls → RecClass W} {h : W.Obj → Node W} {q : W.Obj} (hq : FieldChain cls h q q) (n : Nat) :
    ∀ busy a, FieldChain cls h a q → text T cls h n busy a = none := by
  induction n with
  | zero => intros; rfl
  | succ n ih =>
    intro busy a ha
    obtain ⟨i, hi⟩ := chain_record ha
    obtain ⟨c, hc, hcq⟩ := chain_first ha
    have hcq : FieldChain cls h c q := by
      rcases hcq with rfl | hcq
      · exact hq
      · exact hcq
    unfold text
    rw [if_neg (by rw [dots_record hi]; simp), allTexts_none (ih _ c hcq) hc]
    rfl

/-- at most `d` steps away -/
def Near (cls : W.Cls → RecClass W) (h : W.Obj → Node W) (B : W.Obj → Prop) : Nat → W.Obj → Prop
  | 0, x => B x
  | d + 1, x => Near cls h B d x ∨ ∃ c ∈ (h x).printed cls, Near cls h B d c

theorem near_of {cls : W.Cls → RecClass W} {h : W.Obj → Node W} {B : W.Obj → Prop} {a b : W.Obj} (hs : Shows cls h a b) (hb : B b) :
    ∃ d, Near cls h B d a := by
  induction hs with
  | refl => exact ⟨0, hb⟩
  | step hc _ ih =>
    obtain ⟨d, hd⟩ := ih hb
    exact ⟨d + 1, .inr ⟨_, hc, hd⟩⟩

theorem near_none {T : Texts W} {cls : W.Cls → RecClass W} {h : W.Obj → Node W} {B : W.Obj → Prop}
    (hB : ∀ n busy a, B a → text T cls h n busy a = none) : ∀ (d : Nat) (x : W.Obj) (busy : List W.Obj), Near cls h B d x →
    (∀ c ∈ busy, ¬ Near cls h B d c) → ∀ n, text T cls h n busy x = none
  | 0, x, busy, hx, _, n => hB n busy x hx
  | d + 1, x, busy, hx, hbusy, n => by
    by_cases hd : Near cls h B d x
    · exact near_none hB d x busy hd (fun c hc hn => hbusy c hc (.inl hn)) n
    · rcases hx with hx | ⟨c, hc, hcn⟩
      · exact absurd hx hd
      cases n with
      | zero => rfl
      | succ n =>
        unfold text
        rw [if_neg (fun hb => hbusy x hb.1 (.inr ⟨c, hc, hcn⟩))]
        have : text T cls h n (busyIn x busy (h x)) c = none := by
          refine near_none hB d c _ hcn (fun b hb => ?_) n
          unfold busyIn at hb
          split at hb
          · rcases List.mem_cons.1 hb with rfl | hb
            · exact hd
            · exact fun hn => hbusy b hb (.inl hn)
          · exact fun hn => hbusy b hb (.inl hn)
        rw [allTexts_none this hc]
        rfl

/-! ### ends -/

/-- how many of the objects are not in the list -/
def left (objs l : List W.Obj) : Nat := (objs.filter fun o => decide (o ∉ l)).length

theorem left_le (objs l : List W.Obj) : left objs l ≤ objs.length := List.length_filter_le _ _

theorem left_cons_le (objs l : List W.Obj) (a : W.Obj) : left objs (a :: l) ≤ left objs l := by
  unfold left
  induction objs with
  | nil => simp
  | cons o objs ih =>
    simp only [List.filter_cons]
    by_cases h1 : o ∈ l
    · simp [h1]; simpa using ih
    · by_cases h2 : o = a
      · subst h2; simp [h1]; simp at ih; omega
      · simp [h1, h2]; simpa using ih

theorem left_cons_lt {objs l : List W.Obj} {a : W.Obj} (ha : a ∈ objs) (hl : a ∉ l) : left objs (a :: l) < left objs l := by
  induction objs with
  | nil => cases ha
  | cons o objs ih =>
    have hle := left_cons_le objs l a
    unfold left at hle ih ⊢
    simp only [List.filter_cons]
    by_cases h2 : o = a
    · subst h2
      simp only [hl, List.mem_cons, true_or, not_true, decide_false, not_false_iff, decide_true, if_true, List.length_cons]
      simp at hle ⊢
      omega
    · have ha' : a ∈ objs := by
        rcases List.mem_cons.1 ha with rfl | h
        · exact absurd rfl h2
        · exact h
      have := ih ha'
      by_cases h1 : o ∈ l
      · simp [h1]; simpa using this
      · simp [h1, h2]; simpa using this

theorem shows_trans {cls : W.Cls → RecClass W} {h : W.Obj → Node W} {a b c : W.Obj} (h1 : Shows cls h a b) (h2 : Shows cls h b c) :
    Shows cls h a c := by
  induction h1 with
  | refl => exact h2
  | step hc _ ih => exact .step hc (ih h2)

theorem dots_cases (u : Node W) : (∃ i, u = .record i) ∨ u = .atom ∨ (dots u).isSome = true := by
  cases u with
  | atom => exact .inr (.inl rfl)
  | record i => exact .inl ⟨i, rfl⟩
  | _ => exact .inr (.inr rfl)

/-- enough calls: one for each record of a chain, and a new chain for each container -/
theorem text_some {T : Texts W} {cls : W.Cls → RecClass W} {h : W.Obj → Node W} {root : W.Obj} {objs : List W.Obj}
    (hfin : ∀ b, Shows cls h root b → b ∈ objs) (hno : ∀ q, Shows cls h root q → ¬ FieldChain cls h q q) (n : Nat) :
    ∀ (busy path : List W.Obj) (a : W.Obj), Shows cls h root a → (HoldsRecord h a → ∀ p ∈ path, FieldChain cls h p a) →
      left objs busy * (objs.length + 2) + left objs path < n → ∃ t, text T cls h n busy a = some t := by
  induction n with
  | zero => intro _ _ _ _ _ h; omega
  | succ n ih =>
    intro busy path a ha hp hn
    unfold text
    by_cases hb : a ∈ busy ∧ (dots (h a)).isSome = true
    · rw [if_pos hb]
      exact Option.isSome_iff_exists.1 hb.2
    rw [if_neg hb]
    have key : ∃ ts, allTexts (text T cls h n (busyIn a busy (h a))) ((h a).printed cls) = some ts := by
      refine allTexts_some fun c hc => ?_
      have hsc : Shows cls h root c := shows_trans ha (.step hc (.refl _))
      rcases dots_cases (h a) with ⟨i, hi⟩ | hi | hi
      · have hap : a ∉ path := fun hm => hno a ha (hp ⟨i, hi⟩ a hm)
        have hlt := left_cons_lt (hfin a ha) hap
        have hbz : busyIn a busy (h a) = busy := by unfold busyIn; rw [dots_record hi]; rfl
        rw [hbz]
        refine ih busy (a :: path) c hsc (fun hcr p hpm => ?_) (by omega)
        rcases List.mem_cons.1 hpm with rfl | hpm
        · exact .one ⟨i, hi⟩ hcr hc
        · exact .more (hp ⟨i, hi⟩ p hpm) hcr hc
      · rw [hi] at hc; cases hc
      · have hab : a ∉ busy := fun hm => hb ⟨hm, hi⟩
        have hlt := left_cons_lt (hfin a ha) hab
        have hbz : busyIn a busy (h a) = a :: busy := by unfold busyIn; rw [hi]; rfl
        rw [hbz]
        have hle := left_le objs ([] : List W.Obj)
        refine ih (a :: busy) [] c hsc (fun _ p hpm => by cases hpm) ?_
        have := Nat.mul_le_mul_right (objs.length + 2) (Nat.succ_le_of_lt hlt)
        rw [Nat.succ_mul] at this
        omega
    obtain ⟨ts, hts⟩ := key
    exact ⟨_, by rw [hts]; rfl⟩

/-! ### look-alikes -/

theorem mem_alike {T : Texts W} {cls : W.Cls → RecClass W} {h h' : W.Obj → Node W} {φ : W.Obj → W.Obj → Prop} (hφ : LookAlike T cls h h' φ)
    {a b : W.Obj} (hab : φ a b) : ∀ {l l' : List W.Obj}, Along φ l l' → (a ∈ l ↔ b ∈ l')
  | [], [], _ => by simp
  | x :: l, y :: l', hl => by
    have ih := mem_alike hφ hab (l := l) (l' := l') hl.2
    have : a = x ↔ b = y := by
      constructor
      · rintro rfl; exact hφ.same _ _ _ hab hl.1
      · rintro rfl; exact hφ.distinct _ _ _ hab hl.1
    simp [this, ih]

theorem allTexts_along {f g : W.Obj → Option String} {φ : W.Obj → W.Obj → Prop} (hfg : ∀ x y, φ x y → f x = g y) :
    ∀ {xs ys : List W.Obj}, Along φ xs ys → allTexts f xs = allTexts g ys
  | [], [], _ => rfl
  | x :: xs, y :: ys, hl => by rw [allTexts_cons, allTexts_cons, hfg x y hl.1, allTexts_along hfg hl.2]

theorem text_alike {T : Texts W} {cls : W.Cls → RecClass W} {h h' : W.Obj → Node W} {φ : W.Obj → W.Obj → Prop}
    (hφ : LookAlike T cls h h' φ) (n : Nat) : ∀ (busy busy' : List W.Obj) (a b : W.Obj), Along φ busy busy' → φ a b →
      text T cls h n busy a = text T cls h' n busy' b := by
  induction n with
  | zero => intros; rfl
  | succ n ih =>
    intro busy busy' a b hb hab
    have hmem := mem_alike hφ hab hb
    have hcons : Along φ (a :: busy) (b :: busy') := ⟨hab, hb⟩
    unfold text
    rcases hφ.looks a b hab with ⟨h1, h2, h3⟩ | hl
    · simp [h1, h2, dots, Node.printed, allTexts, assemble, h3]
    · generalize hu : h a = u at hl
      generalize hv : h' b = v at hl
      cases hl with
      | list hal =>
        simp only [dots, Option.isSome, and_true, hmem, busyIn, if_true, Node.printed, allTexts_along (ih _ _ · · hcons) hal]
        rfl
      | tuple hal =>
        simp only [dots, Option.isSome, and_true, hmem, busyIn, if_true, Node.printed, allTexts_along (ih _ _ · · hcons) hal]
        rfl
      | @dict m m' hk hal =>
        have he : assemble T cls a (.dict m) = assemble T cls b (.dict m') := by funext ts; simp only [assemble, hk]
        simp only [dots, Option.isSome, and_true, hmem, busyIn, if_true, Node.printed, allTexts_along (ih _ _ · · hcons) hal, he]
      | @record i j hc hk hal =>
        have he : assemble T cls a (.record i) = assemble T cls b (.record j) := by funext ts; simp only [assemble, hc, hk]
        simp only [dots, Option.isSome, Bool.false_eq_true, and_false, if_false, busyIn, Node.printed, hc,
          allTexts_along (ih _ _ · · hb) hal, he]

/-! ### texts -/

theorem allTexts_get {f : W.Obj → Option String} : ∀ {xs : List W.Obj} {ts : List String}, allTexts f xs = some ts →
    ts.length = xs.length ∧ ∀ (n : Nat) x t, xs[n]? = some x → ts[n]? = some t → f x = some t
  | [], ts, h => by cases h; exact ⟨rfl, fun n x t hx => by simp at hx⟩
  | y :: xs, ts, h => by
    rw [allTexts_cons] at h
    cases hy : f y with
    | none => rw [hy] at h; cases h
    | some u =>
      rw [hy] at h
      cases hx : allTexts f xs with
      | none => rw [hx] at h; cases h
      | some us =>
        rw [hx] at h
        cases h
        have ih := allTexts_get hx
        refine ⟨by simp [ih.1], fun n x t h1 h2 => ?_⟩
        cases n with
        | zero => simp at h1 h2; subst h1; subst h2; exact hy
        | succ n => simp at h1 h2; exact ih.2 n x t h1 h2

theorem entries_get {f : W.Obj → Option String} {m : Dict W.Obj} {ts : List String} (h : allTexts f m.values = some ts) :
    ts.length = m.length ∧ ∀ (n : Nat) k x t, m[n]? = some (k, x) → ts[n]? = some t → f x = some t := by
  obtain ⟨hl, hg⟩ := allTexts_get h
  have hv : (Dict.values m).length = m.length := by simp [Dict.values]
  exact ⟨hl.trans hv, fun n k x t h1 h2 => hg n x t (by simp [Dict.values, h1]) h2⟩

theorem zip_keys (w : String → String → String) (m : Dict W.Obj) (ts : List String) :
    List.zipWith w m.keys ts = List.zipWith (fun kv t => w kv.1 t) m ts := by
  unfold Dict.keys
  rw [List.zipWith_map_left]

theorem text_of {T : Texts W} {cls : W.Cls → RecClass W} {h : W.Obj → Node W} (n : Nat) : ∀ (busy : List W.Obj) (a : W.Obj) (t : String),
    text T cls h n busy a = some t → TextOf T cls h busy a t := by
  induction n with
  | zero => intro _ _ _ h; cases h
  | succ n ih =>
    intro busy a t ht
    unfold text at ht
    split at ht
    · rename_i hb
      cases hu : h a with
      | atom => rw [hu] at hb; cases hb.2
      | record i => rw [hu] at hb; cases hb.2
      | list xs => rw [hu] at ht; cases ht; exact .listCut hu hb.1
      | tuple xs => rw [hu] at ht; cases ht; exact .tupleCut hu hb.1
      | dict xs => rw [hu] at ht; cases ht; exact .dictCut hu hb.1
    · rename_i hb
      cases hx : allTexts (text T cls h n (busyIn a busy (h a))) ((h a).printed cls) with
      | none => rw [hx] at ht; cases ht
      | some ts =>
        rw [hx] at ht
        cases ht
        cases hu : h a with
        | atom => exact .leaf hu
        | list xs =>
          rw [hu] at hx hb
          obtain ⟨h1, h2⟩ := allTexts_get hx
          exact .list hu (fun hm => hb ⟨hm, rfl⟩) h1 fun n x t e1 e2 => ih _ _ _ (h2 n x t e1 e2)
        | tuple xs =>
          rw [hu] at hx hb
          obtain ⟨h1, h2⟩ := allTexts_get hx
          have hab : a ∉ busy := fun hm => hb ⟨hm, rfl⟩
          by_cases hl : xs.length = 1
          · rcases xs with _ | ⟨x, _ | ⟨_, _⟩⟩
            · cases hl
            · rcases ts with _ | ⟨t, _ | ⟨_, _⟩⟩
              · cases h1
              · exact .single hu hab (ih _ _ _ (h2 0 x t rfl rfl))
              · cases h1
            · cases hl
          · have : tupleText ts = "(" ++ ", ".intercalate ts ++ ")" := by
              unfold tupleText
              split
              · exact absurd h1.symm hl
              · rfl
            show TextOf T cls h busy a (tupleText ts)
            rw [this]
            exact .tuple hu hl hab h1 fun n x t e1 e2 => ih _ _ _ (h2 n x t e1 e2)
        | dict m =>
          rw [hu] at hx hb
          obtain ⟨h1, h2⟩ := entries_get hx
          simp only [assemble, zip_keys]
          exact .dict hu (fun hm => hb ⟨hm, rfl⟩) h1 fun n k x t e1 e2 => ih _ _ _ (h2 n k x t e1 e2)
        | record i =>
          rw [hu] at hx
          obtain ⟨h1, h2⟩ := entries_get hx
          simp only [assemble, zip_keys]
          exact .record hu h1 fun n k x t e1 e2 => ih _ _ _ (h2 n k x t e1 e2)

/-! ### reading -/

theorem joined_up {c : Char} (hc : c ∈ closers) {ts : List String} (h : ∀ t ∈ ts, OneArg t) :
    ClosesFrom (Pos.up .top 1) ((", ".intercalate ts).toList ++ [c]) := by
  have hend : ClosesFrom (Pos.up .top 1) [c] := by
    have : c = ')' ∨ c = ']' ∨ c = '}' := by simpa [closers] using hc
    rcases this with rfl | rfl | rfl <;> exact ⟨by decide, by decide⟩
  rw [String.toList_intercalate]
  induction ts with
  | nil => exact hend
  | cons t ts ih =>
    cases ts with
    | nil =>
      have : List.intercalate ", ".toList (List.map String.toList [t]) = t.toList := by simp [List.intercalate]
      rw [this]
      exact closesFrom_up (h t (by simp)) 0 _ hend
    | cons u ts =>
      have e : List.intercalate ", ".toList (List.map String.toList (t :: u :: ts)) =
          t.toList ++ ',' :: ' ' :: List.intercalate ", ".toList (List.map String.toList (u :: ts)) := by
        simp [List.intercalate]
      rw [e, List.append_assoc]
      refine closesFrom_up (h t (by simp)) 0 _ ⟨by decide, by decide, ?_⟩
      have e : ((Pos.up .top 1).step ',').step ' ' = Pos.up .top 1 := by decide
      rw [e]
      exact ih fun a ha => h a (List.mem_cons_of_mem _ ha)

theorem oneArg_list {ts : List String} (h : ∀ t ∈ ts, OneArg t) : OneArg ("[" ++ ", ".intercalate ts ++ "]") := by
  unfold OneArg
  have e : ("[" ++ ", ".intercalate ts ++ "]").toList = '[' :: ((", ".intercalate ts).toList ++ [']']) := by simp
  rw [e]
  exact ⟨by decide, joined_up (by decide) h⟩

theorem oneArg_dict {ts : List String} (h : ∀ t ∈ ts, OneArg t) : OneArg ("{" ++ ", ".intercalate ts ++ "}") := by
  unfold OneArg
  have e : ("{" ++ ", ".intercalate ts ++ "}").toList = '{' :: ((", ".intercalate ts).toList ++ ['}']) := by simp
  rw [e]
  exact ⟨by decide, joined_up (by decide) h⟩

theorem oneArg_tuple {ts : List String} (h : ∀ t ∈ ts, OneArg t) : OneArg ("(" ++ ", ".intercalate ts ++ ")") := by
  unfold OneArg
  have e : ("(" ++ ", ".intercalate ts ++ ")").toList = '(' :: ((", ".intercalate ts).toList ++ [')']) := by simp
  rw [e]
  exact ⟨by decide, joined_up (by decide) h⟩

theorem oneArg_single {t : String} (h : OneArg t) : OneArg ("(" ++ t ++ ",)") := by
  unfold OneArg
  have e : ("(" ++ t ++ ",)").toList = '(' :: (t.toList ++ [',', ')']) := by simp
  rw [e]
  exact ⟨by decide, closesFrom_up h 0 _ ⟨by decide, by decide, by decide⟩⟩

theorem oneArg_entry {k t : String} (hk : OneArg k) (h : OneArg t) : OneArg (k ++ ": " ++ t) := by
  unfold OneArg
  have e : (k ++ ": " ++ t).toList = k.toList ++ ([':', ' '] ++ t.toList) := by simp
  rw [e]
  exact closesFrom_append hk (closesFrom_append ⟨by decide, by decide, by decide⟩ h)

theorem all_get {α : Type} {p : α → Prop} {l : List α} : (∀ a ∈ l, p a) ↔ ∀ (n : Nat) a, l[n]? = some a → p a :=
  ⟨fun h n a e => h a (List.mem_of_getElem? e), fun h a ha => by obtain ⟨n, e⟩ := List.getElem?_of_mem ha; exact h n a e⟩

theorem legible_step {T : Texts W} {cls : W.Cls → RecClass W} {h : W.Obj → Node W} {a c : W.Obj} (hl : LegibleIn T cls h a)
    (hc : c ∈ (h a).printed cls) : LegibleIn T cls h c :=
  ⟨fun r hr => hl.leaves r (.step hc hr), fun r m hr => hl.keys r m (.step hc hr), fun r i hr => hl.names r i (.step hc hr)⟩

/-- the entries of a call -/
def callArgs (m : Dict W.Obj) (ts : List String) : List (String × String) := List.zipWith (fun kv t => (kv.1, t)) m ts

theorem callText_args (name : String) (m : Dict W.Obj) (ts : List String) :
    name ++ "(" ++ ", ".intercalate (List.zipWith (fun kv t => kv.1 ++ "=" ++ t) m ts) ++ ")" = callText name (callArgs m ts) := by
  unfold callText callArgs
  rw [List.map_zipWith]

theorem shown_name {C : RecClass W} {i : Inst W} {k : String} {x : W.Obj} (h : (k, x) ∈ shown C i) : k ∈ C.fields.map (·.1) := by
  obtain ⟨⟨k1, f1⟩, hf1, e1⟩ := List.mem_filterMap.1 h
  refine List.mem_map.2 ⟨_, hf1, ?_⟩
  simp only at e1
  split at e1
  · cases e1
  · split at e1
    · cases e1
    · cases e1; rfl

theorem zip_get {α β γ : Type} {f : α → β → γ} {as : List α} {bs : List β} {n : Nat} {c : γ} (h : (List.zipWith f as bs)[n]? = some c) :
    ∃ a b, as[n]? = some a ∧ bs[n]? = some b ∧ f a b = c := by
  rw [List.getElem?_zipWith] at h
  cases h1 : as[n]? with
  | none => rw [h1] at h; cases h
  | some a => cases h2 : bs[n]? with
    | none => rw [h1, h2] at h; cases h
    | some b => rw [h1, h2] at h; cases h; exact ⟨a, b, rfl, rfl, rfl⟩

theorem text_oneArg {T : Texts W} {cls : W.Cls → RecClass W} {h : W.Obj → Node W} {busy : List W.Obj} {a : W.Obj} {t : String}
    (ht : TextOf T cls h busy a t) : LegibleIn T cls h a → OneArg t := by
  have part : ∀ {xs : List W.Obj} {ts : List String} {p : W.Obj → String → Prop} {q : W.Obj → Prop}, ts.length = xs.length →
      (∀ (n : Nat) x t, xs[n]? = some x → ts[n]? = some t → q x → OneArg t) → (∀ x ∈ xs, q x) → ∀ t ∈ ts, OneArg t := by
    intro xs ts p q hl hp hq
    refine all_get.2 fun n t e => ?_
    have hn : n < xs.length := by rw [← hl]; exact (List.getElem?_eq_some_iff.1 e).1
    exact hp n xs[n] t (List.getElem?_eq_getElem hn) e (hq _ (List.getElem_mem hn))
  induction ht with
  | leaf e => exact fun hl => hl.leaves _ (.refl _) e
  | listCut => intro; unfold OneArg; decide
  | tupleCut => intro; unfold OneArg; decide
  | dictCut => intro; unfold OneArg; decide
  | list e _ hlen _ ih =>
    exact fun hl => oneArg_list (part (p := fun _ _ => True) hlen ih fun x hx => legible_step hl (by rw [e]; exact hx))
  | single e _ _ ih => exact fun hl => oneArg_single (ih (legible_step hl (by rw [e]; exact List.mem_cons_self ..)))
  | tuple e _ _ hlen _ ih =>
    exact fun hl => oneArg_tuple (part (p := fun _ _ => True) hlen ih fun x hx => legible_step hl (by rw [e]; exact hx))
  | dict e _ hlen _ ih =>
    intro hl
    refine oneArg_dict (all_get.2 fun n t ht => ?_)
    obtain ⟨⟨k, x⟩, u, h1, h2, rfl⟩ := zip_get ht
    have hm := List.mem_of_getElem? h1
    exact oneArg_entry (hl.keys _ _ (.refl _) e k (List.mem_map.2 ⟨_, hm, rfl⟩))
      (ih n k x u h1 h2 (legible_step hl (by rw [e]; exact List.mem_map.2 ⟨_, hm, rfl⟩)))
  | record e hlen _ ih =>
    intro hl
    rw [callText_args]
    have hn := hl.names _ _ (.refl _) e
    refine oneArg_callText hn.1 (all_get.2 fun n c hc => ?_)
    obtain ⟨⟨k, x⟩, u, h1, h2, rfl⟩ := zip_get hc
    have hm := List.mem_of_getElem? h1
    exact ⟨hn.2 k (shown_name hm), ih n k x u h1 h2 (legible_step hl (by rw [e]; exact List.mem_map.2 ⟨_, hm, rfl⟩))⟩

end Printing

open Printing

/-- **C131.** If finitely many objects are shown in `a`, and no record is shown in itself through fields of records only, `repr(a)` is a text
that does not depend on the recursion limit, if that allows for (number of objects + 2)² nested calls. -/
theorem C131_ends (E : Env W) (T : Texts W) {cls : W.Cls → RecClass W} {h : W.Obj → Node W} {a : W.Obj} (hp : Printable cls h a)
    {objs : List W.Obj} (hfin : ∀ b, Shows cls h a b → b ∈ objs) (hno : ∀ q, Shows cls h a q → ¬ FieldChain cls h q q) :
    ∃ t, ∀ n s, (objs.length + 2) * (objs.length + 2) ≤ n → reprN E T cls h n [] a s = (.ok t, s) := by
  have hle := left_le objs ([] : List W.Obj)
  obtain ⟨t, ht⟩ := text_some (T := T) hfin hno ((objs.length + 2) * (objs.length + 2)) [] [] a (.refl _) (fun _ p hpm => by cases hpm) (by
    have := Nat.mul_le_mul_right (objs.length + 2) hle
    rw [Nat.add_mul objs.length 2 (objs.length + 2)]
    omega)
  exact ⟨t, fun n s hn => by rw [reprN_text n [] a hp s, text_le hn ht]; rfl⟩

/-- **C131.** If a record that is shown in `a` is shown in itself through fields of records only, `repr(a)` raises RecursionError, whatever the
limit. -/
theorem C131_loops (E : Env W) (T : Texts W) {cls : W.Cls → RecClass W} {h : W.Obj → Node W} {a q : W.Obj} (hp : Printable cls h a)
    (hq : Shows cls h a q) (hloop : FieldChain cls h q q) (n : Nat) (s : LState W) :
    reprN E T cls h n [] a s = (.error .recursionError, s) := by
  rw [reprN_text n [] a hp s]
  obtain ⟨d, hd⟩ := near_of (B := fun x => FieldChain cls h x q) hq hloop
  rw [near_none (T := T) (fun n busy a => loop_none hloop n busy a) d a [] hd (fun c hc => by cases hc) n]
  rfl

/-- **C131.** So, among finitely many objects, exactly those can be printed in which no such record is shown. -/
theorem C131_exact (E : Env W) (T : Texts W) {cls : W.Cls → RecClass W} {h : W.Obj → Node W} {a : W.Obj} (hp : Printable cls h a)
    {objs : List W.Obj} (hfin : ∀ b, Shows cls h a b → b ∈ objs) (s : LState W) :
    (∃ n t, reprN E T cls h n [] a s = (.ok t, s)) ↔ ¬ ∃ q, Shows cls h a q ∧ FieldChain cls h q q := by
  constructor
  · rintro ⟨n, t, ht⟩ ⟨q, hq, hl⟩
    rw [C131_loops E T hp hq hl] at ht
    cases ht
  · intro hno
    obtain ⟨t, ht⟩ := C131_ends E T hp hfin fun q hq hl => hno ⟨q, hq, hl⟩
    exact ⟨_, t, ht _ s (Nat.le_refl _)⟩

/-- **C131.** The only exception is RecursionError, and a text does not change if the limit is raised. -/
theorem C131_limit (E : Env W) (T : Texts W) {cls : W.Cls → RecClass W} {h : W.Obj → Node W} {a : W.Obj} (hp : Printable cls h a) (n : Nat)
    (s : LState W) : reprN E T cls h n [] a s = (.error .recursionError, s) ∨
      ∃ t, ∀ m s', n ≤ m → reprN E T cls h m [] a s' = (.ok t, s') := by
  cases ht : text T cls h n [] a with
  | none => exact .inl (by rw [reprN_text n [] a hp s, ht]; rfl)
  | some t => exact .inr ⟨t, fun m s' hm => by rw [reprN_text m [] a hp s', text_le hm ht]; rfl⟩

/-- **C131.** The text consists of the texts of what is shown, in order; containers inside themselves are cut off. -/
theorem C131_text (E : Env W) (T : Texts W) {cls : W.Cls → RecClass W} {h : W.Obj → Node W} {a : W.Obj} (hp : Printable cls h a) {n : Nat}
    {s s' : LState W} {t : String} (ht : reprN E T cls h n [] a s = (.ok t, s')) : TextOf T cls h [] a t := by
  rw [reprN_text n [] a hp s] at ht
  cases hx : text T cls h n [] a with
  | none => rw [hx] at ht; cases ht
  | some u => rw [hx] at ht; cases ht; exact text_of n [] a _ hx

/-- **C131.** If the texts of the leaves and keys are single arguments, so is the text, at any depth; that of a record reads as a call of its
class, with the names of the shown fields and the texts of their values as keyword arguments. -/
theorem C131_reads {T : Texts W} {cls : W.Cls → RecClass W} {h : W.Obj → Node W} {busy : List W.Obj} {a : W.Obj} {t : String}
    (ht : TextOf T cls h busy a t) (hl : LegibleIn T cls h a) : OneArg t ∧ ∀ i, h a = .record i →
      ∃ args, readCall t = some (T.qual i.cid, args) ∧ args.map (·.1) = (shown (cls i.cid) i).map (·.1) ∧
        ∀ (n : Nat) k x u, (shown (cls i.cid) i)[n]? = some (k, x) → args[n]? = some (k, u) → TextOf T cls h busy x u := by
  refine ⟨text_oneArg ht hl, fun i hi => ?_⟩
  have hn := hl.names a i (.refl _) hi
  cases ht with
  | leaf e => rw [hi] at e; cases e
  | list e => rw [hi] at e; cases e
  | listCut e => rw [hi] at e; cases e
  | single e => rw [hi] at e; cases e
  | tuple e => rw [hi] at e; cases e
  | tupleCut e => rw [hi] at e; cases e
  | dict e => rw [hi] at e; cases e
  | dictCut e => rw [hi] at e; cases e
  | @record _ _ j ts e hlen hts =>
    rw [hi] at e
    cases e
    refine ⟨callArgs (shown (cls i.cid) i) ts, ?_, ?_, fun n k x u h1 h2 => ?_⟩
    · rw [callText_args]
      refine readCall_text hn.1 (all_get.2 fun n c hc => ?_)
      obtain ⟨⟨k, x⟩, u, h1, h2, rfl⟩ := zip_get hc
      have hm := List.mem_of_getElem? h1
      exact ⟨hn.2 k (shown_name hm), text_oneArg (hts n k x u h1 h2) (legible_step hl (by rw [hi]; exact List.mem_map.2 ⟨_, hm, rfl⟩))⟩
    · unfold callArgs
      rw [List.map_zipWith]
      refine List.ext_getElem? fun n => ?_
      rw [List.getElem?_zipWith, List.getElem?_map]
      cases h1 : (shown (cls i.cid) i)[n]? with
      | none => rfl
      | some kv =>
        have hlt : n < ts.length := by rw [hlen]; exact (List.getElem?_eq_some_iff.1 h1).1
        rw [List.getElem?_eq_getElem hlt]
        rfl
    · obtain ⟨⟨k', x'⟩, u', h3, h4, h5⟩ := zip_get h2
      rw [h1] at h3
      cases h3
      cases h5
      exact hts n _ x _ h1 h4

/-- **C131.** Objects that look alike, cycles or not, have the same `repr`, or both none. -/
theorem C131_alike (E : Env W) {T : Texts W} {cls : W.Cls → RecClass W} {h h' : W.Obj → Node W} {φ : W.Obj → W.Obj → Prop}
    (hφ : LookAlike T cls h h' φ) {a b : W.Obj} (hab : φ a b) (hp : Printable cls h a) (hp' : Printable cls h' b) (n : Nat) (s : LState W) :
    reprN E T cls h n [] a s = reprN E T cls h' n [] b s := by
  rw [reprN_text n [] a hp s, reprN_text n [] b hp' s, text_alike hφ n [] [] a b trivial hab]


/-! ### copies -/

namespace Printing

theorem shown_along {φ : W.Obj → W.Obj → Prop} {i j : Inst W} : ∀ {fs : Dict (Field W)},
    (∀ k f, (k, f) ∈ fs → ∃ v w, i.dict.get? k = some v ∧ j.dict.get? k = some w ∧ f.plainDefault v = f.plainDefault w ∧
      (f.plainDefault v = false → φ v w)) →
    Dict.keys (fs.filterMap fun kf => match j.dict.get? kf.1 with
      | none => none
      | some v => if kf.2.plainDefault v then none else some (kf.1, v)) =
    Dict.keys (fs.filterMap fun kf => match i.dict.get? kf.1 with
      | none => none
      | some v => if kf.2.plainDefault v then none else some (kf.1, v)) ∧
    Along φ (Dict.values (fs.filterMap fun kf => match i.dict.get? kf.1 with
      | none => none
      | some v => if kf.2.plainDefault v then none else some (kf.1, v)))
    (Dict.values (fs.filterMap fun kf => match j.dict.get? kf.1 with
      | none => none
      | some v => if kf.2.plainDefault v then none else some (kf.1, v)))
  | [], _ => ⟨rfl, trivial⟩
  | (k, f) :: fs, hf => by
    obtain ⟨v, w, hv, hw, hd, hφ⟩ := hf k f (by simp)
    have ih := shown_along (φ := φ) (i := i) (j := j) (fs := fs) fun k f hm => hf k f (by simp [hm])
    simp only [List.filterMap_cons, hv, hw, ← hd]
    cases hp : f.plainDefault v with
    | true => exact ih
    | false => exact ⟨congrArg (k :: ·) ih.1, hφ hp, ih.2⟩

theorem plain_agree {cls : W.Cls → RecClass W} {φ : W.Obj → W.Obj → Prop} (hd : DefaultsAgree cls φ) {c : W.Cls} {k : String} {f : Field W}
    (hf : (k, f) ∈ (cls c).fields) {v w : W.Obj} (h : φ v w) : f.plainDefault v = f.plainDefault w := by
  unfold Field.plainDefault
  split
  · rename_i d hdef
    exact hd.same c k f d v w hf hdef h
  · rfl

theorem get_of_key {m : Dict W.Obj} {k : String} (hk : k ∈ m.map (·.1)) : ∃ v, m.get? k = some v := by
  cases h : m.get? k with
  | some v => exact ⟨v, rfl⟩
  | none => exact absurd hk ((Dict.get?_eq_none_iff _ _).1 h)

theorem along_keep {φ ψ : W.Obj → W.Obj → Prop} (h : ∀ a b, φ a b → ψ a b) : ∀ {xs ys : List W.Obj}, Along φ xs ys → Along ψ xs ys
  | [], [], _ => trivial
  | _ :: _, _ :: _, hl => ⟨h _ _ hl.1, along_keep h hl.2⟩

theorem along_self {ψ : W.Obj → W.Obj → Prop} : ∀ {xs : List W.Obj}, (∀ x ∈ xs, ψ x x) → Along ψ xs xs
  | [], _ => trivial
  | x :: xs, h => ⟨h x (by simp), along_self fun y hy => h y (by simp [hy])⟩

theorem along_back {ψ : W.Obj → W.Obj → Prop} : ∀ {xs ys : List W.Obj}, Along ψ xs ys → ∀ y ∈ ys, ∃ x, ψ x y
  | [], [], _, y, hy => by cases hy
  | x :: xs, z :: ys, hl, y, hy => by
    rcases List.mem_cons.1 hy with rfl | hy
    · exact ⟨x, hl.1⟩
    · exact along_back hl.2 y hy

/-- what is shown in a look-alike is a counterpart -/
theorem shows_back {T : Texts W} {cls : W.Cls → RecClass W} {h h' : W.Obj → Node W} {φ : W.Obj → W.Obj → Prop}
    (hφ : LookAlike T cls h h' φ) {b r : W.Obj} (hs : Shows cls h' b r) : (∃ a, φ a b) → ∃ a, φ a r := by
  induction hs with
  | refl => exact id
  | @step b c r hc _ ih =>
    rintro ⟨a, hab⟩
    refine ih ?_
    rcases hφ.looks a b hab with ⟨_, h2, _⟩ | hl
    · rw [h2] at hc; cases hc
    · generalize hu : h a = u at hl
      generalize hv : h' b = v at hl hc
      cases hl with
      | list hal => exact along_back hal c hc
      | tuple hal => exact along_back hal c hc
      | dict _ hal => exact along_back hal c hc
      | @record i j hcid _ hal => exact along_back hal c (by rw [Node.printed, hcid] at hc; exact hc)

theorem shows_reaches {cls : W.Cls → RecClass W} {h : W.Obj → Node W} {a b : W.Obj} (hs : Shows cls h a b) : Reaches h a b := by
  induction hs with
  | refl => exact .refl _
  | @step a c b hc _ ih =>
    refine .step ?_ ih
    cases hu : h a with
    | record i =>
      rw [hu] at hc
      obtain ⟨⟨k, v⟩, hkv, rfl⟩ := List.mem_map.1 hc
      exact List.mem_map.2 ⟨(k, v), Copying.shown_own hkv, rfl⟩
    | _ => rw [hu] at hc; exact hc

end Printing

open Printing CopiesLemmas Copying

/-- **C131.** A deep copy has the same `repr` as the original. -/
theorem C131_copy (E : Env W) (T : Texts W) {X : CopyEnv W} {σ σ' : CState W} {x y : W.Obj} {φ : W.Obj → W.Obj → Prop}
    (hs : CopySource X σ x) (hφ : DeepCopied X σ σ' x y φ) (hd : DefaultsAgree X.cls φ) (n : Nat) (s : LState W) :
    reprN E T X.cls σ'.heap n [] y s = reprN E T X.cls σ.heap n [] x s := by
  have hkept : ∀ a, Reaches σ.heap x a → σ'.heap a = σ.heap a := fun a ha => hφ.kept a (hs.known a ha)
  have hrec : ∀ a b, φ a b → ∀ i j, σ.heap a = .record i → σ'.heap b = .record j → RecordCopy (X.cls i.cid) φ i j := by
    intro a b hab i j hi hj
    rcases hφ.copy a b hab with ⟨him, -⟩ | ⟨-, hc⟩
    · cases him with
      | atom e => rw [e] at hi; cases hi
      | tuple e _ => rw [e] at hi; cases hi
    · rw [hi, hj] at hc
      cases hc with
      | record hr => exact hr
  let ψ : W.Obj → W.Obj → Prop := fun a b => φ a b ∨ a = b ∧ Immutable σ.heap a ∧ Reaches σ.heap x a
  have hψ : LookAlike T X.cls σ.heap σ'.heap ψ := by
    refine ⟨?_, ?_, ?_⟩
    · rintro a b b' (h1 | ⟨rfl, h1, _⟩) (h2 | ⟨rfl, h2, _⟩)
      · exact hφ.same a b b' h1 h2
      · exact hφ.shared _ _ h1 h2
      · exact (hφ.shared _ _ h2 h1).symm
      · rfl
    · rintro a a' b (h1 | ⟨rfl, h1, hr⟩) (h2 | ⟨rfl, h2, hr'⟩)
      · exact hφ.distinct a a' b h1 h2
      · rcases hφ.copy _ _ h1 with ⟨-, e⟩ | ⟨hn, -⟩
        · exact e.symm
        · exact absurd hn (hs.known _ hr')
      · rcases hφ.copy _ _ h2 with ⟨-, e⟩ | ⟨hn, -⟩
        · exact e
        · exact absurd hn (hs.known _ hr)
      · rfl
    · have himm : ∀ a, Immutable σ.heap a → Reaches σ.heap x a →
          σ.heap a = .atom ∧ σ'.heap a = .atom ∧ T.leaf a = T.leaf a ∨ LooksLike X.cls ψ (σ.heap a) (σ'.heap a) := by
        intro a hi hr
        cases hi with
        | atom e => exact .inl ⟨e, (hkept a hr).trans e, rfl⟩
        | @tuple _ xs e hxs =>
          refine .inr ?_
          rw [hkept a hr, e]
          exact .tuple (along_self fun c hc => .inr ⟨rfl, hxs c hc, reaches_trans hr (.step (by rw [e]; exact hc) (.refl _))⟩)
      rintro a b (h1 | ⟨rfl, h1, hr⟩)
      · have ha := hφ.source a b h1
        rcases hφ.copy a b h1 with ⟨hi, rfl⟩ | ⟨-, hc⟩
        · exact himm _ hi ha
        · refine .inr ?_
          generalize hu : σ.heap a = u at hc
          generalize hv : σ'.heap b = v at hc
          cases hc with
          | list hal => exact .list (along_keep (fun _ _ => .inl) hal)
          | tuple hal => exact .tuple (along_keep (fun _ _ => .inl) hal)
          | dict hk hal => exact .dict hk (along_keep (fun _ _ => .inl) hal)
          | @record i j hr =>
            have key := shown_along (φ := φ) (i := i) (j := j) (fs := (X.cls i.cid).fields) fun k f hf => by
              obtain ⟨w, hw⟩ := get_of_key (hr.keys.mem_iff.2 (List.mem_map.2 ⟨_, hf, rfl⟩) : k ∈ j.dict.map (·.1))
              obtain ⟨f', v, hf', hv', hcase⟩ := hr.values k w (Dict.get?_eq_some_mem _ _ _ hw)
              have wf := (hs.ok a i ha hu).creatable.wf
              have : f' = f := by
                have := (Dict.mem_get? _ wf.nodup _ _ hf').symm.trans (Dict.mem_get? _ wf.nodup _ _ hf)
                cases this; rfl
              subst this
              refine ⟨v, w, hv', hw, ?_⟩
              rcases hcase with ⟨_, h2⟩ | ⟨h2, h3⟩
              · exact ⟨plain_agree hd hf h2, fun _ => h2⟩
              · have e1 := (plainDefault_iff _ _).2 h2
                have e2 : f'.plainDefault w = true := (plainDefault_iff _ _).2 ⟨w, h3, hd.refl _ k f' w hf h3⟩
                exact ⟨e1.trans e2.symm, fun e => by rw [e1] at e; cases e⟩
            exact .record hr.cls key.1 (along_keep (fun _ _ => .inl) key.2)
      · exact himm a h1 hr
  refine (C131_alike E hψ (.inl hφ.root) (fun r i hr hi => ?_) (fun r j hr hj => ?_) n s).symm
  · have := hs.ok r i (shows_reaches hr) hi
    exact ⟨this.creatable, this.full⟩
  · obtain ⟨a, hab⟩ := shows_back hψ hr ⟨x, .inl hφ.root⟩
    rcases hab with hab | ⟨rfl, h1, h2⟩
    · have ha := hφ.source a r hab
      rcases hφ.copy a r hab with ⟨hi, rfl⟩ | ⟨-, hc⟩
      · have := hs.ok _ j ha ((hkept _ ha).symm.trans hj)
        exact ⟨this.creatable, this.full⟩
      · rw [hj] at hc
        generalize hu : σ.heap a = u at hc
        cases hc with
        | @record i _ hc =>
          have := hs.ok a i ha hu
          rw [hc.cls]
          exact ⟨this.creatable, fun k hk => hc.keys.mem_iff.2 hk⟩
    · have := hs.ok _ j h2 ((hkept _ h2).symm.trans hj)
      exact ⟨this.creatable, this.full⟩

/-- **C131.** So has what a pickle is loaded to. -/
theorem C131_pickle (E : Env W) (T : Texts W) {X : CopyEnv W} {h g g' : W.Obj → Node W} {next : Nat} {x y : W.Obj}
    {φ : W.Obj → W.Obj → Prop} (hs : PickleSource X h next x) (hg : ∀ a, h a = .atom → g a = .atom)
    (hφ : Unpickled X h x g next y g' φ) (hd : DefaultsAgree X.cls φ) (n : Nat) (s : LState W) :
    reprN E T X.cls g' n [] y s = reprN E T X.cls h n [] x s := by
  have hψ : LookAlike T X.cls h g' φ := by
    refine ⟨hφ.same, hφ.distinct, fun a b hab => ?_⟩
    have ha := (hφ.source a).1 ⟨b, hab⟩
    rcases hφ.restored a b hab with ⟨h1, rfl⟩ | ⟨-, hc⟩
    · exact .inl ⟨h1, (hφ.kept _ (hs.atoms _ ha h1)).trans (hg _ h1), rfl⟩
    · refine .inr ?_
      generalize hu : h a = u at hc
      generalize hv : g' b = v at hc
      cases hc with
      | list hal => exact .list hal
      | tuple hal => exact .tuple hal
      | dict hk hal => exact .dict hk hal
      | @record i j hr =>
        have key := shown_along (φ := φ) (i := i) (j := j) (fs := (X.cls i.cid).fields) fun k f hf => by
          have hk := (hs.records a i ha hu).full k (List.mem_map.2 ⟨_, hf, rfl⟩)
          obtain ⟨v, hv⟩ := get_of_key hk
          obtain ⟨w, hw⟩ := get_of_key ((hr.keys k).2 hk)
          have h2 := hr.values k v w (Dict.get?_eq_some_mem _ _ _ hv) (Dict.get?_eq_some_mem _ _ _ hw)
          exact ⟨v, w, hv, hw, plain_agree hd hf h2, fun _ => h2⟩
        exact .record hr.cls key.1 key.2
  refine (C131_alike E hψ hφ.root (fun r i hr hi => ?_) (fun r j hr hj => ?_) n s).symm
  · have := hs.records r i (shows_reaches hr) hi
    exact ⟨this.creatable, this.full⟩
  · obtain ⟨a, hab⟩ := shows_back hψ hr ⟨x, hφ.root⟩
    have ha := (hφ.source a).1 ⟨r, hab⟩
    rcases hφ.restored a r hab with ⟨h1, rfl⟩ | ⟨-, hc⟩
    · rw [hφ.kept _ (hs.atoms _ ha h1), hg _ h1] at hj; cases hj
    · rw [hj] at hc
      generalize hu : h a = u at hc
      cases hc with
      | @record i _ hc =>
        have := hs.records a i ha hu
        rw [hc.cls]
        exact ⟨this.creatable, fun k hk => (hc.keys k).2 (this.full k hk)⟩

end Records

namespace Records.Toy.Prn
open Toy Printing
open Toy.Cop (cycle cycle_reach two twoSet two_closed two_source twoSet_old old copyable inj loop start)

def T : Texts W := ⟨fun _ => "A", fun _ => "1", fun k => "'" ++ k ++ "'"⟩

theorem printable {h : TObj → Node W} {a : TObj} (hr : ∀ r i, Shows (W := W) Cop.X.cls h a r → h r = .record i → ∃ x y, i = mkA (.int x) (.int y)) :
    Printable (W := W) Cop.X.cls h a := by
  intro r i h1 h2
  obtain ⟨x, y, rfl⟩ := hr r i h1 h2
  exact ⟨(copyable x y).creatable, (copyable x y).full⟩

/-- a record that is an element of its own list prints, with the list abbreviated -/
theorem cycle_printable : Printable (W := W) Cop.X.cls cycle (.int 1) := by
  refine printable fun r i h1 h2 => ?_
  rcases cycle_reach r (shows_reaches h1) with rfl | rfl | rfl <;> cases h2
  exact ⟨7, 3, rfl⟩

example : (reprN env T Cop.X.cls cycle 4 [] (.int 1) s0).1 = .ok "A(x=[A(x=[...])])" := rfl
example : (reprN env T Cop.X.cls cycle 3 [] (.int 1) s0).1 = .error .recursionError := rfl

theorem chain_ends {h : TObj → Node W} {a b : TObj} (hc : FieldChain (W := W) Cop.X.cls h a b) :
    HoldsRecord (W := W) h a ∧ ∃ c ∈ (h a).printed Cop.X.cls, HoldsRecord (W := W) h c := by
  obtain ⟨c, hc1, hc2⟩ := chain_first hc
  refine ⟨chain_record hc, c, hc1, ?_⟩
  rcases hc2 with rfl | hc2
  · cases hc with
    | one _ h _ => exact h
    | more _ h _ => exact h
  · exact chain_record hc2

theorem cycle_free (q : TObj) (hq : Shows (W := W) Cop.X.cls cycle (.int 1) q) : ¬ FieldChain (W := W) Cop.X.cls cycle q q := by
  intro hc
  obtain ⟨⟨i, hi⟩, c, hc, ⟨j, hj⟩⟩ := chain_ends hc
  rcases cycle_reach q (shows_reaches hq) with rfl | rfl | rfl <;> cases hi
  have : c = .int 7 := by
    rcases hc with _ | ⟨_, hc⟩
    · rfl
    · cases hc
  subst this
  cases hj

theorem cycle_finite (b : TObj) (hb : Shows (W := W) Cop.X.cls cycle (.int 1) b) : b ∈ ([.int 1, .int 7, .int 3] : List TObj) := by
  rcases cycle_reach b (shows_reaches hb) with rfl | rfl | rfl <;> decide

example := C131_ends (W := W) env T cycle_printable cycle_finite cycle_free
example := C131_exact (W := W) env T cycle_printable cycle_finite
example := C131_limit (W := W) env T cycle_printable 3 s0
example := C131_text (W := W) env T cycle_printable (n := 4) (s := s0) (t := "A(x=[A(x=[...])])") rfl

theorem cycle_legible : LegibleIn (W := W) T Cop.X.cls cycle (.int 1) := by
  refine ⟨fun _ _ _ => by show OneArg "1"; unfold OneArg; decide, fun r m hr hm => ?_, fun r i hr hi => ?_⟩
  · rcases cycle_reach r (shows_reaches hr) with rfl | rfl | rfl <;> cases hm
  · refine ⟨by show PlainName "A"; unfold PlainName; decide, ?_⟩
    show ∀ k ∈ ["x", "y"], PlainName k
    unfold PlainName
    decide

example := (C131_reads (W := W) (C131_text (W := W) env T cycle_printable (n := 4) (s := s0) (t := "A(x=[A(x=[...])])") rfl) cycle_legible).2 _ rfl

/-- a record that is the value of its own field does not -/
theorem loop_printable : Printable (W := W) Cop.X.cls loop (.int 1) := by
  refine printable fun r i h1 h2 => ?_
  have hr : r = TObj.int 1 ∨ r = TObj.int 3 := by
    refine Copying.reaches_in (W := Toy.W) (fun a => a = TObj.int 1 ∨ a = TObj.int 3) ?_ (.inl rfl) (shows_reaches h1)
    rintro a (rfl | rfl) c hc
    · rcases hc with _ | ⟨_, _ | ⟨_, hc⟩⟩
      · exact .inl rfl
      · exact .inr rfl
      · cases hc
    · cases hc
  rcases hr with rfl | rfl <;> cases h2
  exact ⟨1, 3, rfl⟩

theorem loop_loops : FieldChain (W := W) Cop.X.cls loop (.int 1) (.int 1) := .one ⟨_, rfl⟩ ⟨_, rfl⟩ (List.mem_cons_self ..)

example := C131_loops (W := W) env T loop_printable (.refl _) loop_loops

theorem three_new (k : Nat) : W.eq (.int 3 : TObj) (Cop.X.fresh k) = false := by
  cases h : W.eq (.int 3 : TObj) (Cop.X.fresh k) with
  | false => rfl
  | true =>
    rcases (eq_cases (a := .int 3) (b := .int (100 + k))).1 h with ⟨i, h1, h2⟩ | ⟨h1, _⟩
    · have e1 : (3 : Int) = i := Option.some.inj h1
      have e2 : 100 + (k : Int) = i := Option.some.inj h2
      omega
    · cases h1

/-- copies -/
theorem two_agree {φ : TObj → TObj → Prop} {σ' : CState W} {y : TObj} (hφ : DeepCopied Cop.X (start two) σ' (.int 0) y φ) :
    DefaultsAgree Cop.X.cls φ := by
  have hdef : ∀ c k f d, (k, f) ∈ (Cop.X.cls c).fields → f.default = some (.value d) → d = (.int 3 : TObj) := by
    intro c k f d hf hd
    rcases hf with _ | ⟨_, _ | ⟨_, hf⟩⟩
    · cases hd
    · cases hd; rfl
    · cases hf
  refine ⟨fun c k f d hf hd => ?_, fun c k f d v w hf hd hvw => ?_⟩
  · rw [hdef c k f d hf hd]; rfl
  · rw [hdef c k f d hf hd]
    have hv : twoSet v := Copying.reaches_in (W := Toy.W) twoSet two_closed (.inl rfl) (hφ.source v w hvw)
    rcases hφ.copy v w hvw with ⟨_, rfl⟩ | ⟨⟨k, _, rfl⟩, hc⟩
    · rfl
    · have hw : W.eq (.int 3 : TObj) (Cop.X.fresh k) = false := by
        exact three_new k
      rw [hw]
      rcases hv with rfl | rfl | rfl | rfl | rfl
      · rfl
      · rfl
      · rfl
      · rfl
      · cases hc

example : (reprN env T Cop.X.cls two 9 [] (.int 0) s0).1 = .ok "[A(x=[]), A(x=[])]" := rfl

example : (deepcopy Cop.X 9 (.int 0) (start two)).1 = .ok (.int 100) := rfl

example {m : Nat} {y : TObj} {σ' : CState W} (h : deepcopy Cop.X m (.int 0) (start two) = (.ok y, σ')) (n : Nat) (s : LState W) :
    reprN env T Cop.X.cls σ'.heap n [] y s = reprN env T Cop.X.cls two n [] (.int 0) s := by
  obtain ⟨φ, hφ⟩ := C121_copy (W := Toy.W) inj rfl two_source nofun h
  exact C131_copy (W := Toy.W) env T two_source hφ (two_agree hφ) n s

theorem cycle_agree {φ : TObj → TObj → Prop} (hφ : Unpickled Cop.X cycle (.int 1) Pic.empty 0 (.int 101) Pic.cycleEnd.heap φ) :
    DefaultsAgree Cop.X.cls φ := by
  have hdef : ∀ c k f d, (k, f) ∈ (Cop.X.cls c).fields → f.default = some (.value d) → d = (.int 3 : TObj) := by
    intro c k f d hf hd
    rcases hf with _ | ⟨_, _ | ⟨_, hf⟩⟩
    · cases hd
    · cases hd; rfl
    · cases hf
  refine ⟨fun c k f d hf hd => ?_, fun c k f d v w hf hd hvw => ?_⟩
  · rw [hdef c k f d hf hd]; rfl
  · rw [hdef c k f d hf hd]
    have hv := cycle_reach v ((hφ.source v).1 ⟨w, hvw⟩)
    rcases hφ.restored v w hvw with ⟨_, rfl⟩ | ⟨⟨k, _, rfl⟩, hc⟩
    · rfl
    · have hw : W.eq (.int 3 : TObj) (Cop.X.fresh k) = false := by
        exact three_new k
      rw [hw]
      rcases hv with rfl | rfl | rfl
      · rfl
      · rfl
      · cases hc

example (n : Nat) (s : LState W) :
    reprN env T Cop.X.cls Pic.cycleEnd.heap n [] (.int 101) s = reprN env T Cop.X.cls cycle n [] (.int 1) s := by
  obtain ⟨φ, hφ⟩ := C125_restored (W := Toy.W) inj Pic.cycle_source Pic.cycle_dumps Pic.cycle_loads.1
  exact C131_pickle (W := Toy.W) env T Pic.cycle_source (fun _ _ => rfl) hφ (cycle_agree hφ) n s

/-- the claim that every record with all its fields can be printed if the recursion limit is high enough -/
def C131_claim : Prop := ∀ (W : World) (E : Env W) (T : Texts W) (cls : W.Cls → RecClass W) (h : W.Obj → Node W) (a : W.Obj) (s : LState W),
  Printable cls h a → ∃ n t, reprN E T cls h n [] a s = (.ok t, s)

theorem C131_refuted : ¬ C131_claim := by
  intro hc
  obtain ⟨n, t, h⟩ := hc Toy.W env T Cop.X.cls loop (.int 1) s0 loop_printable
  rw [C131_loops (W := W) env T loop_printable (.refl _) loop_loops] at h
  cases h

end Records.Toy.Prn
