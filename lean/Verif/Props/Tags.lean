import Verif.Spec.Tags
import Verif.Spec.ToyHash
import Verif.Spec.ToyTok
set_option linter.unusedSimpArgs false
/-
C101: tags are compared by type and value.
-/
namespace Records
variable {W : World}

theorem SameTag.refl (hW : EqOK W) (a : Tag W) : SameTag a a := ⟨rfl, hW.refl _⟩
theorem SameTag.symm (hW : EqOK W) {a b : Tag W} (h : SameTag a b) : SameTag b a := ⟨h.1.symm, hW.symm h.2⟩
theorem SameTag.trans (hW : EqOK W) {a b c : Tag W} (h : SameTag a b) (h' : SameTag b c) : SameTag a c :=
  ⟨h.1.trans h'.1, hW.trans h.2 h'.2⟩

theorem matches_iff (hW : EqOK W) {H : Hasher W} (hH : HashContract H) {a b : Tag W} (ha : W.hashable a.inner = true)
    (hb : W.hashable b.inner = true) (hab : a.addr = b.addr → a = b) : a.matches H b = true ↔ SameTag a b := by
  unfold Tag.matches Tag.eq SameTag
  simp only [Bool.and_eq_true, Bool.or_eq_true, decide_eq_true_eq]
  constructor
  · rintro ⟨_, h | h⟩
    · cases hab h
      exact ⟨rfl, hW.refl _⟩
    · exact ⟨h.1.symm, h.2⟩
  · rintro ⟨h1, h2⟩
    exact ⟨hH _ _ h2 ha hb, .inr ⟨h1.symm, h2⟩⟩

/-- elements of a set built from the listed tags: all hashable, each of them listed, each listed tag represented -/
theorem applyTags_ok (hW : EqOK W) {H : Hasher W} (hH : HashContract H) {toks : List (TTok W)} {S S' : List (Tag W)}
    (hS : ∀ a ∈ S, W.hashable a.inner = true) (ho : OneObject (S ++ listed toks)) (h : applyTags H S toks = .ok S') :
    (∀ a ∈ S', W.hashable a.inner = true) ∧ (∀ a ∈ S', a ∈ S ++ listed toks) ∧
      (∀ a ∈ S ++ listed toks, ∃ b ∈ S', SameTag b a) ∧ ∀ a ∈ listed toks, W.hashable a.inner = true := by
  induction toks generalizing S with
  | nil =>
    cases h
    exact ⟨hS, fun a ha => by simpa [listed] using ha, fun a ha => ⟨a, by simpa [listed] using ha, .refl hW a⟩, nofun⟩
  | cons x l ih =>
    cases x with
    | other t => exact ih hS ho h
    | tag t =>
      unfold applyTags at h
      split at h
      · cases h
      · rename_i T hT
        unfold tagAdd at hT
        have ht : W.hashable t.inner = true := by
          unfold tagIn Tag.hash at hT
          cases hh : W.hashable t.inner with
          | true => rfl
          | false => rw [hh] at hT; simp at hT
        have hin : tagIn H t S = .ok (S.any fun x => x.matches H t) := by
          unfold tagIn Tag.hash
          rw [ht]
          rfl
        rw [hin] at hT
        have hone : ∀ a ∈ S, a.matches H t = true ↔ SameTag a t := fun a ha =>
          matches_iff hW hH (hS a ha) ht (ho a (List.mem_append_left _ ha) t (List.mem_append_right _ (List.mem_cons_self ..)))
        cases hany : S.any fun x => x.matches H t with
        | true =>
          rw [hany] at hT
          cases hT
          obtain ⟨y, hy, hyt⟩ := List.any_eq_true.1 hany
          have hsub : ∀ a, a ∈ S ++ listed l → a ∈ S ++ listed (.tag t :: l) := by
            intro a ha
            rcases List.mem_append.1 ha with ha | ha
            · exact List.mem_append_left _ ha
            · exact List.mem_append_right _ (List.mem_cons_of_mem _ ha)
          obtain ⟨h1, h2, h3, h4⟩ := ih hS (fun a ha b hb => ho a (hsub a ha) b (hsub b hb)) h
          refine ⟨h1, fun a ha => hsub a (h2 a ha), fun a ha => ?_, fun a ha => ?_⟩
          · rcases List.mem_append.1 ha with ha | ha
            · exact h3 a (List.mem_append_left _ ha)
            · rcases List.mem_cons.1 ha with rfl | ha
              · obtain ⟨b, hb, hby⟩ := h3 y (List.mem_append_left _ hy)
                exact ⟨b, hb, hby.trans hW ((hone y hy).1 hyt)⟩
              · exact h3 a (List.mem_append_right _ ha)
          · rcases List.mem_cons.1 ha with rfl | ha
            · exact ht
            · exact h4 a ha
        | false =>
          rw [hany] at hT
          cases hT
          have hsame : ∀ a, a ∈ (S ++ [t]) ++ listed l ↔ a ∈ S ++ listed (.tag t :: l) := by
            intro a
            simp [listed]
          obtain ⟨h1, h2, h3, h4⟩ := ih (S := S ++ [t]) (fun a ha => by
            rcases List.mem_append.1 ha with ha | ha
            · exact hS a ha
            · cases List.mem_singleton.1 ha; exact ht) (fun a ha b hb => ho a ((hsame a).1 ha) b ((hsame b).1 hb)) h
          refine ⟨h1, fun a ha => (hsame a).1 (h2 a ha), fun a ha => h3 a ((hsame a).2 ha), fun a ha => ?_⟩
          rcases List.mem_cons.1 ha with rfl | ha
          · exact ht
          · exact h4 a ha

/-! ### C101 -/

/-- C101: a declaration raises TypeError if it lists a tag around an unhashable object, and has a tag set otherwise. -/
theorem C101_declaration (H : Hasher W) (toks : List (TTok W)) :
    (∃ S, applyTags H [] toks = .ok S ∧ ∀ t ∈ listed toks, W.hashable t.inner = true) ∨
    (applyTags H [] toks = .error .typeError ∧ ∃ t ∈ listed toks, W.hashable t.inner = false) := by
  suffices h : ∀ S : List (Tag W), (∃ S', applyTags H S toks = .ok S' ∧ ∀ t ∈ listed toks, W.hashable t.inner = true) ∨
      (applyTags H S toks = .error .typeError ∧ ∃ t ∈ listed toks, W.hashable t.inner = false) from h []
  induction toks with
  | nil => exact fun S => .inl ⟨S, rfl, nofun⟩
  | cons x l ih =>
    intro S
    cases x with
    | other t => exact ih S
    | tag t =>
      cases ht : W.hashable t.inner with
      | false =>
        refine .inr ⟨?_, t, List.mem_cons_self .., ht⟩
        unfold applyTags tagAdd tagIn Tag.hash
        rw [ht]
        rfl
      | true =>
        have : ∃ T, tagAdd H S t = .ok T := by
          unfold tagAdd tagIn Tag.hash
          rw [ht]
          simp only [if_true]
          split
          · rename_i h; cases h
          · exact ⟨_, rfl⟩
          · exact ⟨_, rfl⟩
        obtain ⟨T, hT⟩ := this
        unfold applyTags
        rw [hT]
        simp only
        rcases ih T with ⟨S', h1, h2⟩ | ⟨h1, u, hu, h2⟩
        · refine .inl ⟨S', h1, fun a ha => ?_⟩
          rcases List.mem_cons.1 ha with rfl | ha
          · exact ht
          · exact h2 a ha
        · exact .inr ⟨h1, u, List.mem_cons_of_mem _ hu, h2⟩

/-- C101: a field carries a tag iff a tag of the same type around an equal object is listed in its declaration, whichever
object it is. -/
theorem C101_carries (hW : EqOK W) {H : Hasher W} (hH : HashContract H) {toks : List (TTok W)} {S : List (Tag W)}
    (h : applyTags H [] toks = .ok S) {t : Tag W} (ht : W.hashable t.inner = true) (ho : OneObject (t :: listed toks)) :
    ∃ b, tagIn H t S = .ok b ∧ (b = true ↔ ∃ x ∈ listed toks, SameTag x t) := by
  obtain ⟨h1, h2, h3, -⟩ := applyTags_ok hW hH (S := []) nofun
    (fun a ha b hb => ho a (List.mem_cons_of_mem _ ha) b (List.mem_cons_of_mem _ hb)) h
  refine ⟨S.any fun x => x.matches H t, ?_, ?_⟩
  · unfold tagIn Tag.hash
    rw [ht]
    rfl
  · rw [List.any_eq_true]
    constructor
    · rintro ⟨x, hx, hm⟩
      have hl : x ∈ listed toks := h2 x hx
      exact ⟨x, hl, (matches_iff hW hH (h1 x hx) ht (ho x (List.mem_cons_of_mem _ hl) t (List.mem_cons_self ..))).1 hm⟩
    · rintro ⟨x, hx, hm⟩
      obtain ⟨y, hy, hyx⟩ := h3 x hx
      have hl : y ∈ listed toks := h2 y hy
      exact ⟨y, hy, (matches_iff hW hH (h1 y hy) ht (ho y (List.mem_cons_of_mem _ hl) t (List.mem_cons_self ..))).2 (hyx.trans hW hm)⟩

/-- C101: looking up a tag around an unhashable object raises TypeError. -/
theorem C101_unhashable (H : Hasher W) {t : Tag W} (ht : W.hashable t.inner = false) (S : List (Tag W)) :
    tagIn H t S = .error .typeError := by
  unfold tagIn Tag.hash
  rw [ht]
  rfl

/-- C101: a field is blacklisted iff one of the blacklisted tags is, by value, one of its tags. -/
theorem C101_blacklist (hW : EqOK W) {H : Hasher W} (hH : HashContract H) {toks black : List (TTok W)} {S B : List (Tag W)}
    (h : applyTags H [] toks = .ok S) (hB : applyTags H [] black = .ok B) (ho : OneObject (listed toks ++ listed black)) :
    tagsMeet H S B = true ↔ ∃ x ∈ listed toks, ∃ y ∈ listed black, SameTag x y := by
  obtain ⟨a1, a2, a3, -⟩ := applyTags_ok hW hH (S := []) nofun
    (fun a ha b hb => ho a (List.mem_append_left _ ha) b (List.mem_append_left _ hb)) h
  obtain ⟨b1, b2, b3, -⟩ := applyTags_ok hW hH (S := []) nofun
    (fun a ha b hb => ho a (List.mem_append_right _ ha) b (List.mem_append_right _ hb)) hB
  have e1 : ∀ x ∈ S, ∀ y ∈ B, y.matches H x = true ↔ SameTag x y := by
    intro x hx y hy
    rw [matches_iff hW hH (b1 y hy) (a1 x hx)
      (ho y (List.mem_append_right _ (b2 y hy)) x (List.mem_append_left _ (a2 x hx)))]
    exact ⟨.symm hW, .symm hW⟩
  have e2 : ∀ x ∈ S, ∀ y ∈ B, x.matches H y = true ↔ SameTag x y := by
    intro x hx y hy
    exact matches_iff hW hH (a1 x hx) (b1 y hy)
      (ho x (List.mem_append_left _ (a2 x hx)) y (List.mem_append_right _ (b2 y hy)))
  have main : tagsMeet H S B = true ↔ ∃ x ∈ S, ∃ y ∈ B, SameTag x y := by
    unfold tagsMeet
    split
    · constructor
      · intro h
        obtain ⟨x, hx, h⟩ := List.any_eq_true.1 h
        obtain ⟨y, hy, h⟩ := List.any_eq_true.1 h
        exact ⟨x, hx, y, hy, (e1 x hx y hy).1 h⟩
      · rintro ⟨x, hx, y, hy, h⟩
        exact List.any_eq_true.2 ⟨x, hx, List.any_eq_true.2 ⟨y, hy, (e1 x hx y hy).2 h⟩⟩
    · constructor
      · intro h
        obtain ⟨y, hy, h⟩ := List.any_eq_true.1 h
        obtain ⟨x, hx, h⟩ := List.any_eq_true.1 h
        exact ⟨x, hx, y, hy, (e2 x hx y hy).1 h⟩
      · rintro ⟨x, hx, y, hy, h⟩
        exact List.any_eq_true.2 ⟨y, hy, List.any_eq_true.2 ⟨x, hx, (e2 x hx y hy).2 h⟩⟩
  rw [main]
  constructor
  · rintro ⟨x, hx, y, hy, h⟩
    exact ⟨x, a2 x hx, y, b2 y hy, h⟩
  · rintro ⟨x, hx, y, hy, h⟩
    obtain ⟨x', hx', hxx⟩ := a3 x hx
    obtain ⟨y', hy', hyy⟩ := b3 y hy
    exact ⟨x', hx', y', hy', (hxx.trans hW h).trans hW (hyy.symm hW)⟩

/-- C101: every collection of tags can be numbered by value, with 0 for a chosen one (`exclude_from_ordering`). -/
theorem C101_numbering (hW : EqOK W) (t0 : Tag W) (l : List (Tag W)) : ∃ code : Tag W → Nat, code t0 = 0 ∧ Numbers code (t0 :: l) := by
  classical
  suffices h : ∀ l : List (Tag W), ∃ code : Tag W → Nat, (∀ a b, SameTag a b → code a = code b) ∧ code t0 = 0 ∧
      (∀ a, code a ≤ l.length + 1) ∧ ∀ a ∈ t0 :: l, ∀ b, code a = code b → SameTag a b by
    obtain ⟨code, h1, h2, -, h3⟩ := h l
    exact ⟨code, h2, fun a ha b _ => ⟨h3 a ha b, h1 a b⟩⟩
  intro l
  induction l with
  | nil =>
    refine ⟨fun a => if SameTag t0 a then 0 else 1, ?_, if_pos (.refl hW _), ?_, ?_⟩
    · intro a b hab
      by_cases h : SameTag t0 a
      · simp only [if_pos h, if_pos (h.trans hW hab)]
      · simp only [if_neg h, if_neg (fun h' => h (SameTag.trans hW h' (hab.symm hW)))]
    · intro a
      simp only [List.length_nil]
      split <;> omega
    · intro a ha b hab
      cases List.mem_singleton.1 ha
      simp only [if_pos (SameTag.refl hW t0)] at hab
      split at hab
      · assumption
      · cases hab
  | cons t l ih =>
    obtain ⟨code, h1, h2, h3, h4⟩ := ih
    by_cases hex : ∃ u ∈ t0 :: l, SameTag u t
    · obtain ⟨u, hu, hut⟩ := hex
      refine ⟨code, h1, h2, fun a => Nat.le_trans (h3 a) (by simp), fun a ha b hab => ?_⟩
      rcases List.mem_cons.1 ha with rfl | ha
      · exact h4 _ (List.mem_cons_self ..) b hab
      · rcases List.mem_cons.1 ha with rfl | ha
        · exact (hut.symm hW).trans hW (h4 u hu b ((h1 _ _ hut).trans hab))
        · exact h4 a (List.mem_cons_of_mem _ ha) b hab
    · have hno : ∀ u ∈ t0 :: l, ¬ SameTag u t := fun u hu h => hex ⟨u, hu, h⟩
      refine ⟨fun a => if SameTag t a then l.length + 2 else code a, ?_, ?_, ?_, ?_⟩
      · intro a b hab
        by_cases h : SameTag t a
        · simp only [if_pos h, if_pos (h.trans hW hab)]
        · simp only [if_neg h, if_neg (fun h' => h (SameTag.trans hW h' (hab.symm hW)))]
          exact h1 a b hab
      · simp only [if_neg (fun h => hno t0 (List.mem_cons_self ..) (SameTag.symm hW h)), h2]
      · intro a
        have := h3 a
        simp only [List.length_cons]
        split <;> omega
      · intro a ha b hab
        have old : ∀ a ∈ t0 :: l, (if SameTag t a then l.length + 2 else code a) = (if SameTag t b then l.length + 2 else code b) →
            SameTag a b := by
          intro a ha hab
          rw [if_neg (fun h => hno a ha (SameTag.symm hW h))] at hab
          split at hab
          · have := h3 a; omega
          · exact h4 a ha b hab
        rcases List.mem_cons.1 ha with rfl | ha
        · exact old _ (List.mem_cons_self ..) hab
        · rcases List.mem_cons.1 ha with rfl | ha
          · simp only [if_pos (SameTag.refl hW a)] at hab
            split at hab
            · assumption
            · have := h3 b; omega
          · exact old a (List.mem_cons_of_mem _ ha) hab

theorem tagsOf_numbered (code : Tag W → Nat) {toks : List (TTok W)} (hn : ∀ n, TTok.other (.tag n) ∉ toks) :
    tagsOf (toks.map (numbered code)) = (listed toks).map code := by
  induction toks with
  | nil => rfl
  | cons x l ih =>
    have ih' := ih fun n hn' => hn n (List.mem_cons_of_mem _ hn')
    cases x with
    | tag t => exact congrArg (code t :: ·) ih'
    | other t =>
      have : tagsOf (numbered code (.other t) :: l.map (numbered code)) = tagsOf (l.map (numbered code)) := by
        unfold tagsOf
        cases t with
        | tag n => exact absurd (List.mem_cons_self ..) (hn n)
        | _ => rfl
      exact this.trans ih'

/-- C101: membership in the tag set of a field is membership of the number among the numbered tags of the declaration. -/
theorem C101_numbers (hW : EqOK W) {H : Hasher W} (hH : HashContract H) {toks : List (TTok W)} {S : List (Tag W)}
    (h : applyTags H [] toks = .ok S) {t : Tag W} (ht : W.hashable t.inner = true) (ho : OneObject (t :: listed toks))
    (hn : ∀ n, TTok.other (.tag n) ∉ toks) {code : Tag W → Nat} (hc : Numbers code (t :: listed toks)) :
    tagIn H t S = .ok (decide (code t ∈ tagsOf (toks.map (numbered code)))) := by
  obtain ⟨b, h1, h2⟩ := C101_carries hW hH h ht ho
  rw [h1]
  congr 1
  rw [Bool.eq_iff_iff, h2, decide_eq_true_eq, tagsOf_numbered code hn, List.mem_map]
  constructor
  · rintro ⟨x, hx, hxt⟩
    exact ⟨x, hx, (hc x (List.mem_cons_of_mem _ hx) t (List.mem_cons_self ..)).2 hxt⟩
  · rintro ⟨x, hx, hxt⟩
    exact ⟨x, hx, (hc x (List.mem_cons_of_mem _ hx) t (List.mem_cons_self ..)).1 hxt⟩

/-- C101: ... so `filter_by_tag` gives the same fields for tags and for their numbers. Entries are names, `Annotated` arguments and
tag sets; `fld` is the field with numbered tags. -/
theorem C101_filter (hW : EqOK W) {H : Hasher W} (hH : HashContract H) {t : Tag W} (ht : W.hashable t.inner = true)
    {code : Tag W → Nat} (fld : String × List (TTok W) × List (Tag W) → Field W)
    (hf : ∀ e, (fld e).tags = tagsOf (e.2.1.map (numbered code))) (entries : List (String × List (TTok W) × List (Tag W)))
    (h : ∀ e ∈ entries, applyTags H [] e.2.1 = .ok e.2.2 ∧ ∀ n, TTok.other (.tag n) ∉ e.2.1)
    (ho : OneObject (t :: entries.flatMap fun e => listed e.2.1)) (hc : Numbers code (t :: entries.flatMap fun e => listed e.2.1)) :
    filterTagged H t (entries.map fun e => (e.1, e.2.2)) =
      .ok ((filterByTag (entries.map fun e => (e.1, fld e)) (code t)).map (·.1)) := by
  induction entries with
  | nil => rfl
  | cons e l ih =>
    have sub : ∀ a, a ∈ t :: listed e.2.1 → a ∈ t :: (e :: l).flatMap fun e => listed e.2.1 := by
      intro a ha
      rcases List.mem_cons.1 ha with rfl | ha
      · exact List.mem_cons_self ..
      · exact List.mem_cons_of_mem _ (by rw [List.flatMap_cons]; exact List.mem_append_left _ ha)
    have sub' : ∀ a, a ∈ t :: (l.flatMap fun e => listed e.2.1) → a ∈ t :: (e :: l).flatMap fun e => listed e.2.1 := by
      intro a ha
      rcases List.mem_cons.1 ha with rfl | ha
      · exact List.mem_cons_self ..
      · exact List.mem_cons_of_mem _ (by rw [List.flatMap_cons]; exact List.mem_append_right _ ha)
    obtain ⟨he, hn⟩ := h e (List.mem_cons_self ..)
    have h1 := C101_numbers hW hH he ht (fun a ha b hb => ho a (sub a ha) b (sub b hb)) hn
      (fun a ha b hb => hc a (sub a ha) b (sub b hb))
    have h2 := ih (fun e he => h e (List.mem_cons_of_mem _ he)) (fun a ha b hb => ho a (sub' a ha) b (sub' b hb))
      (fun a ha b hb => hc a (sub' a ha) b (sub' b hb))
    simp only [List.map_cons, filterTagged]
    rw [h1, h2]
    simp only [filterByTag, List.filter_cons, hf]
    split <;> rfl

/-- C101: ... and blacklisting gives the same answer. -/
theorem C101_blacklist_numbers (hW : EqOK W) {H : Hasher W} (hH : HashContract H) {toks black : List (TTok W)} {S B : List (Tag W)}
    (h : applyTags H [] toks = .ok S) (hB : applyTags H [] black = .ok B) (ho : OneObject (listed toks ++ listed black))
    (hn : ∀ n, TTok.other (.tag n) ∉ toks) {code : Tag W → Nat} (hc : Numbers code (listed toks ++ listed black)) (f : XField W)
    (hf : f.tags = tagsOf (toks.map (numbered code))) (o : ExportOpts) (hw : f.name ∉ o.whitelist)
    (hb : o.blacklist = .tags ((listed black).map code)) : exportField o f = .ok (!tagsMeet H S B) := by
  unfold exportField
  rw [if_neg hw, hb]
  simp only
  congr 2
  rw [Bool.eq_iff_iff, C101_blacklist hW hH h hB ho, hf, tagsOf_numbered code hn, List.any_eq_true]
  constructor
  · rintro ⟨n, hn, h⟩
    obtain ⟨x, hx, rfl⟩ := List.mem_map.1 hn
    obtain ⟨y, hy, hxy⟩ := List.mem_map.1 (of_decide_eq_true h)
    exact ⟨x, hx, y, hy, (hc x (List.mem_append_left _ hx) y (List.mem_append_right _ hy)).1 hxy.symm⟩
  · rintro ⟨x, hx, y, hy, h⟩
    refine ⟨code x, List.mem_map.2 ⟨x, hx, rfl⟩, decide_eq_true (List.mem_map.2 ⟨y, hy, ?_⟩)⟩
    exact ((hc x (List.mem_append_left _ hx) y (List.mem_append_right _ hy)).2 h).symm

end Records

namespace Records.Toy.Tg
open Records.Toy

/-- `Tag(1)`, `Tag(True)`, `Tag("a")`, a tag of another class around 1, `Tag([])` -/
def t1 : Tag Toy.W := ⟨1, .object, TObj.int 1⟩
def tT : Tag Toy.W := ⟨2, .object, TObj.bool true⟩
def ta : Tag Toy.W := ⟨3, .object, TObj.str "a"⟩
def u1 : Tag Toy.W := ⟨4, .int, TObj.int 1⟩
def tl : Tag Toy.W := ⟨5, .object, list []⟩

/-- `Annotated[int, Tag(1), coercer, Tag("a"), Tag(True)]` -/
def toks : List (TTok Toy.W) := [.tag t1, .other (ctok (ret 1 (.int 1))), .tag ta, .tag tT]

/-- the set: `Tag(True)` is not added again -/
theorem made : applyTags (hasher 0) [] toks = .ok [t1, ta] := rfl

theorem one : OneObject [tT, u1, t1, ta, tT] := by
  intro a ha b hb h
  simp only [List.mem_cons, List.not_mem_nil, or_false] at ha hb
  rcases ha with rfl | rfl | rfl | rfl | rfl <;> rcases hb with rfl | rfl | rfl | rfl | rfl <;>
    first | rfl | exact absurd h (by decide)

example : tagIn (hasher 0) tT [t1, ta] = .ok true := by
  obtain ⟨b, h1, h2⟩ := C101_carries eqOK (contract 0) made (t := tT) rfl (fun a ha b hb => one a (by
    simp only [listed, toks, List.mem_cons, List.not_mem_nil, or_false] at ha ⊢
    rcases ha with h | h | h | h <;> simp [h]) b (by
    simp only [listed, toks, List.mem_cons, List.not_mem_nil, or_false] at hb ⊢
    rcases hb with h | h | h | h <;> simp [h]))
  rw [h1, h2.2 ⟨t1, .head _, rfl, rfl⟩]

-- a tag of another class is another tag
example : tagIn (hasher 0) u1 [t1, ta] = .ok false := rfl
example : ¬ SameTag u1 t1 := fun h => nomatch h.1

-- unhashable
example : applyTags (hasher 0) [] [.tag t1, .tag tl] = .error .typeError := rfl
example : tagIn (hasher 0) tl [] = .error .typeError := C101_unhashable (hasher 0) rfl []

-- blacklists
example : tagsMeet (hasher 0) [t1, ta] [tT] = true := rfl
example : tagsMeet (hasher 0) [t1, ta] [u1] = false := rfl

-- filtering
example : filterTagged (hasher 0) tT [("x", [ta]), ("y", [t1, ta]), ("z", [])] = .ok ["y"] := rfl

-- a numbering by value
example : ∃ code : Tag Toy.W → Nat, code ta = 0 ∧ code t1 = code tT ∧ code t1 ≠ code u1 := by
  obtain ⟨code, h0, h⟩ := C101_numbering eqOK ta [t1, tT, u1]
  refine ⟨code, h0, (h t1 (by simp) tT (by simp)).2 ⟨rfl, rfl⟩, fun e => ?_⟩
  exact nomatch ((h t1 (by simp) u1 (by simp)).1 e).1

end Records.Toy.Tg

namespace Records

/-- C101: that tags around different objects are different is refuted: `Tag(1)` and `Tag(True)` are the same tag. -/
theorem C101_refuted : ¬ ∀ (W : World) (H : Hasher W) (a b : Tag W), EqOK W → HashContract H → a.addr ≠ b.addr → a.inner ≠ b.inner →
    tagIn H a [b] ≠ .ok true :=
  fun h => h Toy.W (Toy.hasher 0) Toy.Tg.tT Toy.Tg.t1 Toy.eqOK (Toy.contract 0) (by decide) 
    (fun e => nomatch (show (Toy.TObj.bool true : Toy.TObj) = .int 1 from e)) rfl

end Records
