import Verif.Props.SubKey
import Verif.Props.Tokens
import Verif.Props.Deep
/-
C16 (which fields take `FromInteger`) and C26 (which containers are legal, and the exception otherwise).
-/
namespace Records
variable {W : World}

/-! ### C16 -/

/-- `FromInteger` in the `Annotated` of a checking field: the class can be created iff the type is bool; otherwise its creation
raises TypeError. -/
theorem C16_field (c : W.Cls) (st : Style) :
    (BoolType c → ∃ f, makeFiller .check [] (.annotated (.cls c) [.coercion .fromInteger]) = .ok f) ∧
    (¬ BoolType c → makeFiller st [] (.annotated (.cls c) [.coercion .fromInteger]) = .error .typeError) := by
  constructor
  · intro hb
    have hk := (classKind_isBool c).2 hb
    have e := makeFiller_cls .check [] [.coercion .fromInteger] c
    simp only [List.map] at e
    rw [e]
    obtain ⟨b, hm⟩ := (C26_leaf (W := W) .check (classKind c) [] [.coercion .fromInteger]).1.2 (by
      refine ⟨?_, by simp [styleOf, lastStyle, Tok.restyle]⟩
      intro t ht
      simp only [List.nil_append, List.mem_singleton] at ht
      subst ht
      exact ⟨boolFromInt, by simp [getCoercer, hk]⟩)
    exact ⟨.ann b, by rw [hm]; rfl⟩
  · intro hb
    exact C95_exception (fit := []) (rest := []) (.fromInteger hb) (by simp)

/-- `FromInteger` never fits a Literal or Callable type. -/
theorem C16_field_other (id : Nat) (vals : List W.Obj) (st : Style) :
    makeFiller st [] (.annotated (.literal id vals) [.coercion .fromInteger]) = .error .typeError ∧
    makeFiller (W := W) st [] (.annotated .callable [.coercion .fromInteger]) = .error .typeError := ⟨rfl, rfl⟩

/-! ### C26 -/

/-- the class of the container itself -/
def Hint.outer : Hint W → Option W.Cls
  | .tupleFix _ => some W.tupleCls
  | .tupleVar _ => some W.tupleCls
  | .iter c _ => some c
  | .deque c _ => some c
  | .mapping c _ _ => some c
  | .defaultdict c _ _ => some c
  | .generic c _ => some c
  | _ => Option.none

/-- the fillers of parts that are legal on their own -/
theorem parts_legal {d : Style} : ∀ {hs : List (Hint W)}, (∀ p ∈ hs, ∃ fp, makeFiller d [] p = .ok fp) →
    ∃ fs bs, getFs hs = .ok fs ∧ getFsLate hs = fs ∧ F.bindAll d fs = .ok bs ∧ AllRel (fun p b => makeFiller d [] p = .ok b) hs bs
  | [], _ => ⟨[], [], rfl, rfl, rfl, .nil⟩
  | p :: hs, h => by
    obtain ⟨fs, bs, h1, h2, h3, h4⟩ := parts_legal (hs := hs) fun q hq => h q (by simp [hq])
    obtain ⟨fp, hp⟩ := h p (by simp)
    have hp' := hp
    simp only [makeFiller, getFiller, F.applyPre] at hp
    cases hg : getF p none with
    | error e => simp [hg] at hp
    | ok f =>
      simp only [hg] at hp
      exact ⟨f :: fs, fp :: bs, by simp [getFs, hg, h1], by simp [getFsLate, hg, h2], by simp [F.bindAll, hp, h3], .cons hp' h4⟩

theorem makeFiller_wrap {d : Style} {h : Hint W} {args : List (Tok W)} {k : WrapKind W} {c : W.Cls} {subs : List (F W)}
    (hg : getF h (some args) = .ok (.wrap false k (classAnn c args) subs)) :
    makeFiller d [] (.annotated h args) = match Ann.make d (classKind c) [] args with
      | .error e => .error e
      | .ok i => match F.bindAll d subs with
        | .error e => .error e
        | .ok subs' => match wrapFinish k i subs' with
          | .error e => .error e
          | .ok i' => .ok (.wrap true k i' subs') := by
  simp only [makeFiller, getFiller, getF, hg, F.applyPre, F.bind, Bool.false_eq_true, if_false, Ann.make, Ann.applyAll, classAnn]
  cases Ann.bind { kind := classKind c, args := args } d <;> rfl

/-- The filler of a part, with tokens added to it, counts as hollow iff nothing of the type is checked. -/
theorem C26_unchecked {d : Style} {toks : List (Tok W)} {h : Hint W} {f : F W} (hf : memberFiller d toks h = .ok f) :
    f.isHollow = true ↔ Unchecked d h none toks := memberFiller_hollow hf

theorem makeFiller_hollow {d : Style} {h : Hint W} {f : F W} (hf : makeFiller d [] h = .ok f) :
    f.isHollow = true ↔ Unchecked d h none [] := by
  refine memberFiller_hollow ?_
  unfold makeFiller F.applyPre at hf
  unfold memberFiller F.applyAll
  cases hg : getFiller h with
  | error e => simp [hg] at hf
  | ok g => simpa [hg] using hf

/-- A legal container field: every part is legal on its own; if the container is hollow, or is a non-specialised generic,
then every part is unchecked. -/
theorem C26_container {d : Style} {h : Hint W} {hs : List (Hint W)} {g : Bool} {args : List (Tok W)} {f : F W}
    (hp : h.parts = some (hs, g)) (hf : makeFiller d [] (.annotated h args) = .ok f) :
    ∀ p ∈ hs, (∃ fp, makeFiller d [] p = .ok fp) ∧ (g = true ∨ styleOf d args = .hollow → Unchecked d p none []) := by
  intro p hm
  obtain ⟨fp, h1, h2⟩ := container_legal hp hf p hm
  exact ⟨⟨fp, h1⟩, fun hx => (makeFiller_hollow h1).1 (h2 hx)⟩

theorem container_exact {d : Style} {h : Hint W} {hs : List (Hint W)} {g : Bool} {c : W.Cls} {args : List (Tok W)} {i : F W}
    (hp : h.parts = some (hs, g)) (hc : h.outer = some c) (hi : makeFiller d [] (.annotated (.cls c) args) = .ok i)
    (hl : ∀ p ∈ hs, ∃ fp, makeFiller d [] p = .ok fp) :
    ((g = true ∨ styleOf d args = .hollow → ∀ p ∈ hs, ∀ fp, makeFiller d [] p = .ok fp → fp.isHollow = true) →
      ∃ f, makeFiller d [] (.annotated h args) = .ok f) ∧
    (g = true ∨ styleOf d args = .hollow → ∀ p ∈ hs, ∀ fp, makeFiller d [] p = .ok fp → fp.isHollow = false →
      makeFiller d [] (.annotated h args) = .error .typeError) := by
  have e := makeFiller_cls d [] args c
  simp only [List.map] at e
  rw [e] at hi
  cases hm : Ann.make d (classKind c) [] args with
  | error e => rw [hm] at hi; cases hi
  | ok a =>
    have hst : a.style = styleOf d args := by
      have := Ann.bind_ok (Ann.applied_new (classKind c) args) (show Ann.bind _ d = .ok a from hm)
      simpa using this.2.1
    obtain ⟨fs, bs, h1, h2, h3, h4⟩ := parts_legal hl
    have hall : (∀ p ∈ hs, ∀ fp, makeFiller d [] p = .ok fp → fp.isHollow = true) ↔ F.allHollow bs = true := by
      clear h1 h2 h3 hp hl
      induction h4 with
      | nil => simp [F.allHollow]
      | cons hb _ ih =>
        simp only [F.allHollow, Bool.and_eq_true, ← ih, List.mem_cons, forall_eq_or_imp]
        constructor
        · exact fun ⟨x, y⟩ => ⟨x _ hb, y⟩
        · rintro ⟨x, y⟩
          exact ⟨fun fp hfp => by rw [hb] at hfp; cases hfp; exact x, y⟩
    -- the last step of binding
    have fin : ∀ k, (∀ b, k ≠ .typeF b) → (k = .mapping ∨ k = .defaultdict → bs.length = 2) →
        (k = .tupleVar ∨ k = .iter ∨ k = .deque → bs.length = 1) →
        ((k = .generic ∨ a.style = .hollow → F.allHollow bs = true) → ∃ i', wrapFinish k a bs = .ok i') ∧
        (k = .generic ∨ a.style = .hollow → F.allHollow bs = false → wrapFinish k a bs = .error .typeError) := by
      intro k h0 hk2 hk1
      have one : k = .tupleVar ∨ k = .iter ∨ k = .deque → ∃ x, bs = [x] := by
        intro h
        have := hk1 h
        rcases bs with _ | ⟨x, _ | _⟩ <;> simp at this
        exact ⟨x, rfl⟩
      have two : k = .mapping ∨ k = .defaultdict → ∃ x y, bs = [x, y] := by
        intro h
        have := hk2 h
        rcases bs with _ | ⟨x, _ | ⟨y, _ | _⟩⟩ <;> simp at this
        exact ⟨x, y, rfl⟩
      cases k with
      | typeF b => exact absurd rfl (h0 b)
      | tupleFix =>
        by_cases hs : a.style = .hollow <;> cases hb : F.allHollow bs <;> simp [wrapFinish, hs, hb]
      | generic => cases hb : F.allHollow bs <;> simp [wrapFinish, hb]
      | tupleVar | iter | deque =>
        obtain ⟨x, rfl⟩ := one (by simp)
        by_cases hs : a.style = .hollow <;> cases hb : x.isHollow <;> simp [wrapFinish, hs, hb, F.allHollow]
      | mapping | defaultdict =>
        obtain ⟨x, y, rfl⟩ := two (by simp)
        by_cases hs : a.style = .hollow <;> cases hb : (x.isHollow && y.isHollow) <;>
          simp [wrapFinish, hs, hb, F.allHollow]
    have hlen : bs.length = hs.length := by
      clear h1 h2 h3 hp hl hall fin
      induction h4 with
      | nil => rfl
      | cons _ _ ih => simp [ih]
    suffices key : ∃ k, getF h (some args) = .ok (.wrap false k (classAnn c args) fs) ∧ (∀ b, k ≠ .typeF b) ∧
        (k = .mapping ∨ k = .defaultdict → bs.length = 2) ∧ (k = .tupleVar ∨ k = .iter ∨ k = .deque → bs.length = 1) ∧
        (g = true ↔ k = .generic) by
      obtain ⟨k, hg, h0, hk2, hk1, hgk⟩ := key
      have hw := makeFiller_wrap (d := d) hg
      rw [hm, h3] at hw
      simp only at hw
      obtain ⟨f1, f2⟩ := fin k h0 hk2 hk1
      rw [← hgk, hst] at f1 f2
      refine ⟨fun hc => ?_, fun hx p hpm fp hfp hh => ?_⟩
      · obtain ⟨i', hi'⟩ := f1 fun hx => hall.1 (hc hx)
        rw [hi'] at hw
        exact ⟨_, hw⟩
      · have : F.allHollow bs = false := by
          cases hb : F.allHollow bs with
          | false => rfl
          | true => rw [hall.2 hb p hpm fp hfp] at hh; cases hh
        rw [f2 hx this] at hw
        exact hw
    have g1 : ∀ p, hs = [p] → ∃ f, getF p none = .ok f ∧ fs = [f] := by
      rintro p rfl
      simp only [getFs] at h1
      cases hg : getF p none with
      | error e => simp [hg] at h1
      | ok f => simp [hg] at h1; exact ⟨f, rfl, h1.symm⟩
    have g2 : ∀ p q, hs = [p, q] → ∃ f f', getF p none = .ok f ∧ getF q none = .ok f' ∧ fs = [f, f'] := by
      rintro p q rfl
      simp only [getFs] at h1
      cases hg : getF p none with
      | error e => simp [hg] at h1
      | ok f =>
        cases hg' : getF q none with
        | error e => simp [hg, hg'] at h1
        | ok f' => simp [hg, hg'] at h1; exact ⟨f, f', rfl, rfl, h1.symm⟩
    clear hi e hm fin hall h3 h4 hl
    cases h <;> simp only [Hint.parts, Hint.outer] at hp hc <;> (try (cases hp; done)) <;> cases hp <;> cases hc
    case ok.tupleFix.refl.refl => exact ⟨.tupleFix, by simp [getF, h1], by simp, by simp, by simp, by simp⟩
    case ok.generic.refl.refl => exact ⟨.generic, by simp [getF, h2], by simp, by simp, by simp, by simp⟩
    case ok.tupleVar.refl.refl =>
      obtain ⟨f, hf, rfl⟩ := g1 _ rfl
      exact ⟨.tupleVar, by simp [getF, hf], by simp, by simp, fun _ => hlen, by simp⟩
    case ok.iter.refl.refl =>
      obtain ⟨f, hf, rfl⟩ := g1 _ rfl
      exact ⟨.iter, by simp [getF, hf], by simp, by simp, fun _ => hlen, by simp⟩
    case ok.deque.refl.refl =>
      obtain ⟨f, hf, rfl⟩ := g1 _ rfl
      exact ⟨.deque, by simp [getF, hf], by simp, by simp, fun _ => hlen, by simp⟩
    case ok.mapping.refl.refl =>
      obtain ⟨f, f', hf, hf', rfl⟩ := g2 _ _ rfl
      exact ⟨.mapping, by simp [getF, hf, hf'], by simp, fun _ => hlen, by simp, by simp⟩
    case ok.defaultdict.refl.refl =>
      obtain ⟨f, f', hf, hf', rfl⟩ := g2 _ _ rfl
      exact ⟨.defaultdict, by simp [getF, hf, hf'], by simp, fun _ => hlen, by simp, by simp⟩

/-- A container whose tokens and parts are legal on their own is legal iff it may check its parts: every part is unchecked, or
the container is neither hollow nor a non-specialised generic.  Otherwise class creation raises TypeError. -/
theorem C26_container_exact {d : Style} {h : Hint W} {hs : List (Hint W)} {g : Bool} {c : W.Cls} {args : List (Tok W)} {i : F W}
    (hp : h.parts = some (hs, g)) (hc : h.outer = some c) (hi : makeFiller d [] (.annotated (.cls c) args) = .ok i)
    (hl : ∀ p ∈ hs, ∃ fp, makeFiller d [] p = .ok fp) :
    ((g = true ∨ styleOf d args = .hollow → ∀ p ∈ hs, Unchecked d p none []) →
      ∃ f, makeFiller d [] (.annotated h args) = .ok f) ∧
    (g = true ∨ styleOf d args = .hollow → ∀ p ∈ hs, ¬ Unchecked d p none [] →
      makeFiller d [] (.annotated h args) = .error .typeError) := by
  obtain ⟨h1, h2⟩ := container_exact hp hc hi hl
  refine ⟨fun hx => h1 fun hy p hm fp hfp => (makeFiller_hollow hfp).2 (hx hy p hm), fun hy p hm hn => ?_⟩
  obtain ⟨fp, hfp⟩ := hl p hm
  refine h2 hy p hm fp hfp ?_
  cases hh : fp.isHollow with
  | false => rfl
  | true => exact absurd ((makeFiller_hollow hfp).1 hh) hn

end Records

namespace Records.Toy.Lg
open Records

-- a hollow tuple of checked elements
example : makeFiller (W := Toy.W) .hollow [] (.annotated (.tupleFix [.annotated (.cls Toy.W.boolCls) [.style .check]]) []) =
    .error .typeError :=
  (C26_container_exact (W := Toy.W) (c := Toy.W.tupleCls) rfl rfl rfl (fun p hp => by
    simp only [List.mem_singleton] at hp; subst hp; exact ⟨_, rfl⟩)).2 (.inr rfl) _ (List.mem_singleton.2 rfl) (by simp only [Unchecked]; decide)

-- a generic class with a checked parameter
example : makeFiller (W := Toy.W) .check [] (.annotated (.generic Toy.W.tupleCls [.cls Toy.W.boolCls]) []) = .error .typeError :=
  (C26_container_exact (W := Toy.W) (c := Toy.W.tupleCls) rfl rfl rfl (fun p hp => by
    simp only [List.mem_singleton] at hp; subst hp; exact ⟨_, rfl⟩)).2 (.inl rfl) _ (List.mem_singleton.2 rfl) (by simp only [Unchecked]; decide)

example : BoolType Toy.W.boolCls := .inl rfl
example : ¬ BoolType Toy.W.tupleCls := by
  rintro (h | h)
  · cases h
  · cases h.1

end Records.Toy.Lg
