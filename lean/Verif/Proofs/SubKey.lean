import Verif.Spec.SubKey
import Verif.Proofs.Container
/-
Helper lemmas for the property about `sub_key`.
-/
namespace Records
variable {W : World}

theorem SameFiller.refl (f : F W) : SameFiller f f := ⟨fun _ _ => rfl, fun _ _ => rfl, rfl⟩

theorem Agree.refl (x : Except Exc (F W)) : Agree x x := by
  cases x with
  | ok f => exact .inl ⟨f, f, rfl, rfl, .refl f⟩
  | error e => exact .inr ⟨⟨e, rfl⟩, ⟨e, rfl⟩⟩

/-! ### where a leaf keeps its tokens does not matter -/

/-- a filler without the record of its `Annotated` arguments -/
def Ann.forget (a : Ann W) : Ann W := { a with args := [] }

theorem Ann.forget_apply (a : Ann W) (t : Tok W) : (a.apply t).map Ann.forget = a.forget.apply t := by
  unfold Ann.apply Ann.forget
  simp only
  split
  · rfl
  · cases t with
    | coercion ct => simp only; cases getCoercer a.kind.isBool a.kind.origin ct <;> rfl
    | validation f => simp only; cases f a.kind.origin <;> rfl
    | _ => rfl

theorem Ann.forget_applyAll (ts : List (Tok W)) : ∀ a : Ann W, (a.applyAll ts).map Ann.forget = a.forget.applyAll ts := by
  induction ts with
  | nil => intro a; rfl
  | cons t ts ih =>
    intro a
    simp only [Ann.applyAll]
    rw [← Ann.forget_apply]
    cases a.apply t with
    | error e => rfl
    | ok a' => exact ih a'

theorem Ann.forget_bindBase (a : Ann W) (d : Style) : (a.bindBase d).map Ann.forget = a.forget.bindBase d := by
  unfold Ann.bindBase Ann.forget
  simp only
  split
  · rfl
  · split <;> split <;> rfl

theorem Ann.forget_bindKind (a : Ann W) : a.bindKind.map Ann.forget = a.forget.bindKind := by
  obtain ⟨k, args, st, cs, vs, bd⟩ := a
  cases k with
  | callable => rfl
  | literal id vals => simp only [Ann.bindKind, Ann.forget]; split <;> simp [Except.map, Ann.forget, *]
  | _ => simp only [Ann.bindKind, Ann.forget]; split <;> simp [Except.map, Ann.forget, *]

theorem Ann.applyAll_args (ts : List (Tok W)) : ∀ {a a' : Ann W}, a.applyAll ts = .ok a' → a'.args = a.args := by
  induction ts with
  | nil => intro a a' h; cases h; rfl
  | cons t ts ih =>
    intro a a' h
    simp only [Ann.applyAll] at h
    cases h1 : a.apply t with
    | error e => simp [h1] at h
    | ok a1 =>
      simp only [h1] at h
      rw [ih h]
      unfold Ann.apply at h1
      split at h1
      · cases h1
      · cases t with
        | coercion ct => simp only at h1; split at h1 <;> cases h1; rfl
        | validation f => simp only at h1; split at h1 <;> cases h1; rfl
        | raises e => cases h1
        | _ => cases h1; rfl

/-- `bind` without the record of the arguments: the tokens are applied, then the rest is done -/
def Ann.finish (a : Ann W) (d : Style) (ts : List (Tok W)) : Except Exc (Ann W) :=
  match a.applyAll ts with
  | .error e => .error e
  | .ok a => match a.bindBase d with
    | .error e => .error e
    | .ok a => a.bindKind

theorem Ann.forget_finish (a : Ann W) (d : Style) (ts : List (Tok W)) :
    (a.finish d ts).map Ann.forget = a.forget.finish d ts := by
  unfold Ann.finish
  rw [← Ann.forget_applyAll]
  cases a.applyAll ts with
  | error e => rfl
  | ok a1 =>
    simp only [Except.map]
    rw [← Ann.forget_bindBase]
    cases a1.bindBase d with
    | error e => rfl
    | ok a2 => exact Ann.forget_bindKind a2

theorem Ann.make_eq_finish (d : Style) (k : Kind W) (pre args : List (Tok W)) :
    Ann.make d k pre args = Ann.finish { kind := k, args := args } d (pre ++ args) := by
  unfold Ann.make Ann.finish
  rw [Ann.applyAll_append]
  cases h : Ann.applyAll { kind := k, args := args } pre with
  | error e => rfl
  | ok a =>
    simp only [Ann.bind]
    rw [Ann.applyAll_args _ h]
    rfl

theorem Ann.make_forget (d : Style) (k : Kind W) (pre args pre' args' : List (Tok W)) (h : pre ++ args = pre' ++ args') :
    (Ann.make d k pre args).map Ann.forget = (Ann.make d k pre' args').map Ann.forget := by
  rw [Ann.make_eq_finish, Ann.make_eq_finish, Ann.forget_finish, Ann.forget_finish, h]
  rfl

theorem Ann.fill_forget (a : Ann W) (v : W.Obj) (s : LState W) : a.forget.fill v s = a.fill v s := rfl

theorem Ann.call_forget (a : Ann W) (v : W.Obj) (s : LState W) : a.forget.call v s = a.call v s := rfl

theorem sameFiller_of_forget {a b : Ann W} (h : a.forget = b.forget) : SameFiller (.ann a) (.ann b) := by
  refine ⟨fun v s => ?_, fun v s => ?_, ?_⟩
  · show a.call v s = b.call v s
    rw [← Ann.call_forget a, h, Ann.call_forget]
  · show a.fill v s = b.fill v s
    rw [← Ann.fill_forget a, h, Ann.fill_forget]
  · have : a.style = b.style := congrArg (·.style) h
    simp [F.isHollow, this]

theorem forget_cases {x y : Except Exc (Ann W)} (h : x.map Ann.forget = y.map Ann.forget) :
    (∃ a b, x = .ok a ∧ y = .ok b ∧ a.forget = b.forget) ∨ (∃ e, x = .error e ∧ y = .error e) := by
  cases x with
  | error e => cases y with
    | error e' => cases h; exact .inr ⟨_, rfl, rfl⟩
    | ok b => cases h
  | ok a => cases y with
    | error e' => cases h
    | ok b => simp only [Except.map, Except.ok.injEq] at h; exact .inl ⟨a, b, rfl, rfl, h⟩

/-! ### a container is determined by its own tokens and what its parts do -/

theorem F.call_wrap (b : Bool) (k : WrapKind W) (a : Ann W) (subs : List (F W)) (v : W.Obj) :
    (F.wrap b k a subs).call v = M.bind (a.fill v) fun r => M.pure r.1 := rfl

theorem sameFiller_wrap {k k' : WrapKind W} {a b : Ann W} {bs bs' : List (F W)} (h : a.forget = b.forget) :
    SameFiller (.wrap true k a bs) (.wrap true k' b bs') := by
  have hf : ∀ v, a.fill v = b.fill v := by
    intro v
    have : a.forget.fill v = b.forget.fill v := by rw [h]
    exact this
  refine ⟨fun v s => ?_, fun v s => ?_, ?_⟩
  · rw [F.call_wrap, F.call_wrap, hf]
  · show a.fill v s = b.fill v s
    rw [hf]
  · have : a.style = b.style := congrArg (·.style) h
    simp [F.isHollow, this]

/-- pointwise the same -/
inductive SameL : List (F W) → List (F W) → Prop
  | nil : SameL [] []
  | cons {f g fs gs} : SameFiller f g → SameL fs gs → SameL (f :: fs) (g :: gs)

theorem SameL.length {fs gs : List (F W)} (h : SameL fs gs) : fs.length = gs.length := by
  induction h with
  | nil => rfl
  | cons _ _ ih => simp [ih]

theorem SameL.allHollow {fs gs : List (F W)} (h : SameL fs gs) : F.allHollow fs = F.allHollow gs := by
  induction h with
  | nil => rfl
  | cons h _ ih => simp [F.allHollow, ih, h.2.2]

theorem SameFiller.call_eq {f g : F W} (h : SameFiller f g) : f.call = g.call := by
  funext v s; exact h.1 v s

theorem SameL.calls {fs gs : List (F W)} (h : SameL fs gs) : fs.map F.call = gs.map F.call := by
  induction h with
  | nil => rfl
  | cons h _ ih => simp [ih, h.call_eq]

theorem SameL.fills {fs gs : List (F W)} (h : SameL fs gs) : F.fills fs = F.fills gs := by
  induction h with
  | nil => rfl
  | @cons f g _ _ h _ ih =>
    have : f.fill = g.fill := by funext v s; exact h.2.1 v s
    simp [F.fills, ih, this]

theorem Ann.forget_addValidator (a : Ann W) (f : Coercer W) : (a.addValidator f).forget = a.forget.addValidator f := rfl

theorem wrapFinish_congr (k : WrapKind W) {a b : Ann W} (hab : a.forget = b.forget) {fs gs : List (F W)} (h : SameL fs gs) :
    (wrapFinish k a fs).map Ann.forget = (wrapFinish k b gs).map Ann.forget := by
  have hst : a.style = b.style := congrArg (·.style) hab
  have e0 : ∀ f : Coercer W, (a.addValidator f).forget = (b.addValidator f).forget := by
    intro f; rw [Ann.forget_addValidator, Ann.forget_addValidator, hab]
  have e1 : ∀ f g : Coercer W, ((a.addValidator f).addValidator g).forget = ((b.addValidator f).addValidator g).forget := by
    intro f g
    show (a.addValidator f).forget.addValidator g = (b.addValidator f).forget.addValidator g
    rw [e0]
  unfold wrapFinish
  cases k with
  | typeF base => simp only [hst]; split <;> simp [Except.map, hab, e0]
  | generic => simp only [h.allHollow]; split <;> simp [Except.map, hab]
  | tupleFix =>
    simp only [hst, h.allHollow, h.length, h.calls]
    split
    · split <;> simp [Except.map, hab, e0]
    · split
      · rfl
      · simp [Except.map, e1]
  | tupleVar | iter | deque =>
    cases h with
    | nil => simp [Except.map, hab]
    | cons h1 hr =>
      cases hr with
      | nil =>
        simp only [h1.2.2, hst, h1.call_eq]
        split
        · simp [Except.map, hab]
        · split
          · rfl
          · simp [Except.map, e0]
      | cons _ _ => simp [Except.map, hab]
  | mapping | defaultdict =>
    cases h with
    | nil => simp [Except.map, hab]
    | cons h1 hr =>
      cases hr with
      | nil => simp [Except.map, hab]
      | cons h2 hr =>
        cases hr with
        | nil =>
          simp only [h1.2.2, h2.2.2, hst, h1.call_eq, h2.call_eq]
          split
          · simp [Except.map, hab]
          · split
            · rfl
            · simp [Except.map, e0]
        | cons _ _ => simp [Except.map, hab]

/-! ### tokens applied to a filler or listed in `Annotated` -/

/-- applied to the filler, then bound -/
def appliedTo (d : Style) (ts : List (Tok W)) (x : Except Exc (F W)) : Except Exc (F W) :=
  match x with
  | .error e => .error e
  | .ok f => match f.applyAll ts with
    | .ok f => f.bind d
    | .error e => .error e

theorem agree_ann (d : Style) (k : Kind W) (ts us : List (Tok W)) :
    Agree (appliedTo d ts (.ok (.ann { kind := k, args := us }))) (appliedTo d [] (.ok (.ann { kind := k, args := ts ++ us }))) := by
  have e1 : appliedTo d ts (.ok (.ann { kind := k, args := us })) = (Ann.make d k ts us).map F.ann := by
    unfold appliedTo Ann.make
    simp only [F.applyAll_ann]
    cases Ann.applyAll { kind := k, args := us } ts with
    | error e => rfl
    | ok a => rfl
  have e2 : appliedTo d [] (.ok (.ann { kind := k, args := ts ++ us })) = (Ann.make d k [] (ts ++ us)).map F.ann := rfl
  rw [e1, e2]
  rcases forget_cases (Ann.make_forget d k ts us [] (ts ++ us) (by simp)) with ⟨a, b, ha, hb, hab⟩ | ⟨e, ha, hb⟩
  · rw [ha, hb]
    exact .inl ⟨_, _, rfl, rfl, sameFiller_of_forget hab⟩
  · rw [ha, hb]
    exact .inr ⟨⟨e, rfl⟩, ⟨e, rfl⟩⟩

theorem agree_wrap (d : Style) (k : WrapKind W) (kind : Kind W) (ts us : List (Tok W)) (subs : List (F W)) :
    Agree (appliedTo d ts (.ok (.wrap false k { kind := kind, args := us } subs)))
      (appliedTo d [] (.ok (.wrap false k { kind := kind, args := ts ++ us } subs))) := by
  have e : ∀ ts ts' : List (Tok W), appliedTo d ts (.ok (.wrap false k { kind := kind, args := ts' } subs)) =
      match Ann.make d kind ts ts' with
      | .error e => .error e
      | .ok i => match F.bindAll d subs with
        | .error e => .error e
        | .ok subs' => match wrapFinish k i subs' with
          | .error e => .error e
          | .ok i' => .ok (.wrap true k i' subs') := by
    intro ts ts'
    unfold appliedTo Ann.make
    simp only [F.applyAll_wrap]
    cases Ann.applyAll { kind := kind, args := ts' } ts with
    | error e => rfl
    | ok a =>
      simp only [Except.map, F.bind, Bool.false_eq_true, if_false]
      cases a.bind d with
      | error e => rfl
      | ok a' => rfl
  rw [e, e]
  rcases forget_cases (Ann.make_forget d kind ts us [] (ts ++ us) (by simp)) with ⟨a, b, ha, hb, hab⟩ | ⟨e, ha, hb⟩
  · rw [ha, hb]
    simp only
    cases F.bindAll d subs with
    | error e => exact .inr ⟨⟨e, rfl⟩, ⟨e, rfl⟩⟩
    | ok subs' =>
      simp only
      have hs : SameL subs' subs' := by
        induction subs' with
        | nil => exact .nil
        | cons f fs ih => exact .cons (.refl f) ih
      rcases forget_cases (wrapFinish_congr k hab hs) with ⟨a', b', ha', hb', hab'⟩ | ⟨e, ha', hb'⟩
      · rw [ha', hb']
        exact .inl ⟨_, _, rfl, rfl, sameFiller_wrap hab'⟩
      · rw [ha', hb']
        exact .inr ⟨⟨e, rfl⟩, ⟨e, rfl⟩⟩
  · rw [ha, hb]
    exact .inr ⟨⟨e, rfl⟩, ⟨e, rfl⟩⟩

theorem agree_union (d : Style) (ts us : List (Tok W)) (subs : List (F W)) :
    Agree (appliedTo d ts (.ok (.union false us [] subs))) (appliedTo d [] (.ok (.union false (us ++ ts) [] subs))) := by
  unfold appliedTo
  simp only [F.applyAll_union, F.bind, Bool.false_eq_true, if_false, List.nil_append, List.append_nil]
  cases F.bindUnion d (us ++ ts) subs with
  | error e => exact .inr ⟨⟨e, rfl⟩, ⟨e, rfl⟩⟩
  | ok bs => exact .inl ⟨_, _, rfl, rfl, fun _ _ => rfl, fun _ _ => rfl, rfl⟩

theorem agree_dumb (d : Style) (ts us : List (Tok W)) :
    Agree (appliedTo d ts (if us.isEmpty then .ok (.dumb false) else .error .typeError))
      (appliedTo d [] (if (ts ++ us).isEmpty then .ok (.dumb false) else .error .typeError)) := by
  cases us with
  | cons u us => exact .inr ⟨⟨.typeError, rfl⟩, ⟨.typeError, by cases ts <;> rfl⟩⟩
  | nil =>
    cases ts with
    | nil => exact .refl _
    | cons t ts => exact .inr ⟨⟨.typeError, rfl⟩, ⟨.typeError, rfl⟩⟩

/-- the tokens a filler ends up with -/
inductive TokensMerged : Hint W → List (Tok W) → List (Tok W) → List (Tok W) → Prop
  | front {h ts us} : ¬ h.Union → TokensMerged h ts us (ts ++ us)
  | behind {h ts us} : h.Union → TokensMerged h ts us (us ++ ts)

theorem TokensMerged.get {h : Hint W} {ts us vs : List (Tok W)} (h1 : TokensMerged h ts us vs) (hn : ¬ h.Union) : vs = ts ++ us := by
  cases h1 with
  | front => rfl
  | behind h => exact absurd h hn

theorem agree_getF (d : Style) (ts us : List (Tok W)) : (h : Hint W) → {vs : List (Tok W)} → TokensMerged h ts us vs →
    Agree (appliedTo d ts (getF h (some us))) (appliedTo d [] (getF h (some vs)))
  | .newType h, vs, hv => by
    simp only [getF]
    refine agree_getF d ts us h ?_
    cases hv with
    | front hn => exact .front fun hu => hn (.newType hu)
    | behind hu => cases hu with | newType hu => exact .behind hu
  | .union hs, vs, hv => by
    simp only [getF]
    have : vs = us ++ ts := by
      cases hv with
      | front hn => exact absurd (.union hs) hn
      | behind => rfl
    subst this
    cases getFs hs with
    | error e => exact .refl _
    | ok fs => exact agree_union d _ _ fs
  | .cls c, vs, hv => by rw [hv.get nofun]; exact agree_ann d (classKind c) _ _
  | .none, vs, hv => by rw [hv.get nofun]; exact agree_ann d _ _ _
  | .any, vs, hv => by rw [hv.get nofun]; exact agree_ann d _ _ _
  | .callable, vs, hv => by rw [hv.get nofun]; exact agree_ann d _ _ _
  | .literal id vals, vs, hv => by rw [hv.get nofun]; exact agree_ann d _ _ _
  | .typeBare, vs, hv => by rw [hv.get nofun]; exact agree_ann d _ _ _
  | .typeOf base, vs, hv => by rw [hv.get nofun]; exact agree_wrap d _ _ _ _ _
  | .tupleFix hs, vs, hv => by
    rw [hv.get nofun]
    simp only [getF]
    cases getFs hs with
    | error e => exact .refl _
    | ok fs => exact agree_wrap d _ _ _ _ _
  | .tupleVar h, vs, hv => by
    rw [hv.get nofun]
    simp only [getF]
    cases getF h none with
    | error e => exact .refl _
    | ok fs => exact agree_wrap d _ _ _ _ _
  | .iter c h, vs, hv => by
    rw [hv.get nofun]
    simp only [getF]
    cases getF h none with
    | error e => exact .refl _
    | ok fs => exact agree_wrap d _ _ _ _ _
  | .deque c h, vs, hv => by
    rw [hv.get nofun]
    simp only [getF]
    cases getF h none with
    | error e => exact .refl _
    | ok fs => exact agree_wrap d _ _ _ _ _
  | .mapping c k v, vs, hv => by
    rw [hv.get nofun]
    simp only [getF]
    cases getF k none with
    | error e => exact .refl _
    | ok fk =>
      simp only
      cases getF v none with
      | error e => exact .refl _
      | ok fv => exact agree_wrap d _ _ _ _ _
  | .defaultdict c k v, vs, hv => by
    rw [hv.get nofun]
    simp only [getF]
    cases getF k none with
    | error e => exact .refl _
    | ok fk =>
      simp only
      cases getF v none with
      | error e => exact .refl _
      | ok fv => exact agree_wrap d _ _ _ _ _
  | .generic c hs, vs, hv => by rw [hv.get nofun]; simp only [getF]; exact agree_wrap d _ _ _ _ _
  | .bareGeneric c, vs, hv => by rw [hv.get nofun]; exact agree_ann d _ _ _
  | .annotated h toks, vs, hv => by rw [hv.get nofun]; simp only [getF]; exact agree_dumb d _ _
  | .opaque, vs, hv => by rw [hv.get nofun]; simp only [getF, Option.getD]; exact agree_dumb d _ _

theorem getF_none {h : Hint W} (hn : ∀ h' ts, h ≠ .annotated h' ts) : getF h none = getF h (some []) := by
  cases h with
  | annotated h' ts => exact absurd rfl (hn h' ts)
  | _ => simp only [getF, Option.getD]

/-- tokens applied to a part, or written into the hint of the part -/
theorem agree_member (d : Style) {h h' : Hint W} {ts : List (Tok W)} (ha : Amended h ts h') :
    Agree (memberFiller d ts h) (memberFiller d [] h') := by
  cases ha with
  | nothing => exact .refl _
  | plain hn ht =>
    have : Agree (appliedTo d ts (getF h (some []))) (appliedTo d [] (getF h (some ts))) := by
      refine agree_getF d ts [] h ?_
      by_cases hu : h.Union
      · exact .behind hu
      · have := TokensMerged.front (ts := ts) (us := []) hu
        rwa [List.append_nil] at this
    rw [← getF_none hn] at this
    exact this
  | front hn ht => exact agree_getF d ts _ _ (.front hn)
  | behind hu ht => exact agree_getF d ts _ _ (.behind hu)

/-! ### tokens with a key -/

/-- a key that addresses one of `n` parts -/
def keyOk (neg : Bool) (n : Nat) (i : Int) : Prop := ∃ j : Nat, j < n ∧ (i = j ∨ (neg = true ∧ i = (j : Int) - n))

/-- the number of parts a wrapper of this kind has -/
def WrapKind.shape : WrapKind W → Nat → Prop
  | .tupleFix, _ => True
  | .tupleVar, n | .iter, n | .deque, n => n = 1
  | .mapping, n | .defaultdict, n => n = 2
  | .typeF _, _ | .generic, _ => False

theorem at_ok {g : F W → Except Exc (F W)} {subs : List (F W)} {j : Nat} {re : List (F W) → F W} {f f' : F W}
    (h : subs[j]? = some f) (hf : g f = .ok f') : F.withSub.at_ g subs (some j) re = .ok (re (subs.set j f')) := by
  simp only [F.withSub.at_, h, hf]

theorem pyIndex_of {n : Nat} {i : Int} {j : Nat} (hj : j < n) (h : i = j ∨ i = (j : Int) - n) : pyIndex n i = some j := by
  unfold pyIndex
  rcases h with rfl | rfl
  · rw [if_pos (by omega)]; simp
  · rw [if_neg (by omega), if_pos (by omega)]
    congr 1; omega

theorem applySub_wrap_ok {k : WrapKind W} {inner : Ann W} {subs : List (F W)} (hs : k.shape subs.length) {i : Int} {t : Tok W}
    {j : Nat} (hj : j < subs.length) (hi : i = j ∨ (k.negKeys = true ∧ i = (j : Int) - subs.length)) {g g' : F W}
    (hg : subs[j]? = some g) (ha : g.apply t = .ok g') :
    F.applySub (.wrap false k inner subs) (some i) t = .ok (.wrap false k inner (subs.set j g')) := by
  have core := at_ok (g := fun g => g.apply t) (re := .wrap false k inner) hg ha
  unfold F.applySub F.withSub
  cases k with
  | typeF b => exact hs.elim
  | generic => exact hs.elim
  | tupleFix | tupleVar =>
    simp only
    rw [pyIndex_of hj (by simpa [WrapKind.negKeys] using hi)]
    exact core
  | iter | deque =>
    simp only [WrapKind.shape] at hs
    simp only [WrapKind.negKeys] at hi
    have : j = 0 := by omega
    subst this
    have hi : i = 0 := by rcases hi with h | ⟨h, -⟩; exact h; cases h
    simp only [hi, if_true]
    exact core
  | mapping | defaultdict =>
    simp only [WrapKind.shape] at hs
    simp only [WrapKind.negKeys] at hi
    have hi : i = (j : Int) := by rcases hi with h | ⟨h, -⟩; exact h; cases h
    rcases (show j = 0 ∨ j = 1 by omega) with rfl | rfl
    · simp only [hi]
      exact core
    · simp only [hi]
      exact core

theorem partTokens_cons (neg : Bool) (n j : Nat) (q : Option Int × Tok W) (pre : List (Option Int × Tok W)) :
    partTokens neg n j (q :: pre) = partTokens neg n j [q] ++ partTokens neg n j pre := by
  simp only [partTokens, ← List.filterMap_append, List.singleton_append]

theorem partTokens_here {neg : Bool} {n j : Nat} {i : Int} {t : Tok W} (h : i = j ∨ (neg = true ∧ i = (j : Int) - n)) :
    partTokens neg n j [(some i, t)] = [t] := by
  have h2 : (some i = some (j : Int) ∨ (neg = true ∧ some i = some ((j : Int) - n))) := by simpa using h
  simp only [partTokens, List.filterMap_cons, if_pos h2, List.filterMap_nil]

theorem partTokens_not {neg : Bool} {n j : Nat} {i : Int} {t : Tok W} (h : ¬ (i = j ∨ (neg = true ∧ i = (j : Int) - n))) :
    partTokens neg n j [(some i, t)] = [] := by
  have h2 : ¬ (some i = some (j : Int) ∨ (neg = true ∧ some i = some ((j : Int) - n))) := by simpa using h
  simp only [partTokens, List.filterMap_cons, if_neg h2, List.filterMap_nil]

theorem partTokens_own {neg : Bool} {n j : Nat} {t : Tok W} : partTokens neg n j [((none : Option Int), t)] = [] := by
  simp [partTokens]

theorem key_unique {neg : Bool} {n j j' : Nat} {i : Int} (hj : j < n) (hj' : j' < n)
    (h : i = j ∨ (neg = true ∧ i = (j : Int) - n)) (h' : i = j' ∨ (neg = true ∧ i = (j' : Int) - n)) : j' = j := by
  rcases h with h | ⟨-, h⟩ <;> rcases h' with h' | ⟨-, h'⟩ <;> omega

/-- the state of the parts after one keyed token -/
theorem parts_step {neg : Bool} {subs : List (F W)} {i : Int} {t : Tok W} {pre : List (Option Int × Tok W)} {j : Nat}
    (hj : j < subs.length) (hi : i = j ∨ (neg = true ∧ i = (j : Int) - subs.length)) {g g' : F W} (hg : subs[j]? = some g)
    (ha : g.apply t = .ok g')
    (h : ∀ (j : Nat) (g : F W), subs[j]? = some g →
      ∃ r, g.applyAll (partTokens neg subs.length j ((some i, t) :: pre)) = .ok r) :
    ∀ (j' : Nat) (g : F W), (subs.set j g')[j']? = some g →
      ∃ r, g.applyAll (partTokens neg (subs.set j g').length j' pre) = .ok r := by
  intro j' g0 hg0
  have hlt : j' < subs.length := by simpa using (List.getElem?_eq_some_iff.1 hg0).1
  rw [List.length_set]
  by_cases hjj : j' = j
  · subst hjj
    obtain ⟨r, hr⟩ := h j' g hg
    rw [partTokens_cons, partTokens_here hi, List.singleton_append] at hr
    simp only [F.applyAll, ha] at hr
    rw [List.getElem?_set_self hlt] at hg0
    cases hg0
    exact ⟨r, hr⟩
  · rw [List.getElem?_set_ne (Ne.symm hjj)] at hg0
    obtain ⟨r, hr⟩ := h j' g0 hg0
    rw [partTokens_cons, partTokens_not (fun hx => hjj (key_unique hj hlt hi hx)), List.nil_append] at hr
    exact ⟨r, hr⟩

theorem parts_step_apply {neg : Bool} {subs : List (F W)} {i : Int} {t : Tok W} {pre : List (Option Int × Tok W)} {j : Nat}
    (hi : i = j ∨ (neg = true ∧ i = (j : Int) - subs.length)) {g : F W} (hg : subs[j]? = some g)
    (h : ∀ (j : Nat) (g : F W), subs[j]? = some g →
      ∃ r, g.applyAll (partTokens neg subs.length j ((some i, t) :: pre)) = .ok r) : ∃ g', g.apply t = .ok g' := by
  obtain ⟨r, hr⟩ := h j g hg
  rw [partTokens_cons, partTokens_here hi, List.singleton_append] at hr
  simp only [F.applyAll] at hr
  cases ha : g.apply t with
  | error e => simp [ha] at hr
  | ok g' => exact ⟨g', rfl⟩

theorem ownTokens_some (i : Int) (t : Tok W) (pre : List (Option Int × Tok W)) : ownTokens ((some i, t) :: pre) = ownTokens pre := rfl

theorem ownTokens_none (t : Tok W) (pre : List (Option Int × Tok W)) : ownTokens ((none, t) :: pre) = t :: ownTokens pre := rfl

/-- the converse of `applyPre_wrap` -/
theorem applyPre_wrap_ok {k : WrapKind W} : ∀ {pre : List (Option Int × Tok W)} {inner inner' : Ann W} {subs : List (F W)},
    k.shape subs.length → (∀ q ∈ pre, ∀ i, q.1 = some i → keyOk k.negKeys subs.length i) →
    inner.applyAll (ownTokens pre) = .ok inner' →
    (∀ (j : Nat) (g : F W), subs[j]? = some g → ∃ g' : F W, g.applyAll (partTokens k.negKeys subs.length j pre) = .ok g') →
    ∃ f, F.applyPre (.wrap false k inner subs) pre = .ok f
  | [], inner, _, subs, _, _, _, _ => ⟨_, rfl⟩
  | (none, t) :: pre, inner, inner', subs, hs, hv, hi, h => by
    rw [ownTokens_none] at hi
    simp only [Ann.applyAll] at hi
    cases h1 : inner.apply t with
    | error e => simp [h1] at hi
    | ok i1 =>
      simp only [h1] at hi
      have := applyPre_wrap_ok (k := k) (pre := pre) hs (fun q hq => hv q (.tail _ hq)) hi (fun j g hg => by
        have := h j g hg
        rw [partTokens_cons, partTokens_own, List.nil_append] at this
        exact this)
      simp only [F.applyPre, F.applySub, F.withSub, F.apply, h1, Except.map]
      exact this
  | (some i, t) :: pre, inner, inner', subs, hs, hv, hi, h => by
    rw [ownTokens_some] at hi
    obtain ⟨j, hj, hk⟩ := hv _ (.head _) i rfl
    obtain ⟨g, hg⟩ : ∃ g, subs[j]? = some g := ⟨_, List.getElem?_eq_getElem hj⟩
    obtain ⟨g', ha⟩ := parts_step_apply hk hg h
    have step := applySub_wrap_ok (inner := inner) hs hj hk hg ha
    have hl : (subs.set j g').length = subs.length := List.length_set
    obtain ⟨f, hf⟩ := applyPre_wrap_ok (k := k) (pre := pre) (inner := inner) (subs := subs.set j g') (by rw [hl]; exact hs)
      (fun q hq => by rw [hl]; exact hv q (.tail _ hq)) hi (parts_step hj hk hg ha h)
    refine ⟨f, ?_⟩
    simp only [F.applyPre]
    rw [step]
    exact hf

/-! ### unions -/

theorem applySub_union_ok {args app : List (Tok W)} {subs : List (F W)} {i : Int} {t : Tok W} {j : Nat} (hj : j < subs.length)
    (hi : i = j ∨ i = (j : Int) - subs.length) {g g' : F W} (hg : subs[j]? = some g) (ha : g.apply t = .ok g') :
    F.applySub (.union false args app subs) (some i) t = .ok (.union false args app (subs.set j g')) := by
  unfold F.applySub F.withSub
  simp only
  rw [pyIndex_of hj hi]
  exact at_ok (g := fun g => g.apply t) (re := .union false args app) hg ha

theorem applyPre_union : ∀ {pre : List (Option Int × Tok W)} {args app : List (Tok W)} {subs : List (F W)} {f : F W},
    F.applyPre (.union false args app subs) pre = .ok f →
    ∃ subs', f = .union false args (app ++ ownTokens pre) subs' ∧ subs'.length = subs.length ∧
      ∀ (j : Nat) (g : F W), subs[j]? = some g → ∃ g' : F W, subs'[j]? = some g' ∧
        g.applyAll (partTokens true subs.length j pre) = .ok g'
  | [], args, app, subs, f, h => by
    simp only [F.applyPre, Except.ok.injEq] at h
    subst h
    exact ⟨subs, by simp [ownTokens], rfl, fun j g hg => ⟨g, hg, rfl⟩⟩
  | (none, t) :: pre, args, app, subs, f, h => by
    simp only [F.applyPre, F.applySub, F.withSub, F.apply, Bool.false_eq_true, if_false] at h
    obtain ⟨subs', rfl, hl, hp⟩ := applyPre_union h
    refine ⟨subs', by rw [ownTokens_none]; simp, hl, fun j g hg => ?_⟩
    obtain ⟨g', hg', ha⟩ := hp j g hg
    refine ⟨g', hg', ?_⟩
    rw [partTokens_cons, partTokens_own, List.nil_append]
    exact ha
  | (some i, t) :: pre, args, app, subs, f, h => by
    simp only [F.applyPre] at h
    cases h1 : F.applySub (.union false args app subs) (some i) t with
    | error e => simp [h1] at h
    | ok f1 =>
      simp only [h1] at h
      simp only [F.applySub, F.withSub] at h1
      cases hp : pyIndex subs.length i with
      | none => simp [hp, F.withSub.at_] at h1
      | some j =>
        obtain ⟨hj, hk⟩ := pyIndex_some hp
        obtain ⟨g, hg⟩ : ∃ g, subs[j]? = some g := ⟨_, List.getElem?_eq_getElem hj⟩
        simp only [hp, F.withSub.at_, hg] at h1
        cases ha : g.apply t with
        | error e => simp [ha] at h1
        | ok g' =>
          simp only [ha, Except.ok.injEq] at h1
          subst h1
          obtain ⟨subs', rfl, hl, hps⟩ := applyPre_union h
          rw [List.length_set] at hl hps
          have hk' : i = (j : Int) ∨ (true = true ∧ i = (j : Int) - subs.length) := by simpa using hk
          refine ⟨subs', by rw [ownTokens_some], hl, fun j' g0 hg0 => ?_⟩
          have hlt : j' < subs.length := (List.getElem?_eq_some_iff.1 hg0).1
          by_cases hjj : j' = j
          · subst hjj
            rw [hg] at hg0
            cases hg0
            obtain ⟨r, hr, har⟩ := hps j' g' (List.getElem?_set_self hlt)
            refine ⟨r, hr, ?_⟩
            rw [partTokens_cons, partTokens_here hk', List.singleton_append]
            simp only [F.applyAll, ha]
            exact har
          · obtain ⟨r, hr, har⟩ := hps j' g0 (by rw [List.getElem?_set_ne (Ne.symm hjj)]; exact hg0)
            refine ⟨r, hr, ?_⟩
            rw [partTokens_cons, partTokens_not (fun hx => hjj (key_unique hj hlt hk' hx)), List.nil_append]
            exact har

theorem applyPre_union_ok : ∀ {pre : List (Option Int × Tok W)} {args app : List (Tok W)} {subs : List (F W)},
    (∀ q ∈ pre, ∀ i, q.1 = some i → keyOk true subs.length i) →
    (∀ (j : Nat) (g : F W), subs[j]? = some g → ∃ g' : F W, g.applyAll (partTokens true subs.length j pre) = .ok g') →
    ∃ f, F.applyPre (.union false args app subs) pre = .ok f
  | [], _, _, _, _, _ => ⟨_, rfl⟩
  | (none, t) :: pre, args, app, subs, hv, h => by
    simp only [F.applyPre, F.applySub, F.withSub, F.apply, Bool.false_eq_true, if_false]
    refine applyPre_union_ok (fun q hq => hv q (.tail _ hq)) (fun j g hg => ?_)
    have := h j g hg
    rw [partTokens_cons, partTokens_own, List.nil_append] at this
    exact this
  | (some i, t) :: pre, args, app, subs, hv, h => by
    obtain ⟨j, hj, hk⟩ := hv _ (.head _) i rfl
    obtain ⟨g, hg⟩ : ∃ g, subs[j]? = some g := ⟨_, List.getElem?_eq_getElem hj⟩
    obtain ⟨g', ha⟩ := parts_step_apply hk hg h
    have step := applySub_union_ok (args := args) (app := app) hj (by simpa using hk) hg ha
    have hl : (subs.set j g').length = subs.length := List.length_set
    obtain ⟨f, hf⟩ := applyPre_union_ok (pre := pre) (args := args) (app := app) (subs := subs.set j g')
      (fun q hq => by rw [hl]; exact hv q (.tail _ hq)) (parts_step hj hk hg ha h)
    refine ⟨f, ?_⟩
    simp only [F.applyPre]
    rw [step]
    exact hf

/-! ### lists of parts -/

/-- filler by filler: `x j` for every index -/
def AllOk (n : Nat) (x : Nat → Except Exc (F W)) (bs : List (F W)) : Prop :=
  bs.length = n ∧ ∀ j b, bs[j]? = some b → x j = .ok b

theorem allOk_exists {n : Nat} {x : Nat → Except Exc (F W)} (h : ∀ j, j < n → ∃ b, x j = .ok b) : ∃ bs, AllOk n x bs := by
  induction n with
  | zero => exact ⟨[], rfl, fun j b h => by simp at h⟩
  | succ n ih =>
    obtain ⟨bs, hl, hb⟩ := ih (fun j hj => h j (by omega))
    obtain ⟨b, hn⟩ := h n (by omega)
    refine ⟨bs ++ [b], by simp [hl], fun j c hc => ?_⟩
    rw [List.getElem?_append] at hc
    split at hc
    · exact hb j c hc
    · rename_i hlt
      have : j = n := by
        have := (List.getElem?_eq_some_iff.1 hc).1
        simp at this; omega
      subst this
      simp [hl] at hc
      rw [← hc]; exact hn

theorem bindAll_allOk {d : Style} : ∀ {subs bs : List (F W)},
    F.bindAll d subs = .ok bs ↔ (bs.length = subs.length ∧ ∀ (j : Nat) g b, subs[j]? = some g → bs[j]? = some b → g.bind d = .ok b)
  | [], bs => by
    simp only [F.bindAll]
    constructor
    · intro h; cases h; exact ⟨rfl, fun j g b h => by simp at h⟩
    · rintro ⟨h, -⟩
      cases bs with
      | nil => rfl
      | cons b bs => simp at h
  | f :: fs, bs => by
    simp only [F.bindAll]
    constructor
    · intro h
      cases h1 : f.bind d with
      | error e => simp [h1] at h
      | ok f' =>
        simp only [h1] at h
        cases h2 : F.bindAll d fs with
        | error e => simp [h2] at h
        | ok fs' =>
          simp only [h2, Except.ok.injEq] at h
          subst h
          obtain ⟨hl, hp⟩ := bindAll_allOk.1 h2
          refine ⟨by simp [hl], fun j g b hg hb => ?_⟩
          cases j with
          | zero => simp at hg hb; rw [← hg, ← hb]; exact h1
          | succ j => simp at hg hb; exact hp j g b hg hb
    · rintro ⟨hl, hp⟩
      cases bs with
      | nil => simp at hl
      | cons b bs =>
        have h1 : f.bind d = .ok b := hp 0 f b rfl rfl
        have h2 : F.bindAll d fs = .ok bs := bindAll_allOk.2 ⟨by simpa using hl, fun j g b hg hb => hp (j + 1) g b (by simpa using hg) (by simpa using hb)⟩
        simp [h1, h2]

theorem bindUnion_allOk {d : Style} {toks : List (Tok W)} : ∀ {subs bs : List (F W)},
    F.bindUnion d toks subs = .ok bs ↔
      (bs.length = subs.length ∧ ∀ (j : Nat) g b, subs[j]? = some g → bs[j]? = some b → F.applyBind d toks g = .ok b)
  | [], bs => by
    simp only [F.bindUnion]
    constructor
    · intro h; cases h; exact ⟨rfl, fun j g b h => by simp at h⟩
    · rintro ⟨h, -⟩
      cases bs with
      | nil => rfl
      | cons b bs => simp at h
  | f :: fs, bs => by
    simp only [F.bindUnion]
    constructor
    · intro h
      cases h1 : F.applyBind d toks f with
      | error e => simp [h1] at h
      | ok f' =>
        simp only [h1] at h
        cases h2 : F.bindUnion d toks fs with
        | error e => simp [h2] at h
        | ok fs' =>
          simp only [h2, Except.ok.injEq] at h
          subst h
          obtain ⟨hl, hp⟩ := bindUnion_allOk.1 h2
          refine ⟨by simp [hl], fun j g b hg hb => ?_⟩
          cases j with
          | zero => simp at hg hb; rw [← hg, ← hb]; exact h1
          | succ j => simp at hg hb; exact hp j g b hg hb
    · rintro ⟨hl, hp⟩
      cases bs with
      | nil => simp at hl
      | cons b bs =>
        have h1 : F.applyBind d toks f = .ok b := hp 0 f b rfl rfl
        have h2 : F.bindUnion d toks fs = .ok bs := bindUnion_allOk.2 ⟨by simpa using hl, fun j g b hg hb => hp (j + 1) g b (by simpa using hg) (by simpa using hb)⟩
        simp [h1, h2]

theorem getFs_iff : ∀ {hs : List (Hint W)} {fs : List (F W)},
    getFs hs = .ok fs ↔ (fs.length = hs.length ∧ ∀ (j : Nat) h f, hs[j]? = some h → fs[j]? = some f → getFiller h = .ok f)
  | [], fs => by
    simp only [getFs]
    constructor
    · intro h; cases h; exact ⟨rfl, fun j g b h => by simp at h⟩
    · rintro ⟨h, -⟩
      cases fs with
      | nil => rfl
      | cons b bs => simp at h
  | h :: hs, fs => by
    simp only [getFs]
    constructor
    · intro e
      cases h1 : getF h none with
      | error e' => simp [h1] at e
      | ok f' =>
        simp only [h1] at e
        cases h2 : getFs hs with
        | error e' => simp [h2] at e
        | ok fs' =>
          simp only [h2, Except.ok.injEq] at e
          subst e
          obtain ⟨hl, hp⟩ := getFs_iff.1 h2
          refine ⟨by simp [hl], fun j g b hg hb => ?_⟩
          cases j with
          | zero => simp at hg hb; rw [← hg, ← hb]; exact h1
          | succ j => simp at hg hb; exact hp j g b hg hb
    · rintro ⟨hl, hp⟩
      cases fs with
      | nil => simp at hl
      | cons b bs =>
        have h1 : getF h none = .ok b := hp 0 h b rfl rfl
        have h2 : getFs hs = .ok bs := getFs_iff.2 ⟨by simpa using hl, fun j g b hg hb => hp (j + 1) g b (by simpa using hg) (by simpa using hb)⟩
        simp [h1, h2]

/-! ### container hints -/

/-- the wrapper, the class and the parts of a container hint -/
inductive ContainerOf : Hint W → WrapKind W → W.Cls → List (Hint W) → Prop
  | iter (c h) : ContainerOf (.iter c h) .iter c [h]
  | deque (c h) : ContainerOf (.deque c h) .deque c [h]
  | mapping (c k v) : ContainerOf (.mapping c k v) .mapping c [k, v]
  | defaultdict (c k v) : ContainerOf (.defaultdict c k v) .defaultdict c [k, v]
  | tupleVar (h) : ContainerOf (.tupleVar h) .tupleVar W.tupleCls [h]
  | tupleFix (hs) : ContainerOf (.tupleFix hs) .tupleFix W.tupleCls hs

theorem ContainerOf.shape {h : Hint W} {k : WrapKind W} {c : W.Cls} {hs : List (Hint W)} (hc : ContainerOf h k c hs) :
    k.shape hs.length := by
  cases hc <;> simp [WrapKind.shape]

theorem ContainerOf.getF_eq {h : Hint W} {k : WrapKind W} {c : W.Cls} {hs : List (Hint W)} (hc : ContainerOf h k c hs)
    (args : List (Tok W)) :
    getF h (some args) = match getFs hs with
      | .ok fs => .ok (.wrap false k (classAnn c args) fs)
      | .error e => .error e := by
  cases hc with
  | iter c h => simp only [getF, getFs, Option.getD]; cases getF h none <;> rfl
  | deque c h => simp only [getF, getFs, Option.getD]; cases getF h none <;> rfl
  | tupleVar h => simp only [getF, getFs, Option.getD]; cases getF h none <;> rfl
  | tupleFix hs => simp only [getF, Option.getD]; cases getFs hs <;> rfl
  | mapping c k v => simp only [getF, getFs, Option.getD]; cases getF k none <;> simp only []; cases getF v none <;> rfl
  | defaultdict c k v => simp only [getF, getFs, Option.getD]; cases getF k none <;> simp only []; cases getF v none <;> rfl

/-- what a container field needs to be legal, and what its filler is -/
theorem container_iff {h : Hint W} {k : WrapKind W} {c : W.Cls} {hs : List (Hint W)} (hc : ContainerOf h k c hs) {d : Style}
    {pre : List (Option Int × Tok W)} {args : List (Tok W)} (hv : ∀ q ∈ pre, ∀ i, q.1 = some i → keyOk k.negKeys hs.length i)
    {f : F W} :
    makeFiller d pre (.annotated h args) = .ok f ↔
      ∃ a bs a', Ann.make d (classKind c) (ownTokens pre) args = .ok a ∧ bs.length = hs.length ∧
        (∀ (j : Nat) p b, hs[j]? = some p → bs[j]? = some b → memberFiller d (partTokens k.negKeys hs.length j pre) p = .ok b) ∧
        wrapFinish k a bs = .ok a' ∧ f = .wrap true k a' bs := by
  constructor
  · intro hf
    cases hg : getFs hs with
    | error e => simp [makeFiller, getFiller, getF, hc.getF_eq, hg] at hf
    | ok fs =>
      obtain ⟨hl, hp⟩ := getFs_iff.1 hg
      have hget : getF h (some args) = .ok (.wrap false k (classAnn c args) fs) := by rw [hc.getF_eq, hg]
      obtain ⟨a, a', bs, ha, hw, rfl, hbl, hb⟩ := make_wrap hget hf
      refine ⟨a, bs, a', ha, hbl.trans hl, fun j p b hp' hb' => ?_, hw, rfl⟩
      have hj : j < fs.length := by
        have := (List.getElem?_eq_some_iff.1 hb').1; omega
      obtain ⟨g', b'', hb2, hga, hgb⟩ := hb j _ (List.getElem?_eq_getElem hj)
      have : b'' = b := by rw [hb2] at hb'; cases hb'; rfl
      subst this
      have h1 := hp j p _ hp' (List.getElem?_eq_getElem hj)
      simp only [memberFiller, h1]
      rw [← hl]
      simp only [hga, hgb]
  · rintro ⟨a, bs, a', ha, hbl, hb, hw, rfl⟩
    -- the parts resolve
    have hex : ∀ j : Nat, j < hs.length → ∃ g, ∀ p, hs[j]? = some p → getFiller p = .ok g := by
      intro j hj
      have := hb j _ _ (List.getElem?_eq_getElem hj) (List.getElem?_eq_getElem (by omega))
      unfold memberFiller at this
      cases hg : getFiller hs[j] with
      | error e => simp [hg] at this
      | ok g =>
        refine ⟨g, fun p hp => ?_⟩
        rw [List.getElem?_eq_getElem hj] at hp
        cases hp
        exact hg
    obtain ⟨fs, hl, hfs⟩ := allOk_exists (n := hs.length) (x := fun j => match hs[j]? with | some p => getFiller p | none => .error .typeError)
      (fun j hj => by
        obtain ⟨g, hg⟩ := hex j hj
        refine ⟨g, ?_⟩
        rw [List.getElem?_eq_getElem hj]
        exact hg _ (List.getElem?_eq_getElem hj))
    have hg : getFs hs = .ok fs := getFs_iff.2 ⟨hl, fun j p f hp hf => by
      have := hfs j f hf
      simp only [hp] at this
      exact this⟩
    have hget : getF h (some args) = .ok (.wrap false k (classAnn c args) fs) := by rw [hc.getF_eq, hg]
    obtain ⟨-, hp⟩ := getFs_iff.1 hg
    -- tokens can be applied
    have hpart : ∀ (j : Nat) (g : F W), fs[j]? = some g → ∃ b g', bs[j]? = some b ∧
        g.applyAll (partTokens k.negKeys fs.length j pre) = .ok g' ∧ g'.bind d = .ok b := by
      intro j g hj
      have hlt : j < fs.length := (List.getElem?_eq_some_iff.1 hj).1
      have h1 := hb j _ _ (List.getElem?_eq_getElem (by omega)) (List.getElem?_eq_getElem (l := bs) (by omega))
      have h2 := hp j _ _ (List.getElem?_eq_getElem (by omega)) hj
      simp only [memberFiller, h2] at h1
      rw [← hl] at h1
      cases h3 : g.applyAll (partTokens k.negKeys fs.length j pre) with
      | error e => simp [h3] at h1
      | ok g' =>
        simp only [h3] at h1
        exact ⟨_, g', List.getElem?_eq_getElem (by omega), rfl, h1⟩
    unfold Ann.make at ha
    cases hi : Ann.applyAll { kind := classKind c, args := args } (ownTokens pre) with
    | error e => simp [hi] at ha
    | ok i =>
      simp only [hi] at ha
      obtain ⟨f, hf⟩ := applyPre_wrap_ok (k := k) (pre := pre) (inner := classAnn c args) (subs := fs) (by rw [hl]; exact hc.shape)
        (by rw [hl]; exact hv) hi (fun j g hj => by obtain ⟨_, g', _, h, _⟩ := hpart j g hj; exact ⟨g', h⟩)
      obtain ⟨i2, subs', rfl, hl2, hi2, hs2⟩ := applyPre_wrap hf
      unfold classAnn at hi2
      rw [hi] at hi2
      cases hi2
      have hba : F.bindAll d subs' = .ok bs := bindAll_allOk.2 ⟨by omega, fun j g b hg hb' => by
        have hlt : j < fs.length := by
          have := (List.getElem?_eq_some_iff.1 hb').1; omega
        obtain ⟨g1, hg1, ha1⟩ := hs2 j _ (List.getElem?_eq_getElem hlt)
        obtain ⟨b1, g2, hb1, ha2, hb2⟩ := hpart j _ (List.getElem?_eq_getElem hlt)
        rw [hg1] at hg; cases hg
        rw [hb1] at hb'; cases hb'
        rw [ha1] at ha2; cases ha2
        exact hb2⟩
      simp only [makeFiller, getFiller, getF, hget, hf, F.bind, Bool.false_eq_true, if_false, ha, hba, hw]

theorem union_iff {hs : List (Hint W)} {d : Style} {pre : List (Option Int × Tok W)} {args : List (Tok W)}
    (hv : ∀ q ∈ pre, ∀ i, q.1 = some i → keyOk true hs.length i) {f : F W} :
    makeFiller d pre (.annotated (.union hs) args) = .ok f ↔
      ∃ bs, bs.length = hs.length ∧
        (∀ (j : Nat) p b, hs[j]? = some p → bs[j]? = some b →
          memberFiller d (partTokens true hs.length j pre ++ (args ++ ownTokens pre)) p = .ok b) ∧
        f = .union true args (ownTokens pre) bs := by
  have hm : ∀ (ts us : List (Tok W)) (g g' : F W), g.applyAll ts = .ok g' →
      F.applyBind d us g' = match g.applyAll (ts ++ us) with | .ok f => f.bind d | .error e => .error e := by
    intro ts us g g' h
    rw [F.applyBind_eq, applyAll_append, h]
    simp only []
    cases g'.applyAll us <;> rfl
  constructor
  · intro hf
    cases hg : getFs hs with
    | error e => simp [makeFiller, getFiller, getF, hg] at hf
    | ok fs =>
      obtain ⟨hl, hp⟩ := getFs_iff.1 hg
      simp only [makeFiller, getFiller, getF, hg, Option.getD] at hf
      cases h1 : F.applyPre (.union false args [] fs) pre with
      | error e => simp [h1] at hf
      | ok f1 =>
        simp only [h1] at hf
        obtain ⟨subs', rfl, hl1, hp1⟩ := applyPre_union h1
        simp only [F.bind, Bool.false_eq_true, if_false, List.nil_append] at hf
        cases h2 : F.bindUnion d (args ++ ownTokens pre) subs' with
        | error e => simp [h2] at hf
        | ok bs =>
          simp only [h2, Except.ok.injEq] at hf
          obtain ⟨hl2, hp2⟩ := bindUnion_allOk.1 h2
          refine ⟨bs, by omega, fun j p b hpj hbj => ?_, hf.symm⟩
          have hlt : j < fs.length := by
            have := (List.getElem?_eq_some_iff.1 hbj).1; omega
          have e1 := hp j p _ hpj (List.getElem?_eq_getElem hlt)
          obtain ⟨g', hg', ha⟩ := hp1 j _ (List.getElem?_eq_getElem hlt)
          have e2 := hp2 j g' b hg' hbj
          simp only [memberFiller, e1]
          rw [hm _ _ _ _ ha] at e2
          rw [← hl, ← e2]
          cases fs[j].applyAll (partTokens true fs.length j pre ++ (args ++ ownTokens pre)) <;> rfl
  · rintro ⟨bs, hbl, hb, rfl⟩
    have hex : ∀ j : Nat, j < hs.length → ∃ g, ∀ p, hs[j]? = some p → getFiller p = .ok g := by
      intro j hj
      have := hb j _ _ (List.getElem?_eq_getElem hj) (List.getElem?_eq_getElem (by omega))
      unfold memberFiller at this
      cases hg : getFiller hs[j] with
      | error e => simp [hg] at this
      | ok g =>
        refine ⟨g, fun p hp => ?_⟩
        rw [List.getElem?_eq_getElem hj] at hp
        cases hp
        exact hg
    obtain ⟨fs, hl, hfs⟩ := allOk_exists (n := hs.length) (x := fun j => match hs[j]? with | some p => getFiller p | none => .error .typeError)
      (fun j hj => by
        obtain ⟨g, hg⟩ := hex j hj
        refine ⟨g, ?_⟩
        rw [List.getElem?_eq_getElem hj]
        exact hg _ (List.getElem?_eq_getElem hj))
    have hg : getFs hs = .ok fs := getFs_iff.2 ⟨hl, fun j p f hp hf => by
      have := hfs j f hf
      simp only [hp] at this
      exact this⟩
    obtain ⟨-, hp⟩ := getFs_iff.1 hg
    have hpart : ∀ (j : Nat) (g : F W), fs[j]? = some g → ∃ b g', bs[j]? = some b ∧
        g.applyAll (partTokens true fs.length j pre) = .ok g' ∧ F.applyBind d (args ++ ownTokens pre) g' = .ok b := by
      intro j g hj
      have hlt : j < fs.length := (List.getElem?_eq_some_iff.1 hj).1
      have h1 := hb j _ _ (List.getElem?_eq_getElem (by omega)) (List.getElem?_eq_getElem (l := bs) (by omega))
      have h2 := hp j _ _ (List.getElem?_eq_getElem (by omega)) hj
      simp only [memberFiller, h2] at h1
      rw [← hl, applyAll_append] at h1
      cases h3 : g.applyAll (partTokens true fs.length j pre) with
      | error e => simp [h3] at h1
      | ok g' =>
        simp only [h3] at h1
        refine ⟨_, g', List.getElem?_eq_getElem (by omega), rfl, ?_⟩
        rw [F.applyBind_eq]
        exact h1
    obtain ⟨f, hf⟩ := applyPre_union_ok (pre := pre) (args := args) (app := []) (subs := fs) (by rw [hl]; exact hv)
      (fun j g hj => by obtain ⟨_, g', _, h, _⟩ := hpart j g hj; exact ⟨g', h⟩)
    obtain ⟨subs', rfl, hl2, hs2⟩ := applyPre_union hf
    have hba : F.bindUnion d (args ++ ownTokens pre) subs' = .ok bs := bindUnion_allOk.2 ⟨by omega, fun j g b hg hb' => by
      have hlt : j < fs.length := by
        have := (List.getElem?_eq_some_iff.1 hb').1; omega
      obtain ⟨g1, hg1, ha1⟩ := hs2 j _ (List.getElem?_eq_getElem hlt)
      obtain ⟨b1, g2, hb1, ha2, hb2⟩ := hpart j _ (List.getElem?_eq_getElem hlt)
      rw [hg1] at hg; cases hg
      rw [hb1] at hb'; cases hb'
      rw [ha1] at ha2; cases ha2
      exact hb2⟩
    simp only [makeFiller, getFiller, getF, hg, Option.getD, hf, F.bind, Bool.false_eq_true, if_false, List.nil_append, hba]

/-! ### the two ways of writing a field -/

theorem Keyed.container {h : Hint W} {keys : Nat → Int → Prop} {hs : List (Hint W)} (hk : Keyed h keys hs) :
    ∃ k c, ContainerOf h k c hs ∧ ∀ j i, keys j i ↔ (i = (j : Int) ∨ (k.negKeys = true ∧ i = (j : Int) - hs.length)) := by
  cases hk with
  | iter c h => exact ⟨_, _, .iter c h, fun j i => by simp [WrapKind.negKeys]⟩
  | deque c h => exact ⟨_, _, .deque c h, fun j i => by simp [WrapKind.negKeys]⟩
  | mapping c k v => exact ⟨_, _, .mapping c k v, fun j i => by simp [WrapKind.negKeys]⟩
  | defaultdict c k v => exact ⟨_, _, .defaultdict c k v, fun j i => by simp [WrapKind.negKeys]⟩
  | tupleVar h => exact ⟨_, _, .tupleVar h, fun j i => by simp [WrapKind.negKeys]⟩
  | tupleFix hs => exact ⟨_, _, .tupleFix hs, fun j i => by simp [WrapKind.negKeys]⟩

theorem Rebuilt.container {h h' : Hint W} {k : WrapKind W} {c : W.Cls} {hs hs' : List (Hint W)} (hr : Rebuilt h hs' h')
    (hc : ContainerOf h k c hs) : ContainerOf h' k c hs' := by
  cases hr <;> cases hc <;> constructor

theorem Addressed.eq {keys : Nat → Int → Prop} {neg : Bool} {n j : Nat}
    (hk : ∀ i, keys j i ↔ (i = (j : Int) ∨ (neg = true ∧ i = (j : Int) - n))) {pre : List (Option Int × Tok W)} {ts : List (Tok W)}
    (h : Addressed keys j pre ts) : ts = partTokens neg n j pre := by
  induction h with
  | nil => rfl
  | take h1 _ ih => rw [partTokens_cons, partTokens_here ((hk _).1 h1), ← ih]; rfl
  | skip h1 _ ih => rw [partTokens_cons, partTokens_not (fun h => h1 ((hk _).2 h)), ← ih]; rfl
  | own _ ih => rw [partTokens_cons, partTokens_own, ← ih]; rfl

theorem ContainerOf.notAnnotated {h : Hint W} {k : WrapKind W} {c : W.Cls} {hs : List (Hint W)} (hc : ContainerOf h k c hs) :
    ∀ h' ts, h ≠ .annotated h' ts := by
  cases hc <;> intro h' ts h <;> cases h

theorem ContainerOf.notUnion {h : Hint W} {k : WrapKind W} {c : W.Cls} {hs : List (Hint W)} (hc : ContainerOf h k c hs) :
    ¬ h.Union := by
  intro h; cases hc <;> cases h

theorem makeFiller_withTokens {h : Hint W} (hn : ∀ h' ts, h ≠ .annotated h' ts) (d : Style) (pre : List (Option Int × Tok W))
    (args : List (Tok W)) : makeFiller d pre (h.withTokens args) = makeFiller d pre (.annotated h args) := by
  cases args with
  | nil =>
    unfold makeFiller getFiller Hint.withTokens
    simp only [getF]
    rw [getF_none hn]
  | cons t ts => rfl

theorem makeFiller_amended {h h2 : Hint W} (hn : ∀ h' ts, h ≠ .annotated h' ts) (hu : ¬ h.Union) (d : Style)
    (pre : List (Option Int × Tok W)) {args ts : List (Tok W)} (ha : Amended (h.withTokens args) ts h2) :
    makeFiller d pre h2 = makeFiller d pre (.annotated h (ts ++ args)) := by
  cases args with
  | nil =>
    simp only [Hint.withTokens] at ha
    cases ha with
    | nothing => exact makeFiller_withTokens hn d pre []
    | plain => rw [List.append_nil]
    | front => exact absurd rfl (hn _ _)
    | behind => exact absurd rfl (hn _ _)
  | cons t us =>
    simp only [Hint.withTokens] at ha
    cases ha with
    | nothing => rfl
    | plain h => exact absurd rfl (h _ _)
    | front => rfl
    | behind h => exact absurd h hu

theorem ownTokens_nil_part (neg : Bool) (n j : Nat) : partTokens neg n j ([] : List (Option Int × Tok W)) = [] := rfl

theorem sameL_of {fs gs : List (F W)} (hl : fs.length = gs.length)
    (h : ∀ (j : Nat) f g, fs[j]? = some f → gs[j]? = some g → SameFiller f g) : SameL fs gs := by
  induction fs generalizing gs with
  | nil => cases gs with
    | nil => exact .nil
    | cons g gs => simp at hl
  | cons f fs ih => cases gs with
    | nil => simp at hl
    | cons g gs => exact .cons (h 0 f g rfl rfl) (ih (by simpa using hl) fun j f g hf hg => h (j + 1) f g (by simpa using hf) (by simpa using hg))

/-- pointwise agreement of the parts -/
theorem parts_agree {d : Style} {hs hs' : List (Hint W)} {ts : Nat → List (Tok W)} (hl : hs'.length = hs.length)
    (hr : ∀ (j : Nat) p p', hs[j]? = some p → hs'[j]? = some p' → Agree (memberFiller d (ts j) p) (memberFiller d [] p')) :
    ((∃ bs : List (F W), bs.length = hs.length ∧ ∀ (j : Nat) p b, hs[j]? = some p → bs[j]? = some b → memberFiller d (ts j) p = .ok b) ↔
      (∃ bs : List (F W), bs.length = hs'.length ∧ ∀ (j : Nat) p b, hs'[j]? = some p → bs[j]? = some b → memberFiller d [] p = .ok b)) ∧
    ∀ bs bs' : List (F W), bs.length = hs.length → bs'.length = hs'.length →
      (∀ (j : Nat) p b, hs[j]? = some p → bs[j]? = some b → memberFiller d (ts j) p = .ok b) →
      (∀ (j : Nat) p b, hs'[j]? = some p → bs'[j]? = some b → memberFiller d [] p = .ok b) → SameL bs bs' := by
  refine ⟨⟨?_, ?_⟩, ?_⟩
  · rintro ⟨bs, hbl, hb⟩
    obtain ⟨bs', hbl', hb'⟩ := allOk_exists (n := hs'.length)
      (x := fun j => match hs'[j]? with | some p => memberFiller d [] p | none => .error .typeError)
      (fun j hj => by
        have h1 := hb j _ _ (List.getElem?_eq_getElem (by omega)) (List.getElem?_eq_getElem (l := bs) (by omega))
        rcases hr j _ _ (List.getElem?_eq_getElem (by omega)) (List.getElem?_eq_getElem hj) with ⟨f, g, hf, hg, -⟩ | ⟨⟨e, he⟩, -⟩
        · exact ⟨g, by rw [List.getElem?_eq_getElem hj]; exact hg⟩
        · rw [h1] at he; cases he)
    exact ⟨bs', hbl', fun j p b hp hb2 => by have := hb' j b hb2; simp only [hp] at this; exact this⟩
  · rintro ⟨bs, hbl, hb⟩
    obtain ⟨bs', hbl', hb'⟩ := allOk_exists (n := hs.length)
      (x := fun j => match hs[j]? with | some p => memberFiller d (ts j) p | none => .error .typeError)
      (fun j hj => by
        have h1 := hb j _ _ (List.getElem?_eq_getElem (by omega)) (List.getElem?_eq_getElem (l := bs) (by omega))
        rcases hr j _ _ (List.getElem?_eq_getElem hj) (List.getElem?_eq_getElem (by omega)) with ⟨f, g, hf, hg, -⟩ | ⟨-, ⟨e, he⟩⟩
        · exact ⟨f, by rw [List.getElem?_eq_getElem hj]; exact hf⟩
        · rw [h1] at he; cases he)
    exact ⟨bs', hbl', fun j p b hp hb2 => by have := hb' j b hb2; simp only [hp] at this; exact this⟩
  · intro bs bs' h1 h2 h3 h4
    refine sameL_of (by omega) fun j f g hf hg => ?_
    have hj : j < hs.length := by
      have := (List.getElem?_eq_some_iff.1 hf).1; omega
    rcases hr j _ _ (List.getElem?_eq_getElem hj) (List.getElem?_eq_getElem (by omega)) with ⟨f', g', hf', hg', hs⟩ | ⟨⟨e, he⟩, -⟩
    · rw [h3 j _ f (List.getElem?_eq_getElem hj) hf] at hf'
      cases hf'
      rw [h4 j _ g (List.getElem?_eq_getElem (by omega)) hg] at hg'
      cases hg'
      exact hs
    · rw [h3 j _ f (List.getElem?_eq_getElem hj) hf] at he
      cases he

theorem agree_of_iff {x y : Except Exc (F W)} (h1 : (∃ f, x = .ok f) ↔ ∃ g, y = .ok g)
    (h2 : ∀ f g, x = .ok f → y = .ok g → SameFiller f g) : Agree x y := by
  cases x with
  | ok f =>
    obtain ⟨g, hg⟩ := h1.1 ⟨f, rfl⟩
    exact .inl ⟨f, g, rfl, hg, h2 f g rfl hg⟩
  | error e =>
    cases y with
    | ok g => obtain ⟨f, hf⟩ := h1.2 ⟨g, rfl⟩; cases hf
    | error e' => exact .inr ⟨⟨e, rfl⟩, ⟨e', rfl⟩⟩

theorem container_agree {h h' : Hint W} {k : WrapKind W} {c : W.Cls} {hs hs' : List (Hint W)} (hc : ContainerOf h k c hs)
    (hc' : ContainerOf h' k c hs') {d : Style} {pre : List (Option Int × Tok W)} {args : List (Tok W)}
    (hv : ∀ q ∈ pre, ∀ i, q.1 = some i → keyOk k.negKeys hs.length i) (hl : hs'.length = hs.length)
    (hr : ∀ (j : Nat) p p', hs[j]? = some p → hs'[j]? = some p' → Amended p (partTokens k.negKeys hs.length j pre) p') :
    Agree (makeFiller d pre (.annotated h args)) (makeFiller d [] (.annotated h' (ownTokens pre ++ args))) := by
  have hv' : ∀ q ∈ ([] : List (Option Int × Tok W)), ∀ i, q.1 = some i → keyOk k.negKeys hs'.length i := by simp
  obtain ⟨hiff, hsame⟩ := parts_agree (d := d) (ts := fun j => partTokens k.negKeys hs.length j pre) hl
    (fun j p p' h1 h2 => agree_member d (hr j p p' h1 h2))
  have hmk := Ann.make_forget d (classKind c) (ownTokens pre) args [] (ownTokens pre ++ args) (by simp)
  apply agree_of_iff
  · constructor
    · rintro ⟨f, hf⟩
      obtain ⟨a, bs, a', ha, hbl, hb, hw, rfl⟩ := (container_iff hc hv).1 hf
      obtain ⟨bs', hbl', hb'⟩ := hiff.1 ⟨bs, hbl, hb⟩
      have hsl := hsame bs bs' hbl hbl' hb hb'
      rcases forget_cases hmk with ⟨a1, a2, h1, h2, h12⟩ | ⟨e, h1, -⟩
      · rw [ha] at h1; cases h1
        rcases forget_cases (wrapFinish_congr k h12 hsl) with ⟨b1, b2, h3, h4, h34⟩ | ⟨e, h3, -⟩
        · exact ⟨_, (container_iff hc' hv').2 ⟨a2, bs', b2, h2, hbl', fun j p b => by rw [ownTokens_nil_part]; exact hb' j p b, h4, rfl⟩⟩
        · rw [hw] at h3; cases h3
      · rw [ha] at h1; cases h1
    · rintro ⟨f, hf⟩
      obtain ⟨a, bs, a', ha, hbl, hb, hw, rfl⟩ := (container_iff hc' hv').1 hf
      have hb : ∀ (j : Nat) p b, hs'[j]? = some p → bs[j]? = some b → memberFiller d [] p = .ok b := hb
      obtain ⟨bs', hbl', hb'⟩ := hiff.2 ⟨bs, hbl, hb⟩
      have hsl := hsame bs' bs hbl' hbl hb' hb
      rcases forget_cases hmk with ⟨a1, a2, h1, h2, h12⟩ | ⟨e, -, h1⟩
      · have ha : Ann.make d (classKind c) [] (ownTokens pre ++ args) = .ok a := ha
        rw [ha] at h2; cases h2
        rcases forget_cases (wrapFinish_congr k h12 hsl) with ⟨b1, b2, h3, h4, h34⟩ | ⟨e, -, h3⟩
        · exact ⟨_, (container_iff hc hv).2 ⟨a1, bs', b1, h1, hbl', hb', h3, rfl⟩⟩
        · rw [hw] at h3; cases h3
      · have ha : Ann.make d (classKind c) [] (ownTokens pre ++ args) = .ok a := ha
        rw [ha] at h1; cases h1
  · intro f g hf hg
    obtain ⟨a, bs, a', ha, hbl, hb, hw, rfl⟩ := (container_iff hc hv).1 hf
    obtain ⟨a2, bs2, a2', ha2, hbl2, hb2, hw2, rfl⟩ := (container_iff hc' hv').1 hg
    have hsl := hsame bs bs2 hbl hbl2 hb hb2
    have ha2 : Ann.make d (classKind c) [] (ownTokens pre ++ args) = .ok a2 := ha2
    have h12 : a.forget = a2.forget := by
      rw [ha, ha2] at hmk
      simpa [Except.map] using hmk
    have h34 := wrapFinish_congr k h12 hsl
    rw [hw, hw2] at h34
    exact sameFiller_wrap (by simpa [Except.map] using h34)

theorem union_agree {hs hs' : List (Hint W)} {d : Style} {pre : List (Option Int × Tok W)} {args : List (Tok W)}
    (hv : ∀ q ∈ pre, ∀ i, q.1 = some i → keyOk true hs.length i) (hl : hs'.length = hs.length)
    (hr : ∀ (j : Nat) p p', hs[j]? = some p → hs'[j]? = some p' →
      Amended p (partTokens true hs.length j pre ++ (args ++ ownTokens pre)) p') :
    Agree (makeFiller d pre (.annotated (.union hs) args)) (makeFiller d [] (.annotated (.union hs') [])) := by
  have hv' : ∀ q ∈ ([] : List (Option Int × Tok W)), ∀ i, q.1 = some i → keyOk true hs'.length i := by simp
  obtain ⟨hiff, hsame⟩ := parts_agree (d := d) (ts := fun j => partTokens true hs.length j pre ++ (args ++ ownTokens pre)) hl
    (fun j p p' h1 h2 => agree_member d (hr j p p' h1 h2))
  apply agree_of_iff
  · constructor
    · rintro ⟨f, hf⟩
      obtain ⟨bs, hbl, hb, rfl⟩ := (union_iff hv).1 hf
      obtain ⟨bs', hbl', hb'⟩ := hiff.1 ⟨bs, hbl, hb⟩
      exact ⟨_, (union_iff hv').2 ⟨bs', hbl', hb', rfl⟩⟩
    · rintro ⟨f, hf⟩
      obtain ⟨bs, hbl, hb, rfl⟩ := (union_iff hv').1 hf
      obtain ⟨bs', hbl', hb'⟩ := hiff.2 ⟨bs, hbl, hb⟩
      exact ⟨_, (union_iff hv).2 ⟨bs', hbl', hb', rfl⟩⟩
  · intro f g hf hg
    obtain ⟨bs, hbl, hb, rfl⟩ := (union_iff hv).1 hf
    obtain ⟨bs2, hbl2, hb2, rfl⟩ := (union_iff hv').1 hg
    have hsl := hsame bs bs2 hbl hbl2 hb hb2
    refine ⟨fun v s => ?_, fun v s => ?_, ?_⟩ 
    · simp only [F.call, F.fill, hsl.fills, hsl.allHollow]
    · simp only [F.fill, hsl.fills, hsl.allHollow]
    · simp only [F.isHollow, hsl.allHollow]

/-! ### keys without a part -/

/-- what looking for the sub-filler of key `i` raises -/
def F.keyErr (f : F W) (i : Int) : Option Exc :=
  match f with
  | .union _ _ _ subs => seq subs.length
  | .wrap _ .tupleFix _ subs => seq subs.length
  | .wrap _ .tupleVar _ subs => seq subs.length
  | .wrap _ .iter _ subs => if i = 0 then (if 0 < subs.length then none else some .indexError) else some .lookupError
  | .wrap _ .deque _ subs => if i = 0 then (if 0 < subs.length then none else some .indexError) else some .lookupError
  | .wrap _ .mapping _ subs => two subs.length
  | .wrap _ .defaultdict _ subs => two subs.length
  | _ => some .lookupError
where
  /-- a sequence of `n` -/
  seq (n : Nat) : Option Exc := match pyIndex n i with | some j => if j < n then none else some .indexError | none => some .indexError
  /-- a key and a value -/
  two (n : Nat) : Option Exc :=
    if i = 0 then (if 0 < n then none else some .indexError)
    else if i = 1 then (if 1 < n then none else some .indexError) else some .lookupError

theorem at_keyErr {subs : List (F W)} {j : Option Nat} {re : List (F W) → F W} {g : F W → Except Exc (F W)} {x : Option Exc}
    (hx : x = match j with | some j => if j < subs.length then none else some .indexError | none => some .indexError) :
    (∀ e, x = some e → F.withSub.at_ g subs j re = .error e) ∧
      (∀ f, F.withSub.at_ g subs j re = .ok f → x = none ∧ ∃ l, l.length = subs.length ∧ f = re l) := by
  subst hx
  unfold F.withSub.at_
  cases j with
  | none => exact ⟨fun e h => (by cases h; rfl), fun f h => (by cases h)⟩
  | some j =>
    simp only
    by_cases hj : j < subs.length
    · simp only [if_pos hj, List.getElem?_eq_getElem hj]
      refine ⟨fun e h => (by cases h), fun f h => ⟨trivial, ?_⟩⟩
      cases hg : g subs[j] with
      | error e => simp [hg] at h
      | ok s' => simp only [hg, Except.ok.injEq] at h; exact ⟨_, List.length_set .., h.symm⟩
    · simp only [if_neg hj, List.getElem?_eq_none (Nat.le_of_not_lt hj)]
      exact ⟨fun e h => (by cases h; rfl), fun f h => (by cases h)⟩

theorem withSub_keyErr (f : F W) (i : Int) (g : F W → Except Exc (F W)) :
    (∀ e, f.keyErr i = some e → f.withSub (some i) g = .error e) ∧
      (∀ f', f.withSub (some i) g = .ok f' → f.keyErr i = none ∧ ∀ i, f'.keyErr i = f.keyErr i) := by
  have use : ∀ {subs : List (F W)} {j : Option Nat} {re : List (F W) → F W} (x : Option Exc),
      (x = match j with | some j => if j < subs.length then none else some .indexError | none => some .indexError) →
      (∀ l, l.length = subs.length → ∀ i, (re l).keyErr i = f.keyErr i) →
      (∀ e, x = some e → F.withSub.at_ g subs j re = .error e) ∧
      (∀ f', F.withSub.at_ g subs j re = .ok f' → x = none ∧ ∀ i, f'.keyErr i = f.keyErr i) := by
    intro subs j re x hx hre
    obtain ⟨h1, h2⟩ := at_keyErr (g := g) (re := re) hx
    refine ⟨h1, fun f' hf' => ?_⟩
    obtain ⟨h3, l, hl, rfl⟩ := h2 f' hf'
    exact ⟨h3, hre l hl⟩
  have bad : (∀ e, some Exc.lookupError = some e → (.error .lookupError : Except Exc (F W)) = .error e) ∧
      (∀ f', (.error .lookupError : Except Exc (F W)) = .ok f' → some Exc.lookupError = none ∧ ∀ i, f'.keyErr i = f.keyErr i) :=
    ⟨fun e h => (by cases h; rfl), fun f' h => (by cases h)⟩
  cases f with
  | union b args app subs => exact use _ rfl fun l hl i => by simp [F.keyErr, hl]
  | wrap b k inner subs =>
    cases k with
    | tupleFix => exact use _ rfl fun l hl i => by simp [F.keyErr, hl]
    | tupleVar => exact use _ rfl fun l hl i => by simp [F.keyErr, hl]
    | iter =>
      simp only [F.withSub, F.keyErr]
      split
      · exact use _ rfl fun l hl i => by simp [F.keyErr, hl]
      · exact bad
    | deque =>
      simp only [F.withSub, F.keyErr]
      split
      · exact use _ rfl fun l hl i => by simp [F.keyErr, hl]
      · exact bad
    | mapping =>
      simp only [F.withSub, F.keyErr, F.keyErr.two]
      split
      · exact use _ rfl fun l hl i => by simp [F.keyErr, hl]
      · split
        · exact use _ rfl fun l hl i => by simp [F.keyErr, hl]
        · exact bad
    | defaultdict =>
      simp only [F.withSub, F.keyErr, F.keyErr.two]
      split
      · exact use _ rfl fun l hl i => by simp [F.keyErr, hl]
      · split
        · exact use _ rfl fun l hl i => by simp [F.keyErr, hl]
        · exact bad
    | typeF b => exact bad
    | generic => exact bad
  | _ => exact bad

theorem apply_keyErr {f f' : F W} {t : Tok W} (h : f.apply t = .ok f') (i : Int) : f'.keyErr i = f.keyErr i := by
  cases f with
  | ann a =>
    simp only [F.apply] at h
    cases h1 : a.apply t with
    | error e => rw [h1] at h; cases h
    | ok a' => rw [h1] at h; cases h; rfl
  | wrap b k inner subs =>
    simp only [F.apply] at h
    cases h1 : inner.apply t with
    | error e => rw [h1] at h; cases h
    | ok a' => rw [h1] at h; cases h; cases k <;> rfl
  | union b args app subs =>
    simp only [F.apply] at h
    split at h
    · cases h
    · cases h; rfl
  | failing e => cases h; rfl
  | dumb b => simp [F.apply] at h

theorem applySub_keyErr {f f' : F W} {key : Option Int} {t : Tok W} (h : f.applySub key t = .ok f') :
    (∀ i, key = some i → f.keyErr i = none) ∧ ∀ i, f'.keyErr i = f.keyErr i := by
  cases key with
  | none => exact ⟨fun i h => (by cases h), apply_keyErr h⟩
  | some i =>
    obtain ⟨h1, h2⟩ := (withSub_keyErr f i _).2 f' h
    exact ⟨fun i h => by cases h; exact h1, h2⟩

theorem applyPre_keyErr {pre : List (Option Int × Tok W)} : ∀ {f f' : F W}, f.applyPre pre = .ok f' →
    ∀ q ∈ pre, ∀ i, q.1 = some i → f.keyErr i = none := by
  induction pre with
  | nil => intro f f' h q hq; simp at hq
  | cons p pre ih =>
    obtain ⟨key, t⟩ := p
    intro f f' h q hq i hi
    simp only [F.applyPre] at h
    cases h1 : f.applySub key t with
    | error e => simp [h1] at h
    | ok f1 =>
      simp only [h1] at h
      obtain ⟨h2, h3⟩ := applySub_keyErr h1
      cases hq with
      | head => exact h2 i hi
      | tail _ hq => rw [← h3]; exact ih h q hq i hi

theorem applyPre_append (pre pre' : List (Option Int × Tok W)) : ∀ f : F W, f.applyPre (pre ++ pre') = match f.applyPre pre with
    | .ok f' => f'.applyPre pre'
    | .error e => .error e := by
  induction pre with
  | nil => intro f; rfl
  | cons p pre ih =>
    obtain ⟨key, t⟩ := p
    intro f
    simp only [List.cons_append, F.applyPre]
    cases f.applySub key t with
    | error e => rfl
    | ok f' => exact ih f'

theorem applyPre_keyErr_eq {pre : List (Option Int × Tok W)} : ∀ {f f' : F W}, f.applyPre pre = .ok f' →
    ∀ {i : Int}, f'.keyErr i = f.keyErr i := by
  induction pre with
  | nil => intro f f' h i; cases h; rfl
  | cons p pre ih =>
    obtain ⟨key, t⟩ := p
    intro f f' h i
    simp only [F.applyPre] at h
    cases h1 : f.applySub key t with
    | error e => simp [h1] at h
    | ok f1 =>
      simp only [h1] at h
      rw [ih h, (applySub_keyErr h1).2]

theorem getFs_length {hs : List (Hint W)} {fs : List (F W)} (h : getFs hs = .ok fs) : fs.length = hs.length := (getFs_iff.1 h).1

theorem seq_keyErr (i : Int) (n : Nat) :
    (-(n : Int) ≤ i ∧ i < n ∧ F.keyErr.seq i n = none) ∨ (¬ (-(n : Int) ≤ i ∧ i < n) ∧ F.keyErr.seq i n = some .indexError) := by
  unfold F.keyErr.seq pyIndex
  by_cases h1 : 0 ≤ i ∧ i < n
  · refine .inl ⟨by omega, h1.2, ?_⟩
    simp only [if_pos h1]
    rw [if_pos (by omega)]
  · by_cases h2 : i < 0 ∧ -i ≤ n
    · refine .inl ⟨by omega, by omega, ?_⟩
      simp only [if_neg h1, if_pos h2]
      rw [if_pos (by omega)]
    · exact .inr ⟨by omega, by simp only [if_neg h1, if_neg h2]⟩

/-- the keys of a type -/
theorem getF_keyErr : (h : Hint W) → {ts : List (Tok W)} → {f : F W} → getF h (some ts) = .ok f → ∀ i,
    (HasKey h i ∧ f.keyErr i = none) ∨
      (¬ HasKey h i ∧ Positional h ∧ f.keyErr i = some .indexError) ∨
      (¬ HasKey h i ∧ ¬ Positional h ∧ f.keyErr i = some .lookupError)
  | .newType h, ts, f, hf, i => by
    simp only [getF, Option.getD] at hf
    rcases getF_keyErr h hf i with ⟨h1, h2⟩ | ⟨h1, h2, h3⟩ | ⟨h1, h2, h3⟩
    · exact .inl ⟨.newType h1, h2⟩
    · exact .inr (.inl ⟨fun h => (by cases h with | newType h => exact h1 h), .newType h2, h3⟩)
    · exact .inr (.inr ⟨fun h => (by cases h with | newType h => exact h1 h), fun h => (by cases h with | newType h => exact h2 h), h3⟩)
  | .union hs, ts, f, hf, i => by
    simp only [getF, Option.getD] at hf
    cases hg : getFs hs with
    | error e => simp [hg] at hf
    | ok fs =>
      simp only [hg, Except.ok.injEq] at hf
      subst hf
      simp only [F.keyErr, getFs_length hg]
      rcases seq_keyErr i hs.length with ⟨h1, h2, h3⟩ | ⟨h1, h3⟩
      · exact .inl ⟨.union h1 h2, h3⟩
      · exact .inr (.inl ⟨fun h => (by cases h with | union a b => exact h1 ⟨a, b⟩), .union hs, h3⟩)
  | .tupleFix hs, ts, f, hf, i => by
    simp only [getF, Option.getD] at hf
    cases hg : getFs hs with
    | error e => simp [hg] at hf
    | ok fs =>
      simp only [hg, Except.ok.injEq] at hf
      subst hf
      simp only [F.keyErr, getFs_length hg]
      rcases seq_keyErr i hs.length with ⟨h1, h2, h3⟩ | ⟨h1, h3⟩
      · exact .inl ⟨.tupleFix h1 h2, h3⟩
      · exact .inr (.inl ⟨fun h => (by cases h with | tupleFix a b => exact h1 ⟨a, b⟩), .tupleFix hs, h3⟩)
  | .tupleVar h, ts, f, hf, i => by
    simp only [getF, Option.getD] at hf
    cases hg : getF h none with
    | error e => simp [hg] at hf
    | ok fs =>
      simp only [hg, Except.ok.injEq] at hf
      subst hf
      simp only [F.keyErr, List.length_singleton]
      rcases seq_keyErr i 1 with ⟨h1, h2, h3⟩ | ⟨h1, h3⟩
      · have : i = 0 ∨ i = -1 := by omega
        rcases this with rfl | rfl
        · exact .inl ⟨.tupleVar h, h3⟩
        · exact .inl ⟨.tupleVarNeg h, h3⟩
      · exact .inr (.inl ⟨fun h => (by cases h <;> omega), .tupleVar h, h3⟩)
  | .iter c h, ts, f, hf, i => by
    simp only [getF, Option.getD] at hf
    cases hg : getF h none with
    | error e => simp [hg] at hf
    | ok fs =>
      simp only [hg, Except.ok.injEq] at hf
      subst hf
      by_cases h0 : i = 0
      · subst h0; exact .inl ⟨.iter c h, rfl⟩
      · exact .inr (.inr ⟨fun h => (by cases h; exact h0 rfl), nofun, by simp [F.keyErr, h0]⟩)
  | .deque c h, ts, f, hf, i => by
    simp only [getF, Option.getD] at hf
    cases hg : getF h none with
    | error e => simp [hg] at hf
    | ok fs =>
      simp only [hg, Except.ok.injEq] at hf
      subst hf
      by_cases h0 : i = 0
      · subst h0; exact .inl ⟨.deque c h, rfl⟩
      · exact .inr (.inr ⟨fun h => (by cases h; exact h0 rfl), nofun, by simp [F.keyErr, h0]⟩)
  | .mapping c k v, ts, f, hf, i => by
    simp only [getF, Option.getD] at hf
    cases hg : getF k none with
    | error e => simp [hg] at hf
    | ok fk =>
      simp only [hg] at hf
      cases hg2 : getF v none with
      | error e => simp [hg2] at hf
      | ok fv =>
        simp only [hg2, Except.ok.injEq] at hf
        subst hf
        by_cases h0 : i = 0
        · subst h0; exact .inl ⟨.key c k v, rfl⟩
        · by_cases h1 : i = 1
          · subst h1; exact .inl ⟨.value c k v, rfl⟩
          · exact .inr (.inr ⟨fun h => (by cases h <;> contradiction), nofun, by simp [F.keyErr, F.keyErr.two, h0, h1]⟩)
  | .defaultdict c k v, ts, f, hf, i => by
    simp only [getF, Option.getD] at hf
    cases hg : getF k none with
    | error e => simp [hg] at hf
    | ok fk =>
      simp only [hg] at hf
      cases hg2 : getF v none with
      | error e => simp [hg2] at hf
      | ok fv =>
        simp only [hg2, Except.ok.injEq] at hf
        subst hf
        by_cases h0 : i = 0
        · subst h0; exact .inl ⟨.ddkey c k v, rfl⟩
        · by_cases h1 : i = 1
          · subst h1; exact .inl ⟨.ddvalue c k v, rfl⟩
          · exact .inr (.inr ⟨fun h => (by cases h <;> contradiction), nofun, by simp [F.keyErr, F.keyErr.two, h0, h1]⟩)
  | .generic c hs, ts, f, hf, i => by
    simp only [getF] at hf; cases hf
    exact .inr (.inr ⟨nofun, nofun, rfl⟩)
  | .typeOf c, ts, f, hf, i => by
    simp only [getF] at hf; cases hf
    exact .inr (.inr ⟨nofun, nofun, rfl⟩)
  | .annotated h us, ts, f, hf, i => by
    simp only [getF] at hf
    split at hf <;> cases hf
    exact .inr (.inr ⟨nofun, nofun, rfl⟩)
  | .opaque, ts, f, hf, i => by
    simp only [getF] at hf
    split at hf <;> cases hf
    exact .inr (.inr ⟨nofun, nofun, rfl⟩)
  | .cls c, ts, f, hf, i => by simp only [getF] at hf; cases hf; exact .inr (.inr ⟨nofun, nofun, rfl⟩)
  | .none, ts, f, hf, i => by simp only [getF] at hf; cases hf; exact .inr (.inr ⟨nofun, nofun, rfl⟩)
  | .any, ts, f, hf, i => by simp only [getF] at hf; cases hf; exact .inr (.inr ⟨nofun, nofun, rfl⟩)
  | .callable, ts, f, hf, i => by simp only [getF] at hf; cases hf; exact .inr (.inr ⟨nofun, nofun, rfl⟩)
  | .literal _ _, ts, f, hf, i => by simp only [getF] at hf; cases hf; exact .inr (.inr ⟨nofun, nofun, rfl⟩)
  | .typeBare, ts, f, hf, i => by simp only [getF] at hf; cases hf; exact .inr (.inr ⟨nofun, nofun, rfl⟩)
  | .bareGeneric c, ts, f, hf, i => by simp only [getF] at hf; cases hf; exact .inr (.inr ⟨nofun, nofun, rfl⟩)

theorem getFiller_withTokens {h : Hint W} (hn : ∀ h' ts, h ≠ .annotated h' ts) (args : List (Tok W)) :
    getFiller (h.withTokens args) = getF h (some args) := by
  cases args with
  | nil => exact getF_none hn
  | cons t ts => rfl

end Records
