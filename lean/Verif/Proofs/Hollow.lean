import Verif.Proofs.Bind
/-
Fillers without any checking, coercion or validation (used for C19).
-/
set_option linter.unusedSimpArgs false
namespace Records
variable {W : World}

/-- a fresh leaf filler with harmless tokens only -/
def Ann.harm (a : Ann W) : Prop :=
  a.args.all Tok.harmless = true ∧ (a.style = .default ∨ a.style = .hollow) ∧ a.coercers = [] ∧ a.validators = [] ∧
  a.bound = false

mutual
def F.takes : F W → Bool
  | .dumb _ => false
  | .failing _ => false
  | .ann _ => true
  | .union _ _ _ subs => F.takesL subs
  | .wrap _ _ _ _ => true
def F.takesL : List (F W) → Bool
  | [] => true
  | f :: fs => f.takes && F.takesL fs
end

mutual
def F.harm : F W → Prop
  | .dumb b => b = false
  | .failing _ => False
  | .ann a => a.harm
  | .union b args app subs => b = false ∧ args.all Tok.harmless = true ∧ app.all Tok.harmless = true ∧
      (args ++ app ≠ [] → F.takesL subs = true) ∧ F.harmL subs
  | .wrap b _ inner subs => b = false ∧ inner.harm ∧ F.harmL subs
def F.harmL : List (F W) → Prop
  | [] => True
  | f :: fs => f.harm ∧ F.harmL fs
end

theorem classAnn_harm (c : W.Cls) {args : List (Tok W)} (h : args.all Tok.harmless = true) : (classAnn c args).harm :=
  ⟨h, .inl rfl, rfl, rfl, rfl⟩

theorem Ann.harm_applyAll {a : Ann W} (h : a.harm) {ts : List (Tok W)} (ht : ts.all Tok.harmless = true) :
    ∃ a', a.applyAll ts = .ok a' ∧ a'.harm ∧ a'.kind = a.kind ∧ a'.args = a.args := by
  induction ts generalizing a with
  | nil => exact ⟨a, rfl, h, rfl, rfl⟩
  | cons t ts ih =>
    simp only [List.all_cons, Bool.and_eq_true] at ht
    obtain ⟨h1, h2, h3, h4, h5⟩ := h
    have : ∃ a', a.apply t = .ok a' ∧ a'.harm ∧ a'.kind = a.kind ∧ a'.args = a.args := by
      unfold Ann.apply
      simp only [h5]
      cases t with
      | style s =>
        refine ⟨_, rfl, ⟨h1, ?_, h3, h4, rfl⟩, rfl, rfl⟩
        cases s <;> simp_all [Tok.harmless]
      | tag n => exact ⟨a, rfl, ⟨h1, h2, h3, h4, h5⟩, rfl, rfl⟩
      | other => exact ⟨a, rfl, ⟨h1, h2, h3, h4, h5⟩, rfl, rfl⟩
      | coercion _ => simp [Tok.harmless] at ht
      | validation _ => simp [Tok.harmless] at ht
      | raises _ => simp [Tok.harmless] at ht
    obtain ⟨a', e, hh, hk, ha⟩ := this
    obtain ⟨a'', e', hh', hk', ha'⟩ := ih hh ht.2
    exact ⟨a'', by simp [Ann.applyAll, e, e'], hh', by rw [hk', hk], by rw [ha', ha]⟩

theorem Ann.harm_bind {a : Ann W} (h : a.harm) :
    ∃ b, a.bind .hollow = .ok b ∧ b.style = .hollow ∧ b.validators = [] := by
  obtain ⟨a', e, ⟨g1, g2, g3, g4, g5⟩, hk, ha⟩ := Ann.harm_applyAll h h.1
  have hst : (if a'.style = Style.default then Style.hollow else a'.style) = .hollow := by
    rcases g2 with g | g <;> simp [g]
  refine ⟨{ a' with bound := true, style := .hollow }, ?_, rfl, g4⟩
  unfold Ann.bind
  simp only [e, Ann.bindBase, g5, hst, g3, List.isEmpty_nil, Ann.bindKind]
  cases a'.kind <;> simp

theorem wrapFinish_hollow {k : WrapKind W} {inner : Ann W} {subs : List (F W)} (hi : inner.style = .hollow)
    (hs : F.allHollow subs = true) : wrapFinish k inner subs = .ok inner := by
  cases k with
  | typeF b => simp [wrapFinish, hi]
  | tupleFix => simp [wrapFinish, hi, hs]
  | generic => simp [wrapFinish, hs]
  | tupleVar | iter | deque | mapping | defaultdict =>
    rcases subs with _ | ⟨f, _ | ⟨g, _ | ⟨h, l⟩⟩⟩ <;> simp_all [wrapFinish, F.allHollow]

/-- what a bound filler without checks does -/
def F.inert (f : F W) : Prop := f.isHollow = true ∧ ∀ v s, f.fill v s = (.ok (v, .hollow), s)

mutual
theorem harm_applyBind : (f : F W) → f.harm → (ts : List (Tok W)) → ts.all Tok.harmless = true →
    (ts ≠ [] → f.takes = true) → ∃ b, F.applyBind .hollow ts f = .ok b ∧ b.inert
  | .dumb b, h, ts, _, ht => by
    have h : b = false := h
    have : ts = [] := by
      cases ts with
      | nil => rfl
      | cons t ts => simp [F.takes] at ht
    subst h; subst this
    exact ⟨.dumb true, by simp [F.applyBind], by simp [F.isHollow], fun v s => by simp [F.fill, M.pure]⟩
  | .failing e, h, _, _, _ => by simp [F.harm] at h
  | .ann a, h, ts, hts, _ => by
    have h : a.harm := by simpa [F.harm] using h
    obtain ⟨a', e, h', hk, ha⟩ := Ann.harm_applyAll h hts
    obtain ⟨b, eb, hs, hv⟩ := Ann.harm_bind h'
    refine ⟨.ann b, by simp [F.applyBind, e, eb, Except.map], by simp [F.isHollow, hs], fun v s => ?_⟩
    simp [F.fill, Ann.fill, hs, hv, validate, M.foldM, M.pure_bind]
    rfl
  | .union b args app subs, h, ts, hts, ht => by
    obtain ⟨hb, h1, h2, h3, h4⟩ : _ ∧ _ ∧ _ ∧ _ ∧ _ := by simpa only [F.harm] using h
    subst hb
    have hall : (args ++ (app ++ ts)).all Tok.harmless = true := by simp_all
    have htk : args ++ (app ++ ts) ≠ [] → F.takesL subs = true := by
      intro hne
      by_cases hn : ts = []
      · subst hn; exact h3 (by simpa using hne)
      · simpa [F.takes] using ht hn
    obtain ⟨bs, e, hh, _⟩ := harm_bindUnion subs h4 _ hall htk
    refine ⟨.union true args (app ++ ts) bs, by simp [F.applyBind, e], by simp [F.isHollow, hh], fun v s => ?_⟩
    simp [F.fill, hh, M.pure]
  | .wrap b k inner subs, h, ts, hts, _ => by
    obtain ⟨hb, h1, h2⟩ : _ ∧ _ ∧ _ := by simpa only [F.harm] using h
    subst hb
    obtain ⟨a', e, h', hk, ha⟩ := Ann.harm_applyAll h1 hts
    obtain ⟨b, eb, hs, hv⟩ := Ann.harm_bind h'
    obtain ⟨bs, es, hh⟩ := harm_bindAll subs h2
    refine ⟨.wrap true k b bs, ?_, by simp [F.isHollow, hs], fun v s => ?_⟩
    · simp [F.applyBind, e, eb, es, wrapFinish_hollow hs hh]
    · simp [F.fill, Ann.fill, hs, hv, validate, M.foldM, M.pure_bind]
      rfl
theorem harm_bindUnion : (fs : List (F W)) → F.harmL fs → (ts : List (Tok W)) → ts.all Tok.harmless = true →
    (ts ≠ [] → F.takesL fs = true) → ∃ bs, F.bindUnion .hollow ts fs = .ok bs ∧ F.allHollow bs = true ∧ True
  | [], _, _, _, _ => ⟨[], by simp [F.bindUnion], by simp [F.allHollow], trivial⟩
  | f :: fs, h, ts, hts, ht => by
    have h : f.harm ∧ F.harmL fs := by simpa only [F.harmL] using h
    have ht1 : ts ≠ [] → f.takes = true := fun hn => by have := ht hn; simp [F.takesL] at this; exact this.1
    have ht2 : ts ≠ [] → F.takesL fs = true := fun hn => by have := ht hn; simp [F.takesL] at this; exact this.2
    obtain ⟨b, e, hb⟩ := harm_applyBind f h.1 ts hts ht1
    obtain ⟨bs, e', hbs, _⟩ := harm_bindUnion fs h.2 ts hts ht2
    exact ⟨b :: bs, by simp [F.bindUnion, e, e'], by simp [F.allHollow, hb.1, hbs], trivial⟩
theorem harm_bindAll : (fs : List (F W)) → F.harmL fs → ∃ bs, F.bindAll .hollow fs = .ok bs ∧ F.allHollow bs = true
  | [], _ => ⟨[], by simp [F.bindAll], by simp [F.allHollow]⟩
  | f :: fs, h => by
    have h : f.harm ∧ F.harmL fs := by simpa only [F.harmL] using h
    obtain ⟨b, e, hb⟩ := harm_applyBind f h.1 [] rfl (by simp)
    obtain ⟨bs, e', hbs⟩ := harm_bindAll fs h.2
    rw [F.applyBind_nil] at e
    exact ⟨b :: bs, by simp [F.bindAll, e, e'], by simp [F.allHollow, hb.1, hbs]⟩
end

/-- the conclusion of `harm_getF` -/
def GetHarm (h : Hint W) : Prop :=
    (∃ f, getF h none = .ok f ∧ f.harm ∧ (h.takesTokens false = true → f.takes = true)) ∧
    (∀ args : List (Tok W), args.all Tok.harmless = true → (args = [] ∨ h.takesTokens true = true) →
      ∃ f, getF h (some args) = .ok f ∧ f.harm ∧ (h.takesTokens true = true → f.takes = true))

theorem getHarm_of {h : Hint W} (mk : List (Tok W) → F W)
    (e : ∀ args, getF h args = .ok (mk (args.getD [])))
    (hh : ∀ args : List (Tok W), args.all Tok.harmless = true → (mk args).harm) (ht : ∀ args, (mk args).takes = true) :
    GetHarm h :=
  ⟨⟨mk [], e none, hh [] rfl, fun _ => ht []⟩, fun args ha _ => ⟨mk args, e (some args), hh args ha, fun _ => ht args⟩⟩

mutual
theorem harm_getF : (h : Hint W) → h.unchecked = true → GetHarm h
  | .cls c, _ => getHarm_of (fun args => .ann (classAnn c args)) (fun args => by simp only [getF]) (fun args ha => by simp only [F.harm]; exact classAnn_harm _ ha) (fun _ => by simp only [F.takes])
  | .none, _ => getHarm_of (fun args => .ann (classAnn W.noneCls args)) (fun args => by simp only [getF]) (fun args ha => by simp only [F.harm]; exact classAnn_harm _ ha) (fun _ => by simp only [F.takes])
  | .any, _ => getHarm_of (fun args => .ann (classAnn W.objectCls args)) (fun args => by simp only [getF]) (fun args ha => by simp only [F.harm]; exact classAnn_harm _ ha) (fun _ => by simp only [F.takes])
  | .callable, _ => getHarm_of (fun args => .ann { kind := .callable, args := args }) (fun args => by simp only [getF]) (fun args ha => by simp only [F.harm]; exact ⟨ha, .inl rfl, rfl, rfl, rfl⟩) (fun _ => by simp only [F.takes])
  | .literal id vals, _ => getHarm_of (fun args => .ann { kind := .literal id vals, args := args }) (fun args => by simp only [getF]) (fun args ha => by simp only [F.harm]; exact ⟨ha, .inl rfl, rfl, rfl, rfl⟩) (fun _ => by simp only [F.takes])
  | .typeBare, _ => getHarm_of (fun args => .ann (classAnn W.typeCls args)) (fun args => by simp only [getF]) (fun args ha => by simp only [F.harm]; exact classAnn_harm _ ha) (fun _ => by simp only [F.takes])
  | .bareGeneric c, _ => getHarm_of (fun args => .ann (classAnn c args)) (fun args => by simp only [getF]) (fun args ha => by simp only [F.harm]; exact classAnn_harm _ ha) (fun _ => by simp only [F.takes])
  | .typeOf base, _ => getHarm_of (fun args => .wrap false (.typeF base) (classAnn W.typeCls args) []) (fun args => by simp only [getF]) (fun args ha => by simp only [F.harm, F.harmL]; exact ⟨trivial, classAnn_harm _ ha, trivial⟩) (fun _ => by simp only [F.takes])
  | .opaque, _ => ⟨⟨.dumb false, by simp [getF], rfl, fun h => by simp [Hint.takesTokens] at h⟩,
      fun args ha h => by
        rcases h with rfl | h
        · exact ⟨.dumb false, by simp [getF], rfl, fun h => by simp [Hint.takesTokens] at h⟩
        · simp [Hint.takesTokens] at h⟩
  | .newType h, hu => by
    have hu' : h.unchecked = true := by simpa [Hint.unchecked] using hu
    obtain ⟨-, i2⟩ := harm_getF h hu'
    refine ⟨?_, ?_⟩
    · obtain ⟨f, e, h1, h2⟩ := i2 [] rfl (.inl rfl)
      exact ⟨f, by simp [getF, e], h1, fun h => h2 (by simpa [Hint.takesTokens] using h)⟩
    · intro args ha ht
      obtain ⟨f, e, h1, h2⟩ := i2 args ha (by simpa [Hint.takesTokens] using ht)
      exact ⟨f, by simp [getF, e], h1, fun h => h2 (by simpa [Hint.takesTokens] using h)⟩
  | .annotated h ts, hu => by
    simp only [Hint.unchecked, Bool.and_eq_true] at hu
    obtain ⟨-, i2⟩ := harm_getF h hu.2
    refine ⟨?_, ?_⟩
    · obtain ⟨f, e, h1, h2⟩ := i2 ts hu.1.1 (.inr hu.1.2)
      exact ⟨f, by simp [getF, e], h1, fun _ => h2 hu.1.2⟩
    · intro args ha ht
      rcases ht with rfl | ht
      · exact ⟨.dumb false, by simp [getF], rfl, fun h => by simp [Hint.takesTokens] at h⟩
      · simp [Hint.takesTokens] at ht
  | .union hs, hu => by
    obtain ⟨fs, e, h1, h2⟩ := harm_getFs hs (by simpa [Hint.unchecked] using hu)
    refine ⟨⟨.union false [] [] fs, by simp [getF, e], ⟨rfl, rfl, rfl, by simp, h1⟩, ?_⟩, ?_⟩
    · intro h; simp only [F.takes]; exact h2 (by simpa [Hint.takesTokens] using h)
    · intro args ha ht
      refine ⟨.union false args [] fs, by simp [getF, e], ⟨rfl, ha, rfl, ?_, h1⟩, ?_⟩
      · intro hne
        rcases ht with rfl | ht
        · simp at hne
        · exact h2 (by simpa [Hint.takesTokens] using ht)
      · intro h; simp only [F.takes]; exact h2 (by simpa [Hint.takesTokens] using h)
  | .tupleFix hs, hu => by
    obtain ⟨fs, e, h1, -⟩ := harm_getFs hs (by simpa [Hint.unchecked] using hu)
    exact getHarm_of (fun args => .wrap false .tupleFix (classAnn W.tupleCls args) fs) (fun args => by simp only [getF, e]) (fun args ha => by simp only [F.harm, F.harmL]; exact ⟨trivial, classAnn_harm _ ha, h1⟩) (fun _ => by simp only [F.takes])
  | .generic c hs, hu => by
    have h1 := harm_getFsLate hs (by simpa [Hint.unchecked] using hu)
    exact getHarm_of (fun args => .wrap false .generic (classAnn c args) (getFsLate hs)) (fun args => by simp only [getF]) (fun args ha => by simp only [F.harm, F.harmL]; exact ⟨trivial, classAnn_harm _ ha, h1⟩) (fun _ => by simp only [F.takes])
  | .tupleVar h, hu => by
    obtain ⟨⟨f, e, h1, -⟩, -⟩ := harm_getF h (by simpa [Hint.unchecked] using hu)
    exact getHarm_of (fun args => .wrap false .tupleVar (classAnn W.tupleCls args) [f]) (fun args => by simp only [getF, e]) (fun args ha => by simp only [F.harm, F.harmL]; exact ⟨trivial, classAnn_harm _ ha, h1, trivial⟩) (fun _ => by simp only [F.takes])
  | .iter c h, hu => by
    obtain ⟨⟨f, e, h1, -⟩, -⟩ := harm_getF h (by simpa [Hint.unchecked] using hu)
    exact getHarm_of (fun args => .wrap false .iter (classAnn c args) [f]) (fun args => by simp only [getF, e]) (fun args ha => by simp only [F.harm, F.harmL]; exact ⟨trivial, classAnn_harm _ ha, h1, trivial⟩) (fun _ => by simp only [F.takes])
  | .deque c h, hu => by
    obtain ⟨⟨f, e, h1, -⟩, -⟩ := harm_getF h (by simpa [Hint.unchecked] using hu)
    exact getHarm_of (fun args => .wrap false .deque (classAnn c args) [f]) (fun args => by simp only [getF, e]) (fun args ha => by simp only [F.harm, F.harmL]; exact ⟨trivial, classAnn_harm _ ha, h1, trivial⟩) (fun _ => by simp only [F.takes])
  | .mapping c k v, hu => by
    simp only [Hint.unchecked, Bool.and_eq_true] at hu
    obtain ⟨⟨f, e, h1, -⟩, -⟩ := harm_getF k hu.1
    obtain ⟨⟨g, e', h1', -⟩, -⟩ := harm_getF v hu.2
    exact getHarm_of (fun args => .wrap false .mapping (classAnn c args) [f, g]) (fun args => by simp only [getF, e, e']) (fun args ha => by simp only [F.harm, F.harmL]; exact ⟨trivial, classAnn_harm _ ha, h1, h1', trivial⟩) (fun _ => by simp only [F.takes])
  | .defaultdict c k v, hu => by
    simp only [Hint.unchecked, Bool.and_eq_true] at hu
    obtain ⟨⟨f, e, h1, -⟩, -⟩ := harm_getF k hu.1
    obtain ⟨⟨g, e', h1', -⟩, -⟩ := harm_getF v hu.2
    exact getHarm_of (fun args => .wrap false .defaultdict (classAnn c args) [f, g]) (fun args => by simp only [getF, e, e']) (fun args ha => by simp only [F.harm, F.harmL]; exact ⟨trivial, classAnn_harm _ ha, h1, h1', trivial⟩) (fun _ => by simp only [F.takes])
theorem harm_getFs : (hs : List (Hint W)) → Hint.uncheckedL hs = true →
    ∃ fs, getFs hs = .ok fs ∧ F.harmL fs ∧ (Hint.takesTokensL hs = true → F.takesL fs = true)
  | [], _ => ⟨[], by simp [getFs], trivial, fun _ => by simp [F.takesL]⟩
  | h :: hs, hu => by
    simp only [Hint.uncheckedL, Bool.and_eq_true] at hu
    obtain ⟨⟨f, e, h1, h2⟩, -⟩ := harm_getF h hu.1
    obtain ⟨fs, e', h1', h2'⟩ := harm_getFs hs hu.2
    refine ⟨f :: fs, by simp [getFs, e, e'], ⟨h1, h1'⟩, ?_⟩
    intro h; simp only [Hint.takesTokensL, Bool.and_eq_true] at h
    simp [F.takesL, h2 h.1, h2' h.2]
theorem harm_getFsLate : (hs : List (Hint W)) → Hint.uncheckedL hs = true → F.harmL (getFsLate hs)
  | [], _ => by simp [getFsLate, F.harmL]
  | h :: hs, hu => by
    simp only [Hint.uncheckedL, Bool.and_eq_true] at hu
    obtain ⟨⟨f, e, h1, -⟩, -⟩ := harm_getF h hu.1
    simp only [getFsLate, e, F.harmL]
    exact ⟨h1, harm_getFsLate hs hu.2⟩
end

end Records
