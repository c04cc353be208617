import Verif.Proofs.Deep
import Verif.Spec.ToyTok
/-
C38: whatever is stored in a checked field conforms to the declared hint at every depth.
C39: without coercers and validators, a field accepts exactly the conforming values, and stores the very argument.
-/
set_option linter.unusedSimpArgs false
namespace Records
variable {W : World}

theorem getFs_cons {h : Hint W} {hs : List (Hint W)} {fs : List (F W)} (e : getFs (h :: hs) = .ok fs) :
    ∃ f fs', getF h none = .ok f ∧ getFs hs = .ok fs' ∧ fs = f :: fs' := by
  simp only [getFs] at e
  cases h1 : getF h none with
  | error e' => simp [h1] at e
  | ok f =>
    simp only [h1] at e
    cases h2 : getFs hs with
    | error e' => simp [h2] at e
    | ok fs' => simp only [h2] at e; cases e; exact ⟨f, fs', rfl, rfl, rfl⟩

theorem bindUnion_cons {d : Style} {ts : List (Tok W)} {f : F W} {fs bs : List (F W)} (e : F.bindUnion d ts (f :: fs) = .ok bs) :
    ∃ b bs', F.applyBind d ts f = .ok b ∧ F.bindUnion d ts fs = .ok bs' ∧ bs = b :: bs' := by
  simp only [F.bindUnion] at e
  cases h1 : F.applyBind d ts f with
  | error e' => simp [h1] at e
  | ok b =>
    simp only [h1] at e
    cases h2 : F.bindUnion d ts fs with
    | error e' => simp [h2] at e
    | ok bs' => simp only [h2] at e; cases e; exact ⟨b, bs', rfl, rfl, rfl⟩

theorem bindAll_cons {d : Style} {f : F W} {fs bs : List (F W)} (e : F.bindAll d (f :: fs) = .ok bs) :
    ∃ b bs', F.applyBind d [] f = .ok b ∧ F.bindAll d fs = .ok bs' ∧ bs = b :: bs' := by
  simp only [F.bindAll] at e
  rw [F.applyBind_nil]
  cases h1 : f.bind d with
  | error e' => simp [h1] at e
  | ok b =>
    simp only [h1] at e
    cases h2 : F.bindAll d fs with
    | error e' => simp [h2] at e
    | ok bs' => simp only [h2] at e; cases e; exact ⟨b, bs', rfl, rfl, rfl⟩

theorem bindAll_nil {d : Style} {bs : List (F W)} (e : F.bindAll d [] = .ok bs) : bs = [] := by
  simp only [F.bindAll] at e; cases e; rfl

/-- what `getF` gives for each hint: the parts were resolved -/
theorem getF_one {x : Except Exc (F W)} {mk : F W → F W} {f : F W}
    (e : (match x with | .ok g => .ok (mk g) | .error e => .error e : Except Exc (F W)) = .ok f) : ∃ g, x = .ok g ∧ f = mk g := by
  cases x with
  | error e' => cases e
  | ok g => cases e; exact ⟨g, rfl, rfl⟩

theorem getF_many {x : Except Exc (List (F W))} {mk : List (F W) → F W} {f : F W}
    (e : (match x with | .ok g => .ok (mk g) | .error e => .error e : Except Exc (F W)) = .ok f) : ∃ g, x = .ok g ∧ f = mk g := by
  cases x with
  | error e' => cases e
  | ok g => cases e; exact ⟨g, rfl, rfl⟩

theorem getF_two {x y : Except Exc (F W)} {mk : F W → F W → F W} {f : F W}
    (e : (match x with | .error e => .error e | .ok g => match y with | .ok g' => .ok (mk g g') | .error e => .error e : Except Exc (F W)) = .ok f) :
    ∃ g g', x = .ok g ∧ y = .ok g' ∧ f = mk g g' := by
  cases x with
  | error e' => cases e
  | ok g =>
    cases y with
    | error e' => cases e
    | ok g' => cases e; exact ⟨g, g', rfl, rfl, rfl⟩

/-! ### unchecked parts -/

mutual
theorem conf_hollow {d : Style} : (h : Hint W) → (args : Option (List (Tok W))) → (toks : List (Tok W)) → (f b : F W) →
    getF h args = .ok f → F.applyBind d toks f = .ok b → b.isHollow = true → ∀ v, Conf d h args toks v
  | .cls c, args, toks, f, b, e, eb, hh, v => by
    simp only [getF] at e; cases e
    obtain ⟨a, ha, rfl⟩ := applyBind_ann eb
    simp only [F.isHollow, decide_eq_true_eq] at hh
    simp only [Conf]
    exact .inl (by rw [← style_of_make ha]; exact hh)
  | .none, args, toks, f, b, e, eb, hh, v => by
    simp only [getF] at e; cases e
    obtain ⟨a, ha, rfl⟩ := applyBind_ann eb
    simp only [F.isHollow, decide_eq_true_eq] at hh
    simp only [Conf]
    exact .inl (by rw [← style_of_make ha]; exact hh)
  | .any, args, toks, f, b, e, eb, hh, v => by
    simp only [getF] at e; cases e
    obtain ⟨a, ha, rfl⟩ := applyBind_ann eb
    simp only [F.isHollow, decide_eq_true_eq] at hh
    simp only [Conf]
    exact .inl (by rw [← style_of_make ha]; exact hh)
  | .callable, args, toks, f, b, e, eb, hh, v => by
    simp only [getF] at e; cases e
    obtain ⟨a, ha, rfl⟩ := applyBind_ann eb
    simp only [F.isHollow, decide_eq_true_eq] at hh
    simp only [Conf]
    exact .inl (by rw [← style_of_make ha]; exact hh)
  | .typeBare, args, toks, f, b, e, eb, hh, v => by
    simp only [getF] at e; cases e
    obtain ⟨a, ha, rfl⟩ := applyBind_ann eb
    simp only [F.isHollow, decide_eq_true_eq] at hh
    simp only [Conf]
    exact .inl (by rw [← style_of_make ha]; exact hh)
  | .bareGeneric c, args, toks, f, b, e, eb, hh, v => by
    simp only [getF] at e; cases e
    obtain ⟨a, ha, rfl⟩ := applyBind_ann eb
    simp only [F.isHollow, decide_eq_true_eq] at hh
    simp only [Conf]
    exact .inl (by rw [← style_of_make ha]; exact hh)
  | .literal id vals, args, toks, f, b, e, eb, hh, v => by
    simp only [getF] at e; cases e
    obtain ⟨a, ha, rfl⟩ := applyBind_ann eb
    simp only [F.isHollow, decide_eq_true_eq] at hh
    simp only [Conf]
    exact .inl (by rw [← style_of_make ha]; exact hh)
  | .newType h, args, toks, f, b, e, eb, hh, v => by
    simp only [getF] at e
    simp only [Conf]
    exact conf_hollow h _ _ f b e eb hh v
  | .union hs, args, toks, f, b, e, eb, hh, v => by
    simp only [getF] at e
    obtain ⟨fs, e1, rfl⟩ := getF_many e
    obtain ⟨bs, e2, rfl⟩ := applyBind_union eb
    simp only [Conf]
    have := conf_hollow_union hs _ fs bs e1 e2
    simp only [F.isHollow] at hh
    cases this with
    | nil => exact .inl rfl
    | cons h1 _ =>
      simp only [F.allHollow, Bool.and_eq_true] at hh
      right
      simp only [ConfAny]
      exact .inl (h1 hh.1 v)
  | .typeOf base, args, toks, f, b, e, eb, hh, v => by
    simp only [getF] at e; cases e
    obtain ⟨a, a', bs, ha, -, hfin, rfl⟩ := applyBind_wrap eb
    simp only [F.isHollow, decide_eq_true_eq, wrapFinish_style hfin] at hh
    simp only [Conf]
    exact .inl (by rw [← style_of_make ha]; exact hh)
  | .generic c hs, args, toks, f, b, e, eb, hh, v => by
    simp only [getF] at e; cases e
    obtain ⟨a, a', bs, ha, -, hfin, rfl⟩ := applyBind_wrap eb
    simp only [F.isHollow, decide_eq_true_eq, wrapFinish_style hfin] at hh
    simp only [Conf]
    exact .inl (by rw [← style_of_make ha]; exact hh)
  | .tupleFix hs, args, toks, f, b, e, eb, hh, v => by
    simp only [getF] at e
    obtain ⟨g, -, rfl⟩ := getF_many e
    obtain ⟨a, a', bs, ha, -, hfin, rfl⟩ := applyBind_wrap eb
    simp only [F.isHollow, decide_eq_true_eq, wrapFinish_style hfin] at hh
    simp only [Conf]
    exact .inl (by rw [← style_of_make ha]; exact hh)
  | .tupleVar h, args, toks, f, b, e, eb, hh, v => by
    simp only [getF] at e
    obtain ⟨g, -, rfl⟩ := getF_one e
    obtain ⟨a, a', bs, ha, -, hfin, rfl⟩ := applyBind_wrap eb
    simp only [F.isHollow, decide_eq_true_eq, wrapFinish_style hfin] at hh
    simp only [Conf]
    exact .inl (by rw [← style_of_make ha]; exact hh)
  | .iter c h, args, toks, f, b, e, eb, hh, v => by
    simp only [getF] at e
    obtain ⟨g, -, rfl⟩ := getF_one e
    obtain ⟨a, a', bs, ha, -, hfin, rfl⟩ := applyBind_wrap eb
    simp only [F.isHollow, decide_eq_true_eq, wrapFinish_style hfin] at hh
    simp only [Conf]
    exact .inl (by rw [← style_of_make ha]; exact hh)
  | .deque c h, args, toks, f, b, e, eb, hh, v => by
    simp only [getF] at e
    obtain ⟨g, -, rfl⟩ := getF_one e
    obtain ⟨a, a', bs, ha, -, hfin, rfl⟩ := applyBind_wrap eb
    simp only [F.isHollow, decide_eq_true_eq, wrapFinish_style hfin] at hh
    simp only [Conf]
    exact .inl (by rw [← style_of_make ha]; exact hh)
  | .mapping c k h, args, toks, f, b, e, eb, hh, v => by
    simp only [getF] at e
    obtain ⟨g, g', -, -, rfl⟩ := getF_two e
    obtain ⟨a, a', bs, ha, -, hfin, rfl⟩ := applyBind_wrap eb
    simp only [F.isHollow, decide_eq_true_eq, wrapFinish_style hfin] at hh
    simp only [Conf]
    exact .inl (by rw [← style_of_make ha]; exact hh)
  | .defaultdict c k h, args, toks, f, b, e, eb, hh, v => by
    simp only [getF] at e
    obtain ⟨g, g', -, -, rfl⟩ := getF_two e
    obtain ⟨a, a', bs, ha, -, hfin, rfl⟩ := applyBind_wrap eb
    simp only [F.isHollow, decide_eq_true_eq, wrapFinish_style hfin] at hh
    simp only [Conf]
    exact .inl (by rw [← style_of_make ha]; exact hh)
  | .annotated h ts, none, toks, f, b, e, eb, hh, v => by
    simp only [getF] at e
    simp only [Conf]
    exact conf_hollow h _ _ f b e eb hh v
  | .annotated h ts, some _, toks, f, b, e, eb, hh, v => by simp only [Conf]
  | .opaque, args, toks, f, b, e, eb, hh, v => by simp only [Conf]
theorem conf_hollow_union {d : Style} : (hs : List (Hint W)) → (ts : List (Tok W)) → (fs bs : List (F W)) →
    getFs hs = .ok fs → F.bindUnion d ts fs = .ok bs → Each (fun h b => b.isHollow = true → ∀ v, Conf d h none ts v) hs bs
  | [], ts, fs, bs, e, eb => by
    simp only [getFs] at e; cases e
    simp only [F.bindUnion] at eb; cases eb
    exact .nil
  | h :: hs, ts, fs, bs, e, eb => by
    obtain ⟨f, fs', e1, e2, rfl⟩ := getFs_cons e
    obtain ⟨b, bs', e3, e4, rfl⟩ := bindUnion_cons eb
    exact .cons (conf_hollow h none ts f b e1 e3) (conf_hollow_union hs ts fs' bs' e2 e4)
end

theorem conf_hollow_all {d : Style} : (hs : List (Hint W)) → (fs bs : List (F W)) →
    getFs hs = .ok fs → F.bindAll d fs = .ok bs → Each (fun h b => b.isHollow = true → ∀ v, Conf d h none [] v) hs bs
  | [], fs, bs, e, eb => by
    simp only [getFs] at e; cases e
    simp only [F.bindAll] at eb; cases eb
    exact .nil
  | h :: hs, fs, bs, e, eb => by
    obtain ⟨f, fs', e1, e2, rfl⟩ := getFs_cons e
    obtain ⟨b, bs', e3, e4, rfl⟩ := bindAll_cons eb
    exact .cons (conf_hollow h none [] f b e1 e3) (conf_hollow_all hs fs' bs' e2 e4)

theorem isHollow_dumb {d : Style} {toks : List (Tok W)} {b : F W} (h : F.applyBind d toks (.dumb false) = .ok b) :
    b.isHollow = true := by
  simp only [F.applyBind] at h
  split at h
  · cases h
  · split at h
    · cases h
    · split at h
      · cases h
      · cases h; rfl

/-! ### unchecked types -/

mutual
/-- the model's `is_hollow` is what the specification calls unchecked -/
theorem isHollow_iff {d : Style} : (h : Hint W) → (args : Option (List (Tok W))) → (toks : List (Tok W)) → (f b : F W) →
    getF h args = .ok f → F.applyBind d toks f = .ok b → (b.isHollow = true ↔ Unchecked d h args toks)
  | .cls c, args, toks, f, b, e, eb => by
    simp only [getF] at e; cases e
    obtain ⟨a, ha, rfl⟩ := applyBind_ann eb
    simp only [F.isHollow, decide_eq_true_eq, Unchecked, style_of_make ha]
  | .none, args, toks, f, b, e, eb => by
    simp only [getF] at e; cases e
    obtain ⟨a, ha, rfl⟩ := applyBind_ann eb
    simp only [F.isHollow, decide_eq_true_eq, Unchecked, style_of_make ha]
  | .any, args, toks, f, b, e, eb => by
    simp only [getF] at e; cases e
    obtain ⟨a, ha, rfl⟩ := applyBind_ann eb
    simp only [F.isHollow, decide_eq_true_eq, Unchecked, style_of_make ha]
  | .callable, args, toks, f, b, e, eb => by
    simp only [getF] at e; cases e
    obtain ⟨a, ha, rfl⟩ := applyBind_ann eb
    simp only [F.isHollow, decide_eq_true_eq, Unchecked, style_of_make ha]
  | .typeBare, args, toks, f, b, e, eb => by
    simp only [getF] at e; cases e
    obtain ⟨a, ha, rfl⟩ := applyBind_ann eb
    simp only [F.isHollow, decide_eq_true_eq, Unchecked, style_of_make ha]
  | .bareGeneric c, args, toks, f, b, e, eb => by
    simp only [getF] at e; cases e
    obtain ⟨a, ha, rfl⟩ := applyBind_ann eb
    simp only [F.isHollow, decide_eq_true_eq, Unchecked, style_of_make ha]
  | .literal id vals, args, toks, f, b, e, eb => by
    simp only [getF] at e; cases e
    obtain ⟨a, ha, rfl⟩ := applyBind_ann eb
    simp only [F.isHollow, decide_eq_true_eq, Unchecked, style_of_make ha]
  | .typeOf base, args, toks, f, b, e, eb => by
    simp only [getF] at e; cases e
    obtain ⟨a, a', bs, ha, -, hfin, rfl⟩ := applyBind_wrap eb
    simp only [F.isHollow, decide_eq_true_eq, wrapFinish_style hfin, Unchecked, style_of_make ha]
  | .generic c hs, args, toks, f, b, e, eb => by
    simp only [getF] at e; cases e
    obtain ⟨a, a', bs, ha, -, hfin, rfl⟩ := applyBind_wrap eb
    simp only [F.isHollow, decide_eq_true_eq, wrapFinish_style hfin, Unchecked, style_of_make ha]
  | .tupleFix hs, args, toks, f, b, e, eb => by
    simp only [getF] at e
    obtain ⟨g, -, rfl⟩ := getF_many e
    obtain ⟨a, a', bs, ha, -, hfin, rfl⟩ := applyBind_wrap eb
    simp only [F.isHollow, decide_eq_true_eq, wrapFinish_style hfin, Unchecked, style_of_make ha]
  | .tupleVar h, args, toks, f, b, e, eb => by
    simp only [getF] at e
    obtain ⟨g, -, rfl⟩ := getF_one e
    obtain ⟨a, a', bs, ha, -, hfin, rfl⟩ := applyBind_wrap eb
    simp only [F.isHollow, decide_eq_true_eq, wrapFinish_style hfin, Unchecked, style_of_make ha]
  | .iter c h, args, toks, f, b, e, eb => by
    simp only [getF] at e
    obtain ⟨g, -, rfl⟩ := getF_one e
    obtain ⟨a, a', bs, ha, -, hfin, rfl⟩ := applyBind_wrap eb
    simp only [F.isHollow, decide_eq_true_eq, wrapFinish_style hfin, Unchecked, style_of_make ha]
  | .deque c h, args, toks, f, b, e, eb => by
    simp only [getF] at e
    obtain ⟨g, -, rfl⟩ := getF_one e
    obtain ⟨a, a', bs, ha, -, hfin, rfl⟩ := applyBind_wrap eb
    simp only [F.isHollow, decide_eq_true_eq, wrapFinish_style hfin, Unchecked, style_of_make ha]
  | .mapping c k h, args, toks, f, b, e, eb => by
    simp only [getF] at e
    obtain ⟨g, g', -, -, rfl⟩ := getF_two e
    obtain ⟨a, a', bs, ha, -, hfin, rfl⟩ := applyBind_wrap eb
    simp only [F.isHollow, decide_eq_true_eq, wrapFinish_style hfin, Unchecked, style_of_make ha]
  | .defaultdict c k h, args, toks, f, b, e, eb => by
    simp only [getF] at e
    obtain ⟨g, g', -, -, rfl⟩ := getF_two e
    obtain ⟨a, a', bs, ha, -, hfin, rfl⟩ := applyBind_wrap eb
    simp only [F.isHollow, decide_eq_true_eq, wrapFinish_style hfin, Unchecked, style_of_make ha]
  | .newType h, args, toks, f, b, e, eb => by
    simp only [getF] at e
    simp only [Unchecked]
    exact isHollow_iff h _ _ f b e eb
  | .union hs, args, toks, f, b, e, eb => by
    simp only [getF] at e
    obtain ⟨fs, e1, rfl⟩ := getF_many e
    obtain ⟨bs, e2, rfl⟩ := applyBind_union eb
    simp only [Unchecked, F.isHollow]
    exact isHollow_union hs _ fs bs e1 e2
  | .annotated h ts, none, toks, f, b, e, eb => by
    simp only [getF] at e
    simp only [Unchecked]
    exact isHollow_iff h _ _ f b e eb
  | .annotated h ts, some args, toks, f, b, e, eb => by
    simp only [Unchecked, iff_true]
    simp only [getF] at e
    split at e
    · cases e
      exact isHollow_dumb eb
    · cases e
  | .opaque, args, toks, f, b, e, eb => by
    simp only [Unchecked, iff_true]
    simp only [getF] at e
    split at e
    · cases e
      exact isHollow_dumb eb
    · cases e
theorem isHollow_union {d : Style} : (hs : List (Hint W)) → (ts : List (Tok W)) → (fs bs : List (F W)) →
    getFs hs = .ok fs → F.bindUnion d ts fs = .ok bs → (F.allHollow bs = true ↔ UncheckedAll d hs ts)
  | [], ts, fs, bs, e, eb => by
    simp only [getFs] at e; cases e
    simp only [F.bindUnion] at eb; cases eb
    simp [F.allHollow, UncheckedAll]
  | h :: hs, ts, fs, bs, e, eb => by
    obtain ⟨f, fs', e1, e2, rfl⟩ := getFs_cons e
    obtain ⟨b, bs', e3, e4, rfl⟩ := bindUnion_cons eb
    simp only [F.allHollow, Bool.and_eq_true, UncheckedAll, isHollow_iff h none ts f b e1 e3, isHollow_union hs ts fs' bs' e2 e4]
end

theorem memberFiller_hollow {d : Style} {toks : List (Tok W)} {h : Hint W} {f : F W} (hf : memberFiller d toks h = .ok f) :
    f.isHollow = true ↔ Unchecked d h none toks := by
  unfold memberFiller getFiller at hf
  cases hg : getF h none with
  | error e => simp [hg] at hf
  | ok g =>
    simp only [hg] at hf
    refine isHollow_iff h none toks g f hg ?_
    rw [F.applyBind_eq]
    exact hf

/-! ### C38 -/

theorem class_sound (hW : Sane W) {d : Style} {c : W.Cls} {toks args : List (Tok W)} {a : Ann W}
    (ha : Ann.make d (classKind c) toks args = .ok a) (hv : (toks ++ args).all (fun t => !t.isValidation) = true)
    (hc : (c = W.noneCls ∨ c = W.ellipsisCls) → (toks ++ args).all (fun t => !t.isCoercion) = true) :
    Sound (ClassConf (styleOf d (toks ++ args)) c) (.ann a) := by
  refine (leaf_sound ha hv ?_).congr fun v => (classConf_kind hW _ c v).1
  intro hs
  apply hc
  unfold classKind at hs
  split at hs
  · simp [Kind.isSingleton] at hs
  · split at hs
    · exact .inl (by assumption)
    · split at hs
      · exact .inr (by assumption)
      · split at hs
        · simp [Kind.isSingleton] at hs
        · split at hs
          · simp [Kind.isSingleton] at hs
          · split at hs
            · rename_i h; exact .inl (hW.noneFinal c h)
            · simp [Kind.isSingleton] at hs

mutual
theorem conf_sound (hW : Sane W) {d : Style} : (h : Hint W) → (args : Option (List (Tok W))) → (toks : List (Tok W)) → (f b : F W) →
    getF h args = .ok f → F.applyBind d toks f = .ok b → Everywhere TidyPart h args toks → Sound (Conf d h args toks) b
  | .cls c, args, toks, f, b, e, eb, ht => by
    simp only [getF] at e; cases e
    obtain ⟨a, ha, rfl⟩ := applyBind_ann eb
    simp only [Everywhere, TidyPart] at ht
    simp only [Conf]
    exact class_sound hW ha ht.1 ht.2
  | .none, args, toks, f, b, e, eb, ht => by
    simp only [getF] at e; cases e
    obtain ⟨a, ha, rfl⟩ := applyBind_ann eb
    simp only [Everywhere, TidyPart] at ht
    simp only [Conf]
    exact class_sound hW ha ht.1 (fun _ => ht.2)
  | .any, args, toks, f, b, e, eb, ht => by
    simp only [getF] at e; cases e
    obtain ⟨a, ha, rfl⟩ := applyBind_ann eb
    simp only [Everywhere, TidyPart] at ht
    simp only [Conf]
    exact class_sound hW ha ht.1 (fun h => h.elim (fun h => absurd h hW.objectNotNone) (fun h => absurd h hW.objectNotEllipsis))
  | .callable, args, toks, f, b, e, eb, ht => by
    simp only [getF] at e; cases e
    obtain ⟨a, ha, rfl⟩ := applyBind_ann eb
    simp only [Everywhere, TidyPart] at ht
    simp only [Conf]
    exact leaf_sound ha ht.1 (fun _ => ht.2)
  | .typeBare, args, toks, f, b, e, eb, ht => by
    simp only [getF] at e; cases e
    obtain ⟨a, ha, rfl⟩ := applyBind_ann eb
    simp only [Everywhere, TidyPart] at ht
    simp only [Conf]
    exact class_sound hW ha ht.1 (fun h => h.elim (fun h => absurd h ht.2.1) (fun h => absurd h ht.2.2))
  | .bareGeneric c, args, toks, f, b, e, eb, ht => by
    simp only [getF] at e; cases e
    obtain ⟨a, ha, rfl⟩ := applyBind_ann eb
    simp only [Everywhere, TidyPart] at ht
    simp only [Conf]
    exact class_sound hW ha ht.1 ht.2
  | .literal id vals, args, toks, f, b, e, eb, ht => by
    simp only [getF] at e; cases e
    obtain ⟨a, ha, rfl⟩ := applyBind_ann eb
    simp only [Everywhere, TidyPart] at ht
    simp only [Conf]
    exact leaf_sound ha ht.1 (fun h => by simp [Kind.isSingleton] at h)
  | .newType h, args, toks, f, b, e, eb, ht => by
    simp only [getF] at e
    simp only [Everywhere] at ht
    have := conf_sound hW h _ _ f b e eb ht
    exact this.congr fun v => by simp only [Conf]; exact id
  | .union hs, args, toks, f, b, e, eb, ht => by
    simp only [getF] at e
    obtain ⟨fs, e1, rfl⟩ := getF_many e
    obtain ⟨bs, e2, rfl⟩ := applyBind_union eb
    simp only [Everywhere] at ht
    have h1 := conf_sound_union hW hs _ fs bs e1 e2 ht
    exact (union_sound h1 (conf_hollow_union hs _ fs bs e1 e2)).congr fun v => by simp only [Conf]; exact id
  | .typeOf base, args, toks, f, b, e, eb, ht => by
    simp only [getF] at e; cases e
    obtain ⟨a, a', bs, ha, -, hfin, rfl⟩ := applyBind_wrap eb
    simp only [Everywhere, TidyPart] at ht
    have hcls := class_sound hW ha ht.1 (fun h => h.elim (fun h => absurd h ht.2.1) (fun h => absurd h ht.2.2))
    exact (typeF_sound hfin (style_of_make ha) hcls).congr fun v => by simp only [Conf]; exact id
  | .generic c hs, args, toks, f, b, e, eb, ht => by
    simp only [getF] at e; cases e
    obtain ⟨a, a', bs, ha, -, hfin, rfl⟩ := applyBind_wrap eb
    simp only [Everywhere, TidyPart] at ht
    have hcls := class_sound hW ha ht.1 ht.2
    have : Sound (ClassConf (styleOf d (toks ++ args.getD [])) c) (.wrap true .generic a' bs) := by
      intro v s w s' h; rw [generic_call hfin v] at h; exact hcls v s w s' h
    exact (this).congr fun v => by simp only [Conf]; exact id
  | .tupleFix hs, args, toks, f, b, e, eb, ht => by
    simp only [getF] at e
    obtain ⟨fs, e1, rfl⟩ := getF_many e
    obtain ⟨a, a', bs, ha, e2, hfin, rfl⟩ := applyBind_wrap eb
    simp only [Everywhere, TidyPart] at ht
    have hcls := class_sound hW ha ht.1.1 (fun h => h.elim (fun h => absurd h ht.1.2.1) (fun h => absurd h ht.1.2.2.1))
    have h1 := conf_sound_all hW hs fs bs e1 e2 ht.2
    exact (tupleFix_sound hfin (style_of_make ha) hcls ht.1.2 h1 (conf_hollow_all hs fs bs e1 e2)).congr fun v => by simp only [Conf]; exact id
  | .tupleVar h, args, toks, f, b, e, eb, ht => by
    simp only [getF] at e
    obtain ⟨g, e1, rfl⟩ := getF_one e
    obtain ⟨a, a', bs, ha, e2, hfin, rfl⟩ := applyBind_wrap eb
    obtain ⟨b0, bs', e3, e4, rfl⟩ := bindAll_cons e2
    obtain rfl := bindAll_nil e4
    simp only [Everywhere, TidyPart] at ht
    have hcls := class_sound hW ha ht.1.1 (fun h => h.elim (fun h => absurd h ht.1.2.1) (fun h => absurd h ht.1.2.2.1))
    exact (iter_sound (.inr (.inl ⟨rfl, rfl⟩)) hfin (style_of_make ha) hcls ht.1.2 (conf_sound hW h none [] g b0 e1 e3 ht.2) (conf_hollow h none [] g b0 e1 e3)).congr fun v => by simp only [Conf]; exact id
  | .iter c h, args, toks, f, b, e, eb, ht => by
    simp only [getF] at e
    obtain ⟨g, e1, rfl⟩ := getF_one e
    obtain ⟨a, a', bs, ha, e2, hfin, rfl⟩ := applyBind_wrap eb
    obtain ⟨b0, bs', e3, e4, rfl⟩ := bindAll_cons e2
    obtain rfl := bindAll_nil e4
    simp only [Everywhere, TidyPart] at ht
    have hcls := class_sound hW ha ht.1.1 (fun h => h.elim (fun h => absurd h ht.1.2.1) (fun h => absurd h ht.1.2.2.1))
    exact (iter_sound (.inl ⟨rfl, rfl⟩) hfin (style_of_make ha) hcls ht.1.2 (conf_sound hW h none [] g b0 e1 e3 ht.2) (conf_hollow h none [] g b0 e1 e3)).congr fun v => by simp only [Conf]; exact id
  | .deque c h, args, toks, f, b, e, eb, ht => by
    simp only [getF] at e
    obtain ⟨g, e1, rfl⟩ := getF_one e
    obtain ⟨a, a', bs, ha, e2, hfin, rfl⟩ := applyBind_wrap eb
    obtain ⟨b0, bs', e3, e4, rfl⟩ := bindAll_cons e2
    obtain rfl := bindAll_nil e4
    simp only [Everywhere, TidyPart] at ht
    have hcls := class_sound hW ha ht.1.1 (fun h => h.elim (fun h => absurd h ht.1.2.1) (fun h => absurd h ht.1.2.2.1))
    exact (iter_sound (.inr (.inr ⟨rfl, rfl⟩)) hfin (style_of_make ha) hcls ht.1.2 (conf_sound hW h none [] g b0 e1 e3 ht.2) (conf_hollow h none [] g b0 e1 e3)).congr fun v => by simp only [Conf]; exact id
  | .mapping c k h, args, toks, f, b, e, eb, ht => by
    simp only [getF] at e
    obtain ⟨g, g', e1, e1', rfl⟩ := getF_two e
    obtain ⟨a, a', bs, ha, e2, hfin, rfl⟩ := applyBind_wrap eb
    obtain ⟨b0, bs', e3, e4, rfl⟩ := bindAll_cons e2
    obtain ⟨b1, bs', e5, e6, rfl⟩ := bindAll_cons e4
    obtain rfl := bindAll_nil e6
    simp only [Everywhere, TidyPart] at ht
    have hcls := class_sound hW ha ht.1.1 (fun h => h.elim (fun h => absurd h ht.1.2.1) (fun h => absurd h ht.1.2.2.1))
    exact (map_sound (.inl ⟨rfl, rfl⟩) hfin (style_of_make ha) hcls ht.1.2 (conf_sound hW k none [] g b0 e1 e3 ht.2.1) (conf_sound hW h none [] g' b1 e1' e5 ht.2.2)
      (conf_hollow k none [] g b0 e1 e3) (conf_hollow h none [] g' b1 e1' e5)).congr fun v => by simp only [Conf]; exact id
  | .defaultdict c k h, args, toks, f, b, e, eb, ht => by
    simp only [getF] at e
    obtain ⟨g, g', e1, e1', rfl⟩ := getF_two e
    obtain ⟨a, a', bs, ha, e2, hfin, rfl⟩ := applyBind_wrap eb
    obtain ⟨b0, bs', e3, e4, rfl⟩ := bindAll_cons e2
    obtain ⟨b1, bs', e5, e6, rfl⟩ := bindAll_cons e4
    obtain rfl := bindAll_nil e6
    simp only [Everywhere, TidyPart] at ht
    have hcls := class_sound hW ha ht.1.1 (fun h => h.elim (fun h => absurd h ht.1.2.1) (fun h => absurd h ht.1.2.2.1))
    exact (map_sound (.inr ⟨rfl, rfl⟩) hfin (style_of_make ha) hcls ht.1.2 (conf_sound hW k none [] g b0 e1 e3 ht.2.1) (conf_sound hW h none [] g' b1 e1' e5 ht.2.2)
      (conf_hollow k none [] g b0 e1 e3) (conf_hollow h none [] g' b1 e1' e5)).congr fun v => by simp only [Conf]; exact id
  | .annotated h ts, none, toks, f, b, e, eb, ht => by
    simp only [getF] at e
    simp only [Everywhere] at ht
    exact (conf_sound hW h _ _ f b e eb ht).congr fun v => by simp only [Conf]; exact id
  | .annotated h ts, some _, toks, f, b, e, eb, ht => fun v s w s' h => by simp only [Conf]
  | .opaque, args, toks, f, b, e, eb, ht => fun v s w s' h => by simp only [Conf]
theorem conf_sound_union (hW : Sane W) {d : Style} : (hs : List (Hint W)) → (ts : List (Tok W)) → (fs bs : List (F W)) →
    getFs hs = .ok fs → F.bindUnion d ts fs = .ok bs → EverywhereL TidyPart hs ts → Each (fun h b => Sound (Conf d h none ts) b) hs bs
  | [], ts, fs, bs, e, eb, _ => by
    simp only [getFs] at e; cases e
    simp only [F.bindUnion] at eb; cases eb
    exact .nil
  | h :: hs, ts, fs, bs, e, eb, ht => by
    obtain ⟨f, fs', e1, e2, rfl⟩ := getFs_cons e
    obtain ⟨b, bs', e3, e4, rfl⟩ := bindUnion_cons eb
    simp only [EverywhereL] at ht
    exact .cons (conf_sound hW h none ts f b e1 e3 ht.1) (conf_sound_union hW hs ts fs' bs' e2 e4 ht.2)
theorem conf_sound_all (hW : Sane W) {d : Style} : (hs : List (Hint W)) → (fs bs : List (F W)) →
    getFs hs = .ok fs → F.bindAll d fs = .ok bs → EverywhereL TidyPart hs [] → Each (fun h b => Sound (Conf d h none []) b) hs bs
  | [], fs, bs, e, eb, _ => by
    simp only [getFs] at e; cases e
    simp only [F.bindAll] at eb; cases eb
    exact .nil
  | h :: hs, fs, bs, e, eb, ht => by
    obtain ⟨f, fs', e1, e2, rfl⟩ := getFs_cons e
    obtain ⟨b, bs', e3, e4, rfl⟩ := bindAll_cons eb
    simp only [EverywhereL] at ht
    exact .cons (conf_sound hW h none [] f b e1 e3 ht.1) (conf_sound_all hW hs fs' bs' e2 e4 ht.2)
end

/-! ### C39 -/

theorem class_decides (hW : Sane W) {d : Style} (hd : d ≠ .default) {c : W.Cls} {toks args : List (Tok W)} {a : Ann W}
    (ha : Ann.make d (classKind c) toks args = .ok a)
    (hv : (toks ++ args).all (fun t => !t.isCoercion && !t.isValidation) = true) :
    Decides (ClassConf (styleOf d (toks ++ args)) c) (.ann a) :=
  (leaf_decides hd ha hv).congr fun v => classConf_kind hW _ c v

mutual
theorem conf_decides (hW : Sane W) {d : Style} (hd : d ≠ .default) : (h : Hint W) → (args : Option (List (Tok W))) → (toks : List (Tok W)) → (f b : F W) →
    getF h args = .ok f → F.applyBind d toks f = .ok b → Everywhere PlainPart h args toks → Decides (Conf d h args toks) b
  | .cls c, args, toks, f, b, e, eb, ht => by
    simp only [getF] at e; cases e
    obtain ⟨a, ha, rfl⟩ := applyBind_ann eb
    simp only [Everywhere, PlainPart] at ht
    simp only [Conf]
    exact class_decides hW hd ha ht
  | .none, args, toks, f, b, e, eb, ht => by
    simp only [getF] at e; cases e
    obtain ⟨a, ha, rfl⟩ := applyBind_ann eb
    simp only [Everywhere, PlainPart] at ht
    simp only [Conf]
    exact class_decides hW hd ha ht
  | .any, args, toks, f, b, e, eb, ht => by
    simp only [getF] at e; cases e
    obtain ⟨a, ha, rfl⟩ := applyBind_ann eb
    simp only [Everywhere, PlainPart] at ht
    simp only [Conf]
    exact class_decides hW hd ha ht
  | .callable, args, toks, f, b, e, eb, ht => by
    simp only [getF] at e; cases e
    obtain ⟨a, ha, rfl⟩ := applyBind_ann eb
    simp only [Everywhere, PlainPart] at ht
    simp only [Conf]
    exact leaf_decides hd ha ht
  | .typeBare, args, toks, f, b, e, eb, ht => by
    simp only [getF] at e; cases e
    obtain ⟨a, ha, rfl⟩ := applyBind_ann eb
    simp only [Everywhere, PlainPart] at ht
    simp only [Conf]
    exact class_decides hW hd ha ht
  | .bareGeneric c, args, toks, f, b, e, eb, ht => by
    simp only [getF] at e; cases e
    obtain ⟨a, ha, rfl⟩ := applyBind_ann eb
    simp only [Everywhere, PlainPart] at ht
    simp only [Conf]
    exact class_decides hW hd ha ht
  | .literal id vals, args, toks, f, b, e, eb, ht => by
    simp only [getF] at e; cases e
    obtain ⟨a, ha, rfl⟩ := applyBind_ann eb
    simp only [Everywhere, PlainPart] at ht
    simp only [Conf]
    exact leaf_decides hd ha ht
  | .newType h, args, toks, f, b, e, eb, ht => by
    simp only [getF] at e
    simp only [Everywhere] at ht
    have := conf_decides hW hd h _ _ f b e eb ht
    exact this.congr fun v => by simp only [Conf]
  | .union hs, args, toks, f, b, e, eb, ht => by
    simp only [getF] at e
    obtain ⟨fs, e1, rfl⟩ := getF_many e
    obtain ⟨bs, e2, rfl⟩ := applyBind_union eb
    simp only [Everywhere] at ht
    have h1 := conf_decides_union hW hd hs _ fs bs e1 e2 ht
    exact (union_decides h1 (conf_hollow_union hs _ fs bs e1 e2)).congr fun v => by simp only [Conf]
  | .typeOf base, args, toks, f, b, e, eb, ht => by
    simp only [getF] at e; cases e
    obtain ⟨a, a', bs, ha, -, hfin, rfl⟩ := applyBind_wrap eb
    simp only [Everywhere, PlainPart] at ht
    have hcls := class_decides hW hd ha ht
    exact (typeF_decides hfin (style_of_make ha) hcls).congr fun v => by simp only [Conf]
  | .generic c hs, args, toks, f, b, e, eb, ht => by
    simp only [getF] at e; cases e
    obtain ⟨a, a', bs, ha, -, hfin, rfl⟩ := applyBind_wrap eb
    simp only [Everywhere, PlainPart] at ht
    have hcls := class_decides hW hd ha ht
    have : Decides (ClassConf (styleOf d (toks ++ args.getD [])) c) (.wrap true .generic a' bs) := by
      intro v s; rw [generic_call hfin v]; exact hcls v s
    exact (this).congr fun v => by simp only [Conf]
  | .tupleFix hs, args, toks, f, b, e, eb, ht => by
    simp only [getF] at e
    obtain ⟨fs, e1, rfl⟩ := getF_many e
    obtain ⟨a, a', bs, ha, e2, hfin, rfl⟩ := applyBind_wrap eb
    simp only [Everywhere, PlainPart] at ht
    have hcls := class_decides hW hd ha ht.1
    have h1 := conf_decides_all hW hd hs fs bs e1 e2 ht.2
    exact (tupleFix_decides hfin (style_of_make ha) hcls h1 (conf_hollow_all hs fs bs e1 e2)).congr fun v => by simp only [Conf]
  | .tupleVar h, args, toks, f, b, e, eb, ht => by
    simp only [getF] at e
    obtain ⟨g, e1, rfl⟩ := getF_one e
    obtain ⟨a, a', bs, ha, e2, hfin, rfl⟩ := applyBind_wrap eb
    obtain ⟨b0, bs', e3, e4, rfl⟩ := bindAll_cons e2
    obtain rfl := bindAll_nil e4
    simp only [Everywhere, PlainPart] at ht
    have hcls := class_decides hW hd ha ht.1
    exact (iter_decides (.inr (.inl ⟨rfl, rfl⟩)) hfin (style_of_make ha) hcls (conf_decides hW hd h none [] g b0 e1 e3 ht.2) (conf_hollow h none [] g b0 e1 e3)).congr fun v => by simp only [Conf]
  | .iter c h, args, toks, f, b, e, eb, ht => by
    simp only [getF] at e
    obtain ⟨g, e1, rfl⟩ := getF_one e
    obtain ⟨a, a', bs, ha, e2, hfin, rfl⟩ := applyBind_wrap eb
    obtain ⟨b0, bs', e3, e4, rfl⟩ := bindAll_cons e2
    obtain rfl := bindAll_nil e4
    simp only [Everywhere, PlainPart] at ht
    have hcls := class_decides hW hd ha ht.1
    exact (iter_decides (.inl ⟨rfl, rfl⟩) hfin (style_of_make ha) hcls (conf_decides hW hd h none [] g b0 e1 e3 ht.2) (conf_hollow h none [] g b0 e1 e3)).congr fun v => by simp only [Conf]
  | .deque c h, args, toks, f, b, e, eb, ht => by
    simp only [getF] at e
    obtain ⟨g, e1, rfl⟩ := getF_one e
    obtain ⟨a, a', bs, ha, e2, hfin, rfl⟩ := applyBind_wrap eb
    obtain ⟨b0, bs', e3, e4, rfl⟩ := bindAll_cons e2
    obtain rfl := bindAll_nil e4
    simp only [Everywhere, PlainPart] at ht
    have hcls := class_decides hW hd ha ht.1
    exact (iter_decides (.inr (.inr ⟨rfl, rfl⟩)) hfin (style_of_make ha) hcls (conf_decides hW hd h none [] g b0 e1 e3 ht.2) (conf_hollow h none [] g b0 e1 e3)).congr fun v => by simp only [Conf]
  | .mapping c k h, args, toks, f, b, e, eb, ht => by
    simp only [getF] at e
    obtain ⟨g, g', e1, e1', rfl⟩ := getF_two e
    obtain ⟨a, a', bs, ha, e2, hfin, rfl⟩ := applyBind_wrap eb
    obtain ⟨b0, bs', e3, e4, rfl⟩ := bindAll_cons e2
    obtain ⟨b1, bs', e5, e6, rfl⟩ := bindAll_cons e4
    obtain rfl := bindAll_nil e6
    simp only [Everywhere, PlainPart] at ht
    have hcls := class_decides hW hd ha ht.1
    exact (map_decides (.inl ⟨rfl, rfl⟩) hfin (style_of_make ha) hcls (conf_decides hW hd k none [] g b0 e1 e3 ht.2.1) (conf_decides hW hd h none [] g' b1 e1' e5 ht.2.2)
      (conf_hollow k none [] g b0 e1 e3) (conf_hollow h none [] g' b1 e1' e5)).congr fun v => by simp only [Conf]
  | .defaultdict c k h, args, toks, f, b, e, eb, ht => by
    simp only [getF] at e
    obtain ⟨g, g', e1, e1', rfl⟩ := getF_two e
    obtain ⟨a, a', bs, ha, e2, hfin, rfl⟩ := applyBind_wrap eb
    obtain ⟨b0, bs', e3, e4, rfl⟩ := bindAll_cons e2
    obtain ⟨b1, bs', e5, e6, rfl⟩ := bindAll_cons e4
    obtain rfl := bindAll_nil e6
    simp only [Everywhere, PlainPart] at ht
    have hcls := class_decides hW hd ha ht.1
    exact (map_decides (.inr ⟨rfl, rfl⟩) hfin (style_of_make ha) hcls (conf_decides hW hd k none [] g b0 e1 e3 ht.2.1) (conf_decides hW hd h none [] g' b1 e1' e5 ht.2.2)
      (conf_hollow k none [] g b0 e1 e3) (conf_hollow h none [] g' b1 e1' e5)).congr fun v => by simp only [Conf]
  | .annotated h ts, none, toks, f, b, e, eb, ht => by
    simp only [getF] at e
    simp only [Everywhere] at ht
    exact (conf_decides hW hd h _ _ f b e eb ht).congr fun v => by simp only [Conf]
  | .annotated h ts, some args, toks, f, b, e, eb, ht => by
    simp only [getF] at e
    split at e
    · cases e
      obtain rfl := applyBind_dumb eb
      exact fun v s => .inl ⟨by simp only [Conf], s, rfl⟩
    · cases e
  | .opaque, args, toks, f, b, e, eb, ht => by
    simp only [getF] at e
    split at e
    · cases e
      obtain rfl := applyBind_dumb eb
      exact fun v s => .inl ⟨by simp only [Conf], s, rfl⟩
    · cases e
theorem conf_decides_union (hW : Sane W) {d : Style} (hd : d ≠ .default) : (hs : List (Hint W)) → (ts : List (Tok W)) → (fs bs : List (F W)) →
    getFs hs = .ok fs → F.bindUnion d ts fs = .ok bs → EverywhereL PlainPart hs ts → Each (fun h b => Decides (Conf d h none ts) b) hs bs
  | [], ts, fs, bs, e, eb, _ => by
    simp only [getFs] at e; cases e
    simp only [F.bindUnion] at eb; cases eb
    exact .nil
  | h :: hs, ts, fs, bs, e, eb, ht => by
    obtain ⟨f, fs', e1, e2, rfl⟩ := getFs_cons e
    obtain ⟨b, bs', e3, e4, rfl⟩ := bindUnion_cons eb
    simp only [EverywhereL] at ht
    exact .cons (conf_decides hW hd h none ts f b e1 e3 ht.1) (conf_decides_union hW hd hs ts fs' bs' e2 e4 ht.2)
theorem conf_decides_all (hW : Sane W) {d : Style} (hd : d ≠ .default) : (hs : List (Hint W)) → (fs bs : List (F W)) →
    getFs hs = .ok fs → F.bindAll d fs = .ok bs → EverywhereL PlainPart hs [] → Each (fun h b => Decides (Conf d h none []) b) hs bs
  | [], fs, bs, e, eb, _ => by
    simp only [getFs] at e; cases e
    simp only [F.bindAll] at eb; cases eb
    exact .nil
  | h :: hs, fs, bs, e, eb, ht => by
    obtain ⟨f, fs', e1, e2, rfl⟩ := getFs_cons e
    obtain ⟨b, bs', e3, e4, rfl⟩ := bindAll_cons eb
    simp only [EverywhereL] at ht
    exact .cons (conf_decides hW hd h none [] f b e1 e3 ht.1) (conf_decides_all hW hd hs fs' bs' e2 e4 ht.2)
end

theorem memberFiller_eq {d : Style} {toks : List (Tok W)} {h : Hint W} {b : F W} (hb : memberFiller d toks h = .ok b) :
    ∃ f, getF h none = .ok f ∧ F.applyBind d toks f = .ok b := by
  unfold memberFiller getFiller at hb
  cases e : getF h none with
  | error e' => simp [e] at hb
  | ok f =>
    refine ⟨f, rfl, ?_⟩
    simp only [e] at hb
    rw [F.applyBind_eq]
    exact hb

/-- a field to which `pre_bind` applied tokens (to the field itself, not to a part) -/
theorem makeFiller_member (d : Style) (toks : List (Tok W)) (h : Hint W) :
    makeFiller d (toks.map fun t => (none, t)) h = memberFiller d toks h := by
  unfold makeFiller memberFiller
  cases getFiller h with
  | error e => rfl
  | ok f =>
    have : F.applyPre f (toks.map fun t => ((none : Option Int), t)) = f.applyAll toks := by
      induction toks generalizing f with
      | nil => rfl
      | cons t ts ih =>
        simp only [List.map_cons, F.applyPre, F.applySub, F.withSub, F.applyAll]
        cases f.apply t with
        | error e => rfl
        | ok f' => exact ih f'
    simp only [this]
    cases f.applyAll toks <;> rfl

/-- C38.  Whatever a field stores conforms to its hint at every depth: class styles, unions, literals, tuples, element
and pair containers.  `toks` are the tokens `pre_bind` applied to the field. -/
theorem C38_conforms (hW : Sane W) {d : Style} {toks : List (Tok W)} {h : Hint W} {f : F W}
    (hf : makeFiller d (toks.map fun t => (none, t)) h = .ok f) (ht : Everywhere TidyPart h none toks)
    {v w : W.Obj} {s s' : LState W} (hc : f.call v s = (.ok w, s')) : Conf d h none toks w := by
  rw [makeFiller_member] at hf
  obtain ⟨g, h1, h2⟩ := memberFiller_eq hf
  exact conf_sound hW h none toks g f h1 h2 ht v s w s' hc

/-- C39.  A field without coercers and validators accepts exactly the conforming values and stores the very argument; all
others are rejected with an ordinary exception. -/
theorem C39_decides (hW : Sane W) {d : Style} (hd : d ≠ .default) {toks : List (Tok W)} {h : Hint W} {f : F W}
    (hf : makeFiller d (toks.map fun t => (none, t)) h = .ok f) (ht : Everywhere PlainPart h none toks)
    (v : W.Obj) (s : LState W) :
    (Conf d h none toks v → ∃ s', f.call v s = (.ok v, s')) ∧
    (¬ Conf d h none toks v → ∃ e s', e.isException = true ∧ f.call v s = (.error e, s')) := by
  rw [makeFiller_member] at hf
  obtain ⟨g, h1, h2⟩ := memberFiller_eq hf
  rcases conf_decides hW hd h none toks g f h1 h2 ht v s with ⟨a, b⟩ | ⟨a, b⟩
  · exact ⟨fun _ => b, fun h => absurd a h⟩
  · exact ⟨fun h => absurd h a, fun _ => b⟩

/-- the toy world is sane -/
theorem toy_sane : Sane Toy.W where
  noneFinal := by intro c h; cases c <;> first | rfl | exact absurd h (by decide) | (simp [Toy.W, Toy.isSub] at h)
  boolNotNone := by decide
  boolNotEllipsis := by decide
  noneNotEllipsis := by decide
  objectNotNone := by decide
  objectNotEllipsis := by decide

theorem toy_unspine (l : List Toy.TObj) : Toy.unspine (Toy.spine l) = l := by
  induction l with
  | nil => rfl
  | cons a l ih => simp [Toy.spine, Toy.unspine, ih]

theorem toy_pairs (l : List (Toy.TObj × Toy.TObj)) : Toy.pairs (Toy.unpairs l) = l := by
  induction l with
  | nil => rfl
  | cons a l ih => simp [Toy.unpairs, Toy.pairs, ih]

theorem toy_mem {l : List Toy.TObj} {e : Toy.TObj} (h : e ∈ Toy.unspine (Toy.spine l)) : e ∈ l := by
  rwa [toy_unspine] at h

theorem toy_mem_pairs {l : List (Toy.TObj × Toy.TObj)} {p : Toy.TObj × Toy.TObj}
    (h : p ∈ Toy.pairs (Toy.unspine (Toy.spine (Toy.unpairs l)))) : p ∈ l := by
  rwa [toy_unspine, toy_pairs] at h

theorem toy_goodMap (c : Toy.TCls) : GoodMap (W := Toy.W) c where
  mkMap := by
    intro l st w st' h
    cases h
    refine ⟨rfl, ?_⟩
    intro p hp
    have : p ∈ l := toy_mem_pairs (l := l) hp
    exact ⟨⟨p, this, rfl⟩, p, this, rfl⟩
  mkDefaultDict := by
    intro f l st w st' h
    cases h
    refine ⟨rfl, ?_⟩
    intro p hp
    have : p ∈ l := toy_mem_pairs (l := l) hp
    exact ⟨⟨p, this, rfl⟩, p, this, rfl⟩

theorem toy_goodIter (c : Toy.TCls) (hc : c ≠ .str) : GoodIter (W := Toy.W) true c where
  drains := by show decide (c ≠ .str) = true; simpa using hc
  mkIter := by
    intro l st w st' h
    have h : (Except.ok (if c = .str then Toy.TObj.str "<itertools.chain object>" else .seq c (Toy.spine l)), st) =
      ((Except.ok w : Except Exc Toy.TObj), st') := h
    rw [if_neg hc] at h
    cases h
    refine ⟨rfl, ?_, fun _ => toy_unspine l⟩
    intro e he
    exact toy_mem (l := l) he
  mkDeque := by
    intro l m st w st' h
    cases h
    refine ⟨rfl, ?_⟩
    intro e he
    exact toy_mem (l := l) he

/-- `Dict[str, Tuple[Optional[int], ...]]` with a coercer for the numbers, in a class with default style `check` -/
def deepHint : Hint Toy.W :=
  .mapping .dict (.cls .str) (.tupleVar (.union [.annotated (.cls .int) [Toy.looseTok], .none]))

theorem deepHint_tidy : Everywhere TidyPart deepHint none [] := by
  simp only [deepHint, Everywhere, EverywhereL, TidyPart]
  refine ⟨⟨rfl, nofun, nofun, fun c' _ => toy_goodMap c'⟩, ⟨rfl, fun _ => rfl⟩, ⟨rfl, nofun, nofun, ?_⟩, ⟨rfl, ?_⟩, ⟨rfl, rfl⟩, trivial⟩
  · intro c' hc'
    refine toy_goodIter c' ?_
    rintro rfl
    rcases hc' with h | h <;> cases h
  · rintro (h | h) <;> cases h

/-- C38 applies to it: the dict is rebuilt with a converted number; and C38 forbids e.g. a string number in the result. -/
example : ∃ f, makeFiller (W := Toy.W) .check [] deepHint = .ok f ∧
    f.call (Toy.dict [(.str "a", Toy.tuple [.int 1, .str "5", .none])]) Toy.s0 =
      (.ok (Toy.dict [(.str "a", Toy.tuple [.int 1, .int 5, .none])]), Toy.s0) ∧
    Everywhere TidyPart deepHint none [] ∧
    ¬ Conf .check deepHint none [] (Toy.dict [(.str "a", Toy.tuple [.str "5"])]) := by
  refine ⟨_, rfl, rfl, deepHint_tidy, ?_⟩
  simp only [deepHint, Conf, ConfAny]
  rintro (h | ⟨-, h⟩)
  · exact absurd h (by decide)
  · have := (h (.str "a", Toy.tuple [.str "5"]) (.head _)).2
    rcases this with h | ⟨-, h⟩
    · exact absurd h (by decide)
    · have := h (.str "5") (.head _)
      rcases this with h | h | h | h
      · exact absurd h (by decide)
      · rcases h with h | h
        · exact absurd h (by decide)
        · have h : Fits (W := Toy.W) .check .int (.str "5") := h
          rcases h with h | h
          · cases h
          · cases h.2
      · rcases h with h | h
        · exact absurd h (by decide)
        · have h : Toy.W.isNone (.str "5") = true := h
          cases h
      · exact h

/-- C39: the same hint without the coercer rejects the string, accepts the rest and keeps the very object. -/
example : ∃ f, makeFiller (W := Toy.W) .check [] (.mapping .dict (.cls .str) (.tupleVar (.union [.cls .int, .none]))) = .ok f ∧
    Everywhere (W := Toy.W) PlainPart (.mapping .dict (.cls .str) (.tupleVar (.union [.cls .int, .none]))) none [] ∧
    f.call (Toy.dict [(.str "a", Toy.tuple [.int 1, .none])]) Toy.s0 =
      (.ok (Toy.dict [(.str "a", Toy.tuple [.int 1, .none])]), Toy.s0) ∧
    f.call (Toy.dict [(.str "a", Toy.tuple [.str "5"])]) Toy.s0 = (.error .typeError, Toy.s0) := by
  refine ⟨_, rfl, ?_, rfl, rfl⟩
  simp only [Everywhere, EverywhereL, PlainPart]
  exact ⟨rfl, rfl, rfl, rfl, rfl, trivial⟩

end Records
