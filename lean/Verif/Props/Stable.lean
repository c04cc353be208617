import Verif.Proofs.Stable
/-
C90: filling is idempotent.  A value that conforms to the hint of a field - in particular every value that the field has stored - is
accepted again and kept as it is, even if coercers are attached.
-/
set_option linter.unusedSimpArgs false
namespace Records
variable {W : World}

theorem member_fair (hW : Sane W) {d : Style} (hd : d ≠ .default) : (h : Hint W) → (args : Option (List (Tok W))) → (toks : List (Tok W)) → (f b : F W) →
    getF h args = .ok f → F.applyBind d toks f = .ok b → Everywhere NoValidators h args toks → Member d h args toks →
    Fair (Conf d h args toks) b
  | .cls c, args, toks, f, b, e, eb, hv, hm => by
    simp only [getF] at e; cases e
    obtain ⟨a, ha, rfl⟩ := applyBind_ann eb
    simp only [Everywhere, NoValidators] at hv
    simp only [Member] at hm
    exact (class_fair hW hd ha hv hm).congr fun v h => by simpa only [Conf] using h
  | .none, args, toks, f, b, e, eb, hv, hm => by
    simp only [getF] at e; cases e
    obtain ⟨a, ha, rfl⟩ := applyBind_ann eb
    simp only [Everywhere, NoValidators] at hv
    simp only [Member] at hm
    exact (class_fair hW hd ha hv hm).congr fun v h => by simpa only [Conf] using h
  | .any, args, toks, f, b, e, eb, hv, hm => by
    simp only [getF] at e; cases e
    obtain ⟨a, ha, rfl⟩ := applyBind_ann eb
    simp only [Everywhere, NoValidators] at hv
    simp only [Member] at hm
    exact (class_fair hW hd ha hv hm).congr fun v h => by simpa only [Conf] using h
  | .typeBare, args, toks, f, b, e, eb, hv, hm => by
    simp only [getF] at e; cases e
    obtain ⟨a, ha, rfl⟩ := applyBind_ann eb
    simp only [Everywhere, NoValidators] at hv
    simp only [Member] at hm
    exact (class_fair hW hd ha hv hm).congr fun v h => by simpa only [Conf] using h
  | .bareGeneric c, args, toks, f, b, e, eb, hv, hm => by
    simp only [getF] at e; cases e
    obtain ⟨a, ha, rfl⟩ := applyBind_ann eb
    simp only [Everywhere, NoValidators] at hv
    simp only [Member] at hm
    exact (class_fair hW hd ha hv hm).congr fun v h => by simpa only [Conf] using h
  | .callable, args, toks, f, b, e, eb, hv, hm => by
    simp only [getF] at e; cases e
    obtain ⟨a, ha, rfl⟩ := applyBind_ann eb
    simp only [Everywhere, NoValidators] at hv
    simp only [Member] at hm
    exact (leaf_fair hd ha hv hm.1 hm.2).congr fun v h => by simp only [Conf] at h; exact h
  | .literal id vals, args, toks, f, b, e, eb, hv, hm => by
    simp only [getF] at e; cases e
    obtain ⟨a, ha, rfl⟩ := applyBind_ann eb
    simp only [Everywhere, NoValidators] at hv
    simp only [Member] at hm
    exact (leaf_fair hd ha hv hm.1 hm.2).congr fun v h => by simp only [Conf] at h; exact h
  | .newType h, args, toks, f, b, e, eb, hv, hm => by
    simp only [getF] at e
    simp only [Everywhere] at hv
    simp only [Member] at hm
    exact (member_fair hW hd h _ _ f b e eb hv hm).congr fun v h => by simpa only [Conf] using h
  | .annotated h ts, none, toks, f, b, e, eb, hv, hm => by
    simp only [getF] at e
    simp only [Everywhere] at hv
    simp only [Member] at hm
    exact (member_fair hW hd h _ _ f b e eb hv hm).congr fun v h => by simpa only [Conf] using h
  | .annotated h ts, some _, toks, f, b, e, eb, hv, hm => by simp only [Member] at hm
  | .union hs, args, toks, f, b, e, eb, hv, hm => by simp only [Member] at hm
  | .opaque, args, toks, f, b, e, eb, hv, hm => by simp only [Member] at hm
  | .typeOf base, args, toks, f, b, e, eb, hv, hm => by
    simp only [Member] at hm
    have hdec := conf_decides hW hd _ args toks f b e eb hm.2
    simp only [getF] at e
    cases e
    obtain ⟨a, a', bs, ha, e2, hfin, rfl⟩ := applyBind_wrap eb
    simp only [Everywhere, PlainPart] at hm
    exact wrap_fair ha hfin hm.2 hm.1 hdec
  | .generic c hs, args, toks, f, b, e, eb, hv, hm => by
    simp only [Member] at hm
    have hdec := conf_decides hW hd _ args toks f b e eb hm.2
    simp only [getF] at e
    cases e
    obtain ⟨a, a', bs, ha, e2, hfin, rfl⟩ := applyBind_wrap eb
    simp only [Everywhere, PlainPart] at hm
    exact wrap_fair ha hfin hm.2 hm.1 hdec
  | .tupleFix hs, args, toks, f, b, e, eb, hv, hm => by
    simp only [Member] at hm
    have hdec := conf_decides hW hd _ args toks f b e eb hm.2
    simp only [getF] at e
    obtain ⟨g, -, rfl⟩ := getF_many e
    obtain ⟨a, a', bs, ha, e2, hfin, rfl⟩ := applyBind_wrap eb
    simp only [Everywhere, PlainPart] at hm
    exact wrap_fair ha hfin hm.2.1 hm.1 hdec
  | .tupleVar h, args, toks, f, b, e, eb, hv, hm => by
    simp only [Member] at hm
    have hdec := conf_decides hW hd _ args toks f b e eb hm.2
    simp only [getF] at e
    obtain ⟨g, -, rfl⟩ := getF_one e
    obtain ⟨a, a', bs, ha, e2, hfin, rfl⟩ := applyBind_wrap eb
    simp only [Everywhere, PlainPart] at hm
    exact wrap_fair ha hfin hm.2.1 hm.1 hdec
  | .iter c h, args, toks, f, b, e, eb, hv, hm => by
    simp only [Member] at hm
    have hdec := conf_decides hW hd _ args toks f b e eb hm.2
    simp only [getF] at e
    obtain ⟨g, -, rfl⟩ := getF_one e
    obtain ⟨a, a', bs, ha, e2, hfin, rfl⟩ := applyBind_wrap eb
    simp only [Everywhere, PlainPart] at hm
    exact wrap_fair ha hfin hm.2.1 hm.1 hdec
  | .deque c h, args, toks, f, b, e, eb, hv, hm => by
    simp only [Member] at hm
    have hdec := conf_decides hW hd _ args toks f b e eb hm.2
    simp only [getF] at e
    obtain ⟨g, -, rfl⟩ := getF_one e
    obtain ⟨a, a', bs, ha, e2, hfin, rfl⟩ := applyBind_wrap eb
    simp only [Everywhere, PlainPart] at hm
    exact wrap_fair ha hfin hm.2.1 hm.1 hdec
  | .mapping c k h, args, toks, f, b, e, eb, hv, hm => by
    simp only [Member] at hm
    have hdec := conf_decides hW hd _ args toks f b e eb hm.2
    simp only [getF] at e
    obtain ⟨g, g2, -, -, rfl⟩ := getF_two e
    obtain ⟨a, a', bs, ha, e2, hfin, rfl⟩ := applyBind_wrap eb
    simp only [Everywhere, PlainPart] at hm
    exact wrap_fair ha hfin hm.2.1 hm.1 hdec
  | .defaultdict c k h, args, toks, f, b, e, eb, hv, hm => by
    simp only [Member] at hm
    have hdec := conf_decides hW hd _ args toks f b e eb hm.2
    simp only [getF] at e
    obtain ⟨g, g2, -, -, rfl⟩ := getF_two e
    obtain ⟨a, a', bs, ha, e2, hfin, rfl⟩ := applyBind_wrap eb
    simp only [Everywhere, PlainPart] at hm
    exact wrap_fair ha hfin hm.2.1 hm.1 hdec

theorem members_fair (hW : Sane W) {d : Style} (hd : d ≠ .default) : (hs : List (Hint W)) → (ts : List (Tok W)) → (fs bs : List (F W)) →
    getFs hs = .ok fs → F.bindUnion d ts fs = .ok bs → EverywhereL NoValidators hs ts → (∀ h ∈ hs, Member d h none ts) →
    Each (fun h b => Fair (Conf d h none ts) b) hs bs
  | [], ts, fs, bs, e, eb, _, _ => by
    simp only [getFs] at e; cases e
    simp only [F.bindUnion] at eb; cases eb
    exact .nil
  | h :: hs, ts, fs, bs, e, eb, hv, hm => by
    obtain ⟨f, fs', e1, e2, rfl⟩ := getFs_cons e
    obtain ⟨b, bs', e3, e4, rfl⟩ := bindUnion_cons eb
    simp only [EverywhereL] at hv
    exact .cons (member_fair hW hd h none ts f b e1 e3 hv.1 (hm h List.mem_cons_self))
      (members_fair hW hd hs ts fs' bs' e2 e4 hv.2 fun h hh => hm h (List.mem_cons_of_mem _ hh))

mutual
theorem conf_stays (hW : Sane W) {d : Style} (hd : d ≠ .default) : (h : Hint W) → (args : Option (List (Tok W))) → (toks : List (Tok W)) → (f b : F W) →
    getF h args = .ok f → F.applyBind d toks f = .ok b → Everywhere NoValidators h args toks → Settled d h args toks →
    Stays (Conf d h args toks) b
  | .cls c, args, toks, f, b, e, eb, hv, hm => by
    simp only [getF] at e; cases e
    obtain ⟨a, ha, rfl⟩ := applyBind_ann eb
    simp only [Everywhere, NoValidators] at hv
    exact (class_stays hW hd ha hv).congr fun v h => by simpa only [Conf] using h
  | .none, args, toks, f, b, e, eb, hv, hm => by
    simp only [getF] at e; cases e
    obtain ⟨a, ha, rfl⟩ := applyBind_ann eb
    simp only [Everywhere, NoValidators] at hv
    exact (class_stays hW hd ha hv).congr fun v h => by simpa only [Conf] using h
  | .any, args, toks, f, b, e, eb, hv, hm => by
    simp only [getF] at e; cases e
    obtain ⟨a, ha, rfl⟩ := applyBind_ann eb
    simp only [Everywhere, NoValidators] at hv
    exact (class_stays hW hd ha hv).congr fun v h => by simpa only [Conf] using h
  | .typeBare, args, toks, f, b, e, eb, hv, hm => by
    simp only [getF] at e; cases e
    obtain ⟨a, ha, rfl⟩ := applyBind_ann eb
    simp only [Everywhere, NoValidators] at hv
    exact (class_stays hW hd ha hv).congr fun v h => by simpa only [Conf] using h
  | .bareGeneric c, args, toks, f, b, e, eb, hv, hm => by
    simp only [getF] at e; cases e
    obtain ⟨a, ha, rfl⟩ := applyBind_ann eb
    simp only [Everywhere, NoValidators] at hv
    exact (class_stays hW hd ha hv).congr fun v h => by simpa only [Conf] using h
  | .callable, args, toks, f, b, e, eb, hv, hm => by
    simp only [getF] at e; cases e
    obtain ⟨a, ha, rfl⟩ := applyBind_ann eb
    simp only [Everywhere, NoValidators] at hv
    exact (leaf_stays hd ha hv).congr fun v h => by simp only [Conf] at h; exact h
  | .literal id vals, args, toks, f, b, e, eb, hv, hm => by
    simp only [getF] at e; cases e
    obtain ⟨a, ha, rfl⟩ := applyBind_ann eb
    simp only [Everywhere, NoValidators] at hv
    exact (leaf_stays hd ha hv).congr fun v h => by simp only [Conf] at h; exact h
  | .newType h, args, toks, f, b, e, eb, hv, hm => by
    simp only [getF] at e
    simp only [Everywhere] at hv
    simp only [Settled] at hm
    exact (conf_stays hW hd h _ _ f b e eb hv hm).congr fun v h => by simpa only [Conf] using h
  | .annotated h ts, none, toks, f, b, e, eb, hv, hm => by
    simp only [getF] at e
    simp only [Everywhere] at hv
    simp only [Settled] at hm
    exact (conf_stays hW hd h _ _ f b e eb hv hm).congr fun v h => by simpa only [Conf] using h
  | .annotated h ts, some _, toks, f, b, e, eb, hv, hm => by
    simp only [getF] at e
    split at e
    · cases e
      obtain rfl := applyBind_dumb eb
      exact fun v s _ => ⟨s, rfl⟩
    · cases e
  | .opaque, args, toks, f, b, e, eb, hv, hm => by
    simp only [getF] at e
    split at e
    · cases e
      obtain rfl := applyBind_dumb eb
      exact fun v s _ => ⟨s, rfl⟩
    · cases e
  | .union hs, args, toks, f, b, e, eb, hv, hm => by
    simp only [Settled] at hm
    rcases hm with hm | hm
    · exact (conf_decides hW hd (.union hs) args toks f b e eb (by simpa only [Everywhere] using hm)).stays
    · simp only [getF] at e
      obtain ⟨fs, e1, rfl⟩ := getF_many e
      obtain ⟨bs, e2, rfl⟩ := applyBind_union eb
      simp only [Everywhere] at hv
      exact (union_stays (members_fair hW hd hs _ fs bs e1 e2 hv hm)).congr fun v h => by simpa only [Conf] using h
  | .typeOf base, args, toks, f, b, e, eb, hv, hm => by
    simp only [getF] at e; cases e
    obtain ⟨a, a', bs, ha, -, hfin, rfl⟩ := applyBind_wrap eb
    simp only [Everywhere, NoValidators] at hv
    exact (typeF_stays hfin (style_of_make ha) (class_stays hW hd ha hv)).congr fun v h => by simpa only [Conf] using h
  | .generic c hs, args, toks, f, b, e, eb, hv, hm => by
    simp only [getF] at e; cases e
    obtain ⟨a, a', bs, ha, -, hfin, rfl⟩ := applyBind_wrap eb
    simp only [Everywhere, NoValidators] at hv
    intro v s hc
    rw [generic_call hfin v]
    exact class_stays hW hd ha hv v s (by simpa only [Conf] using hc)
  | .tupleFix hs, args, toks, f, b, e, eb, hv, hm => by
    simp only [getF] at e
    obtain ⟨fs, e1, rfl⟩ := getF_many e
    obtain ⟨a, a', bs, ha, e2, hfin, rfl⟩ := applyBind_wrap eb
    simp only [Everywhere, NoValidators] at hv
    simp only [Settled] at hm
    exact (tupleFix_stays hfin (style_of_make ha) (class_stays hW hd ha hv.1) (conf_stays_all hW hd hs fs bs e1 e2 hv.2 hm)).congr
      fun v h => by simpa only [Conf] using h
  | .tupleVar h, args, toks, f, b, e, eb, hv, hm => by
    simp only [getF] at e
    obtain ⟨g, e1, rfl⟩ := getF_one e
    obtain ⟨a, a', bs, ha, e2, hfin, rfl⟩ := applyBind_wrap eb
    obtain ⟨b0, bs', e3, e4, rfl⟩ := bindAll_cons e2
    obtain rfl := bindAll_nil e4
    simp only [Everywhere, NoValidators] at hv
    simp only [Settled] at hm
    exact (iter_stays (.inr (.inl ⟨rfl, rfl⟩)) hfin (style_of_make ha) (class_stays hW hd ha hv.1)
      (conf_stays hW hd h none [] g b0 e1 e3 hv.2 hm)).congr fun v h => by simpa only [Conf] using h
  | .iter c h, args, toks, f, b, e, eb, hv, hm => by
    simp only [getF] at e
    obtain ⟨g, e1, rfl⟩ := getF_one e
    obtain ⟨a, a', bs, ha, e2, hfin, rfl⟩ := applyBind_wrap eb
    obtain ⟨b0, bs', e3, e4, rfl⟩ := bindAll_cons e2
    obtain rfl := bindAll_nil e4
    simp only [Everywhere, NoValidators] at hv
    simp only [Settled] at hm
    exact (iter_stays (.inl ⟨rfl, rfl⟩) hfin (style_of_make ha) (class_stays hW hd ha hv.1)
      (conf_stays hW hd h none [] g b0 e1 e3 hv.2 hm)).congr fun v h => by simpa only [Conf] using h
  | .deque c h, args, toks, f, b, e, eb, hv, hm => by
    simp only [getF] at e
    obtain ⟨g, e1, rfl⟩ := getF_one e
    obtain ⟨a, a', bs, ha, e2, hfin, rfl⟩ := applyBind_wrap eb
    obtain ⟨b0, bs', e3, e4, rfl⟩ := bindAll_cons e2
    obtain rfl := bindAll_nil e4
    simp only [Everywhere, NoValidators] at hv
    simp only [Settled] at hm
    exact (iter_stays (.inr (.inr ⟨rfl, rfl⟩)) hfin (style_of_make ha) (class_stays hW hd ha hv.1)
      (conf_stays hW hd h none [] g b0 e1 e3 hv.2 hm)).congr fun v h => by simpa only [Conf] using h
  | .mapping c k h, args, toks, f, b, e, eb, hv, hm => by
    simp only [getF] at e
    obtain ⟨g, g', e1, e1', rfl⟩ := getF_two e
    obtain ⟨a, a', bs, ha, e2, hfin, rfl⟩ := applyBind_wrap eb
    obtain ⟨b0, bs', e3, e4, rfl⟩ := bindAll_cons e2
    obtain ⟨b1, bs', e5, e6, rfl⟩ := bindAll_cons e4
    obtain rfl := bindAll_nil e6
    simp only [Everywhere, NoValidators] at hv
    simp only [Settled] at hm
    exact (map_stays (.inl ⟨rfl, rfl⟩) hfin (style_of_make ha) (class_stays hW hd ha hv.1)
      (conf_stays hW hd k none [] g b0 e1 e3 hv.2.1 hm.1) (conf_stays hW hd h none [] g' b1 e1' e5 hv.2.2 hm.2)).congr
      fun v h => by simpa only [Conf] using h
  | .defaultdict c k h, args, toks, f, b, e, eb, hv, hm => by
    simp only [getF] at e
    obtain ⟨g, g', e1, e1', rfl⟩ := getF_two e
    obtain ⟨a, a', bs, ha, e2, hfin, rfl⟩ := applyBind_wrap eb
    obtain ⟨b0, bs', e3, e4, rfl⟩ := bindAll_cons e2
    obtain ⟨b1, bs', e5, e6, rfl⟩ := bindAll_cons e4
    obtain rfl := bindAll_nil e6
    simp only [Everywhere, NoValidators] at hv
    simp only [Settled] at hm
    exact (map_stays (.inr ⟨rfl, rfl⟩) hfin (style_of_make ha) (class_stays hW hd ha hv.1)
      (conf_stays hW hd k none [] g b0 e1 e3 hv.2.1 hm.1) (conf_stays hW hd h none [] g' b1 e1' e5 hv.2.2 hm.2)).congr
      fun v h => by simpa only [Conf] using h
theorem conf_stays_all (hW : Sane W) {d : Style} (hd : d ≠ .default) : (hs : List (Hint W)) → (fs bs : List (F W)) →
    getFs hs = .ok fs → F.bindAll d fs = .ok bs → EverywhereL NoValidators hs [] → SettledL d hs →
    Each (fun h b => Stays (Conf d h none []) b) hs bs
  | [], fs, bs, e, eb, _, _ => by
    simp only [getFs] at e; cases e
    simp only [F.bindAll] at eb; cases eb
    exact .nil
  | h :: hs, fs, bs, e, eb, hv, hm => by
    obtain ⟨f, fs', e1, e2, rfl⟩ := getFs_cons e
    obtain ⟨b, bs', e3, e4, rfl⟩ := bindAll_cons eb
    simp only [EverywhereL] at hv
    simp only [SettledL] at hm
    exact .cons (conf_stays hW hd h none [] f b e1 e3 hv.1 hm.1) (conf_stays_all hW hd hs fs' bs' e2 e4 hv.2 hm.2)
end

mutual
theorem Everywhere.mono {P Q : Hint W → List (Tok W) → Prop} (hpq : ∀ h ts, P h ts → Q h ts) :
    (h : Hint W) → (args : Option (List (Tok W))) → (toks : List (Tok W)) → Everywhere P h args toks → Everywhere Q h args toks
  | .cls c, args, toks, h => by simp only [Everywhere] at h ⊢; exact hpq _ _ h
  | .none, args, toks, h => by simp only [Everywhere] at h ⊢; exact hpq _ _ h
  | .any, args, toks, h => by simp only [Everywhere] at h ⊢; exact hpq _ _ h
  | .callable, args, toks, h => by simp only [Everywhere] at h ⊢; exact hpq _ _ h
  | .literal i vs, args, toks, h => by simp only [Everywhere] at h ⊢; exact hpq _ _ h
  | .typeBare, args, toks, h => by simp only [Everywhere] at h ⊢; exact hpq _ _ h
  | .typeOf b, args, toks, h => by simp only [Everywhere] at h ⊢; exact hpq _ _ h
  | .generic c hs, args, toks, h => by simp only [Everywhere] at h ⊢; exact hpq _ _ h
  | .bareGeneric c, args, toks, h => by simp only [Everywhere] at h ⊢; exact hpq _ _ h
  | .opaque, args, toks, h => by simp only [Everywhere]
  | .annotated _ _, some _, toks, h => by simp only [Everywhere]
  | .annotated x ts, none, toks, h => by simp only [Everywhere] at h ⊢; exact Everywhere.mono hpq x _ _ h
  | .newType x, args, toks, h => by simp only [Everywhere] at h ⊢; exact Everywhere.mono hpq x _ _ h
  | .union hs, args, toks, h => by simp only [Everywhere] at h ⊢; exact EverywhereL.mono hpq hs _ h
  | .tupleFix hs, args, toks, h => by simp only [Everywhere] at h ⊢; exact ⟨hpq _ _ h.1, EverywhereL.mono hpq hs _ h.2⟩
  | .tupleVar x, args, toks, h => by simp only [Everywhere] at h ⊢; exact ⟨hpq _ _ h.1, Everywhere.mono hpq x _ _ h.2⟩
  | .iter c x, args, toks, h => by simp only [Everywhere] at h ⊢; exact ⟨hpq _ _ h.1, Everywhere.mono hpq x _ _ h.2⟩
  | .deque c x, args, toks, h => by simp only [Everywhere] at h ⊢; exact ⟨hpq _ _ h.1, Everywhere.mono hpq x _ _ h.2⟩
  | .mapping c k x, args, toks, h => by
    simp only [Everywhere] at h ⊢; exact ⟨hpq _ _ h.1, Everywhere.mono hpq k _ _ h.2.1, Everywhere.mono hpq x _ _ h.2.2⟩
  | .defaultdict c k x, args, toks, h => by
    simp only [Everywhere] at h ⊢; exact ⟨hpq _ _ h.1, Everywhere.mono hpq k _ _ h.2.1, Everywhere.mono hpq x _ _ h.2.2⟩
theorem EverywhereL.mono {P Q : Hint W → List (Tok W) → Prop} (hpq : ∀ h ts, P h ts → Q h ts) :
    (hs : List (Hint W)) → (toks : List (Tok W)) → EverywhereL P hs toks → EverywhereL Q hs toks
  | [], toks, _ => by simp only [EverywhereL]
  | h :: hs, toks, e => by
    simp only [EverywhereL] at e ⊢; exact ⟨Everywhere.mono hpq h _ _ e.1, EverywhereL.mono hpq hs _ e.2⟩
end

/-- C90.  A value that conforms to the hint of the field is stored as it is, whatever coercers are attached (no validators; unions
as described by `Settled`). -/
theorem C90_conforming_kept (hW : Sane W) {d : Style} (hd : d ≠ .default) {toks : List (Tok W)} {h : Hint W} {f : F W}
    (hf : makeFiller d (toks.map fun t => (none, t)) h = .ok f) (hv : Everywhere NoValidators h none toks)
    (hs : Settled d h none toks) {v : W.Obj} (hc : Conf d h none toks v) (s : LState W) : ∃ s', f.call v s = (.ok v, s') := by
  rw [makeFiller_member] at hf
  obtain ⟨g, h1, h2⟩ := memberFiller_eq hf
  exact conf_stays hW hd h none toks g f h1 h2 hv hs v s hc

/-- C90.  Filling is idempotent: whatever the field stored, filling it again stores that very object. -/
theorem C90_idempotent (hW : Sane W) {d : Style} (hd : d ≠ .default) {toks : List (Tok W)} {h : Hint W} {f : F W}
    (hf : makeFiller d (toks.map fun t => (none, t)) h = .ok f) (ht : Everywhere TidyPart h none toks)
    (hs : Settled d h none toks) {v w : W.Obj} {s s' : LState W} (hc : f.call v s = (.ok w, s')) :
    ∀ t, ∃ t', f.call w t = (.ok w, t') :=
  C90_conforming_kept hW hd hf (Everywhere.mono (fun _ _ h => h.1) _ _ _ ht) hs (C38_conforms hW hf ht hc)

end Records

namespace Records.Toy.St
open Toy

theorem construct_exc (c : TCls) (a : List TObj) (k : List (String × TObj)) (s : List Nat) (e : Exc) (s' : List Nat)
    (h : Toy.W.construct c a k s = (Except.error e, s')) : e.isException = true := by
  simp only [W] at h
  split at h <;> cases h <;> rfl

/-- the coercer of `Loose` raises only what the constructor of the class raises -/
theorem loose_mannered : Tok.Mannered looseTok := by
  intro ib o c hc v s e s' h
  cases o with
  | none => cases hc
  | some o =>
    by_cases ho : o = .sequenceABC
    · subst ho; cases hc
    · have : looseBind (W := Toy.W) (some o) = .ok o := by
        unfold looseBind
        exact if_neg (by simpa [W] using ho)
      simp only [looseTok, Tok.coercer?, getCoercer, this] at hc
      cases hc
      unfold loose M.lift at h
      simp only at h
      rcases h1 : Toy.W.construct o (v :: []) [] s.user with ⟨r, t⟩
      rw [h1] at h
      cases h
      exact construct_exc _ _ _ _ _ _ h1

theorem deepHint_settled : Settled .check deepHint none [] := by
  simp only [deepHint, Settled]
  refine ⟨trivial, .inr ?_⟩
  intro h hh
  simp only [List.mem_cons, List.not_mem_nil, or_false] at hh
  rcases hh with rfl | rfl
  · simp only [Member]
    refine ⟨by decide, ?_⟩
    intro t ht
    have : t = looseTok := by simpa using ht
    subst this
    exact loose_mannered
  · simp only [Member]
    exact ⟨by decide, by simp⟩

/-- C90 applies to `Dict[str, Tuple[Union[Annotated[int, Loose], None], ...]]`: filling converts "5", filling the result again
gives the result. -/
example : ∃ f, makeFiller (W := Toy.W) .check [] deepHint = .ok f ∧ Everywhere TidyPart deepHint none [] ∧
    Settled .check deepHint none [] ∧
    f.call (Toy.dict [(.str "a", Toy.tuple [.int 1, .str "5", .none])]) s0 =
      (.ok (Toy.dict [(.str "a", Toy.tuple [.int 1, .int 5, .none])]), s0) ∧
    f.call (Toy.dict [(.str "a", Toy.tuple [.int 1, .int 5, .none])]) s0 =
      (.ok (Toy.dict [(.str "a", Toy.tuple [.int 1, .int 5, .none])]), s0) :=
  ⟨_, rfl, deepHint_tidy, deepHint_settled, rfl, rfl⟩

/-- `Union[List[Annotated[int, Loose]], Annotated[List[str], Loose]]` -/
def badHint : Hint Toy.W := .union [.iter .list (.annotated (.cls .int) [looseTok]), .annotated (.iter .list (.cls .str)) [looseTok]]

end Records.Toy.St

namespace Records
open Toy Toy.St

/-- the unrestricted claim: whatever a field without validators stored, it accepts and keeps -/
def C90_claim : Prop := ∀ (W : World) (_ : Sane W) (d : Style) (h : Hint W) (f : F W), d ≠ .default →
  makeFiller d [] h = .ok f → Everywhere TidyPart h none [] → ∀ v w s s', f.call v s = (.ok w, s') → ∀ t, ∃ t', f.call w t = (.ok w, t')

/-- Refuted by a union of containers: the tuple ("5",) is stored as ["5"] (only the second member converts tuples), but ["5"] itself
is rejected as ambiguous, because the first member reports it as [5] without coercion. -/
theorem C90_refuted_union : ¬ C90_claim := by
  intro hcl
  have key : ∃ f, makeFiller (W := Toy.W) .check [] badHint = .ok f ∧
    f.call (Toy.tuple [.str "5"]) s0 = (.ok (Toy.list [.str "5"]), s0) ∧
    f.call (Toy.list [.str "5"]) s0 = (.error .valueError, s0) := ⟨_, rfl, rfl, rfl⟩
  obtain ⟨f, h1, h2, h3⟩ := key
  have ht : Everywhere TidyPart badHint none [] := by
    simp only [badHint, Everywhere, EverywhereL, TidyPart]
    have hc : Container (W := Toy.W) (GoodIter false) .list := by
      refine ⟨nofun, nofun, fun c' hc' => ?_⟩
      have := toy_goodIter c' (by rintro rfl; rcases hc' with h | h <;> cases h)
      exact ⟨this.drains, fun l st w st' h => ⟨(this.mkIter l st w st' h).1, (this.mkIter l st w st' h).2.1, nofun⟩, this.mkDeque⟩
    refine ⟨⟨⟨rfl, hc⟩, rfl, ?_⟩, ⟨⟨rfl, hc⟩, rfl, ?_⟩, trivial⟩ <;> (rintro (h | h) <;> cases h)
  obtain ⟨t', h⟩ := hcl Toy.W toy_sane .check badHint f (by decide) h1 ht _ _ _ _ h2 s0
  rw [h3] at h
  cases h

end Records
