import Verif.Proofs.Class
import Verif.Props.Hints
set_option linter.unusedSimpArgs false
/-
Bound fillers, and the outcome of class creation as a whole.
-/
namespace Records
variable {W : World}

theorem wrapFinish_bound {k : WrapKind W} {i i' : Ann W} {subs : List (F W)} (h : wrapFinish k i subs = .ok i') :
    i'.bound = i.bound := by
  cases k with
  | typeF b => simp [wrapFinish] at h; subst h; split <;> rfl
  | tupleFix =>
    simp only [wrapFinish] at h
    split at h
    · cases h; split <;> rfl
    · split at h
      · cases h
      · cases h; rfl
  | generic =>
    simp only [wrapFinish] at h
    split at h <;> cases h
    rfl
  | tupleVar | iter | deque | mapping | defaultdict =>
    rcases subs with _ | ⟨f, _ | ⟨g, _ | ⟨h', l⟩⟩⟩ <;> simp only [wrapFinish] at h <;>
      first
      | (cases h; rfl)
      | (split at h
         · cases h; rfl
         · split at h
           · cases h
           · cases h; rfl)

mutual
theorem F.applyBind_bound (d : Style) : (f : F W) → (ts : List (Tok W)) → (f' : F W) → F.applyBind d ts f = .ok f' → f'.Bound
  | .dumb b, ts, f', h => by
    simp only [F.applyBind] at h
    split at h
    · cases h
    · split at h
      · cases h
      · split at h
        · cases h
        · cases h; simp [F.Bound]
  | .failing e, ts, f', h => by simp [F.applyBind] at h
  | .ann a, ts, f', h => by
    simp only [F.applyBind] at h
    cases h1 : a.applyAll ts with
    | error e => simp [h1] at h
    | ok a' =>
      simp only [h1] at h
      cases h2 : a'.bind d with
      | error e => simp [h2, Except.map] at h
      | ok b => simp only [h2, Except.map] at h; cases h; simp only [F.Bound]; exact Ann.bind_bound h2
  | .union b args app subs, ts, f', h => by
    simp only [F.applyBind] at h
    split at h
    · cases h
    · cases h1 : F.bindUnion d (args ++ (app ++ ts)) subs with
      | error e => simp [h1] at h
      | ok bs =>
        simp only [h1] at h; cases h
        simp only [F.Bound]
        exact ⟨trivial, F.bindUnion_bound d subs _ _ h1⟩
  | .wrap b k inner subs, ts, f', h => by
    simp only [F.applyBind] at h
    cases h1 : inner.applyAll ts with
    | error e => simp [h1] at h
    | ok a =>
      simp only [h1] at h
      split at h
      · cases h
      · cases h2 : a.bind d with
        | error e => simp [h2] at h
        | ok i =>
          simp only [h2] at h
          cases h3 : F.bindAll d subs with
          | error e => simp [h3] at h
          | ok bs =>
            simp only [h3] at h
            cases h4 : wrapFinish k i bs with
            | error e => simp [h4] at h
            | ok i' =>
              simp only [h4] at h; cases h
              simp only [F.Bound]
              exact ⟨trivial, by rw [wrapFinish_bound h4]; exact Ann.bind_bound h2, F.bindAll_bound d subs _ h3⟩
theorem F.bindAll_bound (d : Style) : (fs bs : List (F W)) → F.bindAll d fs = .ok bs → F.AllBound bs
  | [], bs, h => by simp [F.bindAll] at h; subst h; simp [F.AllBound]
  | f :: fs, bs, h => by
    simp only [F.bindAll] at h
    cases h1 : f.bind d with
    | error e => simp [h1] at h
    | ok f' =>
      simp only [h1] at h
      cases h2 : F.bindAll d fs with
      | error e => simp [h2] at h
      | ok bs' =>
        simp only [h2] at h; cases h
        simp only [F.AllBound]
        exact ⟨F.applyBind_bound d f [] f' (by rw [F.applyBind_nil]; exact h1), F.bindAll_bound d fs _ h2⟩
theorem F.bindUnion_bound (d : Style) : (fs : List (F W)) → (ts : List (Tok W)) → (bs : List (F W)) →
    F.bindUnion d ts fs = .ok bs → F.AllBound bs
  | [], ts, bs, h => by simp [F.bindUnion] at h; subst h; simp [F.AllBound]
  | f :: fs, ts, bs, h => by
    simp only [F.bindUnion] at h
    cases h1 : F.applyBind d ts f with
    | error e => simp [h1] at h
    | ok f' =>
      simp only [h1] at h
      cases h2 : F.bindUnion d ts fs with
      | error e => simp [h2] at h
      | ok bs' =>
        simp only [h2] at h; cases h
        simp only [F.AllBound]
        exact ⟨F.applyBind_bound d f ts f' h1, F.bindUnion_bound d fs ts _ h2⟩
end

theorem F.bind_Bound {d : Style} {f f' : F W} (h : f.bind d = .ok f') : f'.Bound :=
  F.applyBind_bound d f [] f' (by rw [F.applyBind_nil]; exact h)

theorem F.Bound.apply {f : F W} (hf : f.Bound) (t : Tok W) :
    f.apply t = .error (match (generalizing := false) f with | .dumb _ => .typeError | _ => .runtimeError) := by
  cases f with
  | dumb b => rfl
  | failing e => simp [F.Bound] at hf
  | ann a => simp only [F.Bound] at hf; simp [F.apply, Ann.apply, hf, Except.map]
  | union b args app subs => simp only [F.Bound] at hf; simp [F.apply, hf.1]
  | wrap b k inner subs => simp only [F.Bound] at hf; simp [F.apply, Ann.apply, hf.2.1, Except.map]

theorem F.AllBound.get {fs : List (F W)} (h : F.AllBound fs) {i : Nat} {f : F W} (hi : fs[i]? = some f) : f.Bound := by
  induction fs generalizing i with
  | nil => simp at hi
  | cons g fs ih =>
    simp only [F.AllBound] at h
    cases i with
    | zero => simp at hi; subst hi; exact h.1
    | succ i => simp at hi; exact ih h.2 hi

/-- no token can be applied to a bound filler or one of its sub-fillers -/
theorem F.Bound.applySub {f : F W} (hf : f.Bound) (key : Option Int) (t : Tok W) : ∃ e, f.applySub key t = .error e := by
  unfold F.applySub F.withSub
  cases key with
  | none => exact ⟨_, hf.apply t⟩
  | some i =>
    have hat : ∀ (subs : List (F W)) (j : Option Nat) (re : List (F W) → F W), F.AllBound subs →
        ∃ e, F.withSub.at_ (fun g => g.apply t) subs j re = .error e := by
      intro subs j re hs
      unfold F.withSub.at_
      cases j with
      | none => exact ⟨_, rfl⟩
      | some j =>
        cases hj : subs[j]? with
        | none => simp only [hj]; exact ⟨_, rfl⟩
        | some g => simp only [hj, (hs.get hj).apply t]; exact ⟨_, rfl⟩
    cases f with
    | dumb b => exact ⟨_, rfl⟩
    | failing e => exact ⟨_, rfl⟩
    | ann a => exact ⟨_, rfl⟩
    | union b args app subs =>
      simp only [F.Bound] at hf
      exact hat _ _ _ hf.2
    | wrap b k inner subs =>
      simp only [F.Bound] at hf
      cases k with
      | typeF _ => exact ⟨_, rfl⟩
      | generic => exact ⟨_, rfl⟩
      | tupleFix | tupleVar => exact hat _ _ _ hf.2.2
      | iter | deque =>
        simp only
        split
        · exact hat _ _ _ hf.2.2
        · exact ⟨_, rfl⟩
      | mapping | defaultdict =>
        simp only
        split
        · exact hat _ _ _ hf.2.2
        · split
          · exact hat _ _ _ hf.2.2
          · exact ⟨_, rfl⟩

theorem F.Bound.applyPre {f g : F W} (hf : f.Bound) {ts : List (Option Int × Tok W)} (h : f.applyPre ts = .ok g) :
    ts = [] ∧ g = f := by
  cases ts with
  | nil => cases h; exact ⟨rfl, rfl⟩
  | cons q ts =>
    obtain ⟨key, t⟩ := q
    obtain ⟨e, he⟩ := hf.applySub key t
    simp [F.applyPre, he] at h

/-! ### class creation -/

/-- the entries of the field mapping before `pre_bind` -/
theorem all_eq {sp : ClassSpec W} (hok : sp.OK) {own inh : Dict (Field W)} (ho : ownFields sp sp.hints = .ok own)
    (hi : inheritedFields own sp.parents [] = .ok inh) :
    (if inh.isEmpty then own else inh.update own) = inh ++ own ∧ Dict.WF (inh ++ own) ∧
      inh = sp.parents.flatMap (·.fields) ∧ own.WF := by
  obtain ⟨i1, i2, i3⟩ := inheritedFields_ok hi
  have i2 := i2 .nil
  have i1 : inh = sp.parents.flatMap (·.fields) := by simpa using i1
  have hown : own.WF := by
    have h1 := (ownFields_ok ho).1
    have h2 : (sp.hints.map (·.1)).Nodup := ((hints_perm hok).map _).nodup_iff.2 hok.anns
    unfold Dict.WF
    rw [h1]
    exact h2.sublist (List.filter_sublist.map _)
  have hdisj : ∀ k ∈ own.keys, k ∉ inh.keys := fun k hk hk' => i3 k (i1 ▸ hk') hk
  refine ⟨?_, ?_, i1, hown⟩
  · cases inh with
    | nil => rfl
    | cons a l => rw [if_neg (by simp)]; exact Dict.update_of_disjoint _ _ hown hdisj
  · unfold Dict.WF Dict.keys
    rw [List.map_append]
    refine List.nodup_append.2 ⟨i2, hown, ?_⟩
    intro a ha b hb hab
    subst hab
    exact hdisj a hb ha

/-- what a successful class creation did -/
theorem mkClass_ok {sp : ClassSpec W} (hok : sp.OK) {C : RecClass W} (h : mkClass sp = .ok C) :
    ∃ own all1 : Dict (Field W), ownFields sp sp.hints = .ok own ∧ own.WF ∧
      (∀ k ∈ Dict.keys (sp.parents.flatMap (·.fields)), k ∉ own.keys) ∧
      Dict.WF (sp.parents.flatMap (·.fields) ++ own) ∧ sp.parents.flatMap (·.fields) ++ own ≠ [] ∧
      preBind sp.pre (sp.parents.flatMap (·.fields) ++ own) = .ok all1 ∧
      bindFields sp.cid sp.style all1 = .ok C.fields ∧
      C.required = Dict.keys ((sp.parents.flatMap (·.fields) ++ own).filter fun kf => !kf.2.hasDefault) ∧
      C.optional = (Dict.keys (sp.parents.flatMap (·.fields) ++ own)).filter (fun k => decide (k ∉ C.required)) ∧
      C.isFieldDict = (sp.parents.flatMap (·.fields)).isEmpty ∧
      C.cid = sp.cid ∧ C.style = sp.style ∧ C.frozen = sp.frozen ∧ C.ordered = sp.ordered ∧ C.parsers = sp.parsers ∧
      C.postNew = sp.postNew ∧ C.truthy = sp.truthy ∧
      C.unary = (match sp.unary with | some b => b | none => decide (C.required.length ≠ 1)) := by
  unfold mkClass at h
  cases ho : ownFields sp sp.hints with
  | error e => simp [ho] at h
  | ok own =>
    simp only [ho] at h
    cases hi : inheritedFields own sp.parents [] with
    | error e => simp [hi] at h
    | ok inh =>
      simp only [hi] at h
      obtain ⟨e1, e2, e3, e4⟩ := all_eq hok ho hi
      obtain ⟨-, -, i3⟩ := inheritedFields_ok hi
      rw [e1] at h
      subst e3
      generalize hall : sp.parents.flatMap (·.fields) ++ own = all at h e2
      split at h
      · cases h
      · rename_i hne
        cases h1 : preBind sp.pre all with
        | error e => simp [h1] at h
        | ok all1 =>
          simp only [h1] at h
          cases h2 : bindFields sp.cid sp.style all1 with
          | error e => simp [h2] at h
          | ok all2 =>
            simp only [h2] at h
            cases h
            subst hall
            exact ⟨own, all1, rfl, e4, i3, e2, fun hn => hne (by rw [hn]; rfl), h1, h2, rfl, rfl, rfl, rfl, rfl, rfl, rfl,
              rfl, rfl, rfl, rfl⟩

theorem Dict.get?_append {V : Type} (a b : Dict V) (k : String) :
    Dict.get? (a ++ b) k = match a.get? k with | some v => some v | none => b.get? k := by
  induction a with
  | nil => rfl
  | cons x a ih =>
    obtain ⟨k', v⟩ := x
    simp only [List.cons_append, Dict.get?]
    by_cases h : k' = k
    · simp [h]
    · simp only [h, if_false]; exact ih

theorem Dict.get?_some_of_keys {V : Type} {a b : Dict V} (h : a.keys = b.keys) {k : String} {v : V} (hv : a.get? k = some v) :
    ∃ w, b.get? k = some w := by
  refine Option.isSome_iff_exists.1 ((Dict.get?_isSome_iff b k).2 ?_)
  rw [← h]
  exact Dict.keys_mem_of_mem (Dict.get?_eq_some_mem _ _ _ hv)

theorem tokFor_eq (sp : ClassSpec W) (n : String) : tokFor sp.pre n = sp.tokensFor n := rfl

/-- The fields of a created class, one by one: an inherited field is the parent's, an own field was made from its
declaration. -/
theorem mkClass_field {sp : ClassSpec W} (hok : sp.OK) {C : RecClass W} (h : mkClass sp = .ok C)
    (hb : ∀ p ∈ sp.parents, ∀ k f, p.fields.get? k = some f → f.filler.Bound) {k : String} {f : Field W}
    (hf : C.fields.get? k = some f) :
    (∃ p ∈ sp.parents, (k, f) ∈ p.fields ∧ sp.tokensFor k = [] ∧ f.owner ≠ sp.cid) ∨
    (∃ hh g, (k, hh) ∈ sp.anns ∧ k ∉ sp.inherited ∧
      fieldFromHint sp.cid sp.frozen k (sp.defaultOf k) hh = .ok (some g) ∧
      f = { g with filler := f.filler } ∧ ∃ t, hh.type? = some t ∧ makeFiller sp.style (sp.tokensFor k) t = .ok f.filler) := by
  obtain ⟨own, all1, ho, hown, hdis, hwf, hne, hpre, hbind, -⟩ := mkClass_ok hok h
  obtain ⟨p1, p2, p3⟩ := preBind_ok hpre
  obtain ⟨b1, b2⟩ := bindFields_ok hbind
  have hk2 : C.fields.keys = Dict.keys (sp.parents.flatMap (·.fields) ++ own) := b1.trans p1
  obtain ⟨f0, hf0⟩ := Dict.get?_some_of_keys hk2 hf
  obtain ⟨g1, hg1, ha1⟩ := p3 k f0 hf0
  have hb2 := b2 k _ ha1
  rw [Dict.get?_append] at hf0
  cases hinh : Dict.get? (sp.parents.flatMap (·.fields)) k with
  | some f1 =>
    simp only [hinh] at hf0
    cases hf0
    have hmem := Dict.get?_eq_some_mem _ _ _ hinh
    obtain ⟨p, hp, hpf⟩ := List.mem_flatMap.1 hmem
    have hbound : f0.filler.Bound := by
      have hpwf : p.fields.WF := by
        obtain ⟨l1, l2, hl⟩ := List.append_of_mem hp
        have : Dict.WF (sp.parents.flatMap (·.fields)) := by
          simp only [Dict.WF, Dict.keys, List.map_append] at hwf ⊢
          exact (List.nodup_append.1 hwf).1
        rw [hl] at this
        simp only [Dict.WF, Dict.keys, List.flatMap_append, List.flatMap_cons, List.map_append] at this
        exact (List.nodup_append.1 (List.nodup_append.1 this).2.1).1
      exact hb p hp k f0 (Dict.mem_get? _ hpwf _ _ hpf)
    obtain ⟨ht, hg⟩ := hbound.applyPre hg1
    subst hg
    have hown' : f0.owner ≠ sp.cid := hok.fresh p hp (k, f0) hpf
    rcases hb2 with ⟨h1, -⟩ | ⟨-, h2⟩
    · exact absurd h1 hown'
    · rw [hf] at h2
      cases h2
      exact .inl ⟨p, hp, hpf, ht, hown'⟩
  | none =>
    simp only [hinh] at hf0
    have hmem := Dict.get?_eq_some_mem _ _ _ hf0
    obtain ⟨hh, hhm, he⟩ := (ownFields_ok ho).2 k f0 hmem
    obtain ⟨n1, n2, n3, t, n4, n5, n6⟩ := fieldFromHint_some he
    rcases hb2 with ⟨h1, g2, hg2, h2⟩ | ⟨h1, -⟩
    · rw [hf] at h2
      cases h2
      refine .inr ⟨hh, f0, (hints_perm hok).mem_iff.1 hhm, ?_, he, rfl, t, n4, ?_⟩
      · intro hk
        have : k ∈ Dict.keys (sp.parents.flatMap (·.fields)) := by
          simpa [Dict.keys, ClassSpec.inherited, List.map_flatMap] using hk
        exact absurd ((Dict.get?_eq_none_iff _ _).1 hinh) (fun hn => hn this)
      · simp only [makeFiller, n5, ← tokFor_eq, hg1]; exact hg2
    · exact absurd n3 h1

theorem mkClass_bound {sp : ClassSpec W} (hok : sp.OK) {C : RecClass W} (h : mkClass sp = .ok C)
    (hb : ∀ p ∈ sp.parents, ∀ k f, p.fields.get? k = some f → f.filler.Bound) {k : String} {f : Field W}
    (hf : C.fields.get? k = some f) : f.filler.Bound := by
  rcases mkClass_field hok h hb hf with ⟨p, hp, hm, -, -⟩ | ⟨hh, g, -, -, -, -, t, -, hm⟩
  · obtain ⟨own, all1, ho, hown, hdis, hwf, -⟩ := mkClass_ok hok h
    have hpwf : p.fields.WF := by
      obtain ⟨l1, l2, hl⟩ := List.append_of_mem hp
      have : Dict.WF (sp.parents.flatMap (·.fields)) := by
        simp only [Dict.WF, Dict.keys, List.map_append] at hwf ⊢
        exact (List.nodup_append.1 hwf).1
      rw [hl] at this
      simp only [Dict.WF, Dict.keys, List.flatMap_append, List.flatMap_cons, List.map_append] at this
      exact (List.nodup_append.1 (List.nodup_append.1 this).2.1).1
    exact hb p hp k f (Dict.mem_get? _ hpwf _ _ hm)
  · unfold makeFiller at hm
    cases h1 : getFiller t with
    | error e => simp [h1] at hm
    | ok f0 =>
      simp only [h1] at hm
      cases h2 : f0.applyPre (sp.tokensFor k) with
      | error e => simp [h2] at hm
      | ok f1 => simp only [h2] at hm; exact F.bind_Bound hm

theorem hasDefault_pre {f : Field W} {g : F W} : ({ f with filler := g } : Field W).default = f.default := rfl

/-- the shape of a created class, given that of its parents -/
theorem mkClass_wf {sp : ClassSpec W} (hok : sp.OK) {C : RecClass W} (h : mkClass sp = .ok C)
    (hp : ∀ p ∈ sp.parents, p.WF) : C.WF := by
  have hbp : ∀ p ∈ sp.parents, ∀ k f, p.fields.get? k = some f → f.filler.Bound := fun p hpm => (hp p hpm).bound
  obtain ⟨own, all1, ho, hown, hdis, hwf, hne, hpre, hbind, hreq, hopt, -⟩ := mkClass_ok hok h
  obtain ⟨p1, p2, p3⟩ := preBind_ok hpre
  obtain ⟨b1, b2⟩ := bindFields_ok hbind
  have hk2 : C.fields.keys = Dict.keys (sp.parents.flatMap (·.fields) ++ own) := b1.trans p1
  generalize hall : sp.parents.flatMap (·.fields) ++ own = all at *
  have hCwf : C.fields.WF := by unfold Dict.WF; rw [hk2]; exact hwf
  -- defaults are unchanged by `pre_bind` and `bind`
  have hdef : ∀ k f, C.fields.get? k = some f → ∃ f0, Dict.get? all k = some f0 ∧ f.default = f0.default := by
    intro k f hf
    obtain ⟨f0, hf0⟩ := Dict.get?_some_of_keys hk2 hf
    obtain ⟨g1, -, ha1⟩ := p3 k f0 hf0
    rcases b2 k _ ha1 with ⟨-, g2, -, h2⟩ | ⟨-, h2⟩ <;> rw [hf] at h2 <;> cases h2 <;> exact ⟨f0, hf0, rfl⟩
  have hdef' : ∀ k f0, Dict.get? all k = some f0 → ∃ f, C.fields.get? k = some f ∧ f.default = f0.default := by
    intro k f0 hf0
    obtain ⟨f, hf⟩ := Dict.get?_some_of_keys hk2.symm hf0
    obtain ⟨f1, hf1, he⟩ := hdef k f hf
    rw [hf0] at hf1; cases hf1
    exact ⟨f, hf, he⟩
  have hr : ∀ k, k ∈ C.required ↔ ∃ f0, Dict.get? all k = some f0 ∧ f0.default = none := by
    intro k
    rw [hreq]
    simp only [Dict.keys, List.mem_map, List.mem_filter]
    constructor
    · rintro ⟨kf, ⟨hm, hd⟩, rfl⟩
      refine ⟨kf.2, Dict.mem_get? _ hwf _ _ hm, ?_⟩
      simpa [Field.hasDefault] using hd
    · rintro ⟨f0, hf0, hd⟩
      exact ⟨(k, f0), ⟨Dict.get?_eq_some_mem _ _ _ hf0, by simp [Field.hasDefault, hd]⟩, rfl⟩
  have hreq' : ∀ k, k ∈ C.required ↔ ∃ f, C.fields.get? k = some f ∧ f.default = none := by
    intro k
    rw [hr]
    constructor
    · rintro ⟨f0, hf0, hd⟩
      obtain ⟨f, hf, he⟩ := hdef' k f0 hf0
      exact ⟨f, hf, he.trans hd⟩
    · rintro ⟨f, hf, hd⟩
      obtain ⟨f0, hf0, he⟩ := hdef k f hf
      exact ⟨f0, hf0, he ▸ hd⟩
  refine ⟨hCwf, ?_, ?_, hreq', ?_, ?_, ?_, fun k f hf => mkClass_bound hok h hbp hf⟩
  · intro hn
    rw [hn] at hk2
    apply hne
    cases all with
    | nil => rfl
    | cons a l => simp [Dict.keys] at hk2
  · intro k f hf
    rcases mkClass_field hok h hbp hf with ⟨p, hpm, hm, -, -⟩ | ⟨hh, g, -, -, he, hg, -⟩
    · exact (hp p hpm).named k f (Dict.mem_get? _ (hp p hpm).nodup _ _ hm)
    · rw [hg]; exact (fieldFromHint_some he).1
  · intro k
    rw [hopt, ← hk2]
    simp only [List.mem_filter, decide_eq_true_eq, hreq']
    constructor
    · rintro ⟨hm, hd⟩
      obtain ⟨f, hf⟩ := Option.isSome_iff_exists.1 ((Dict.get?_isSome_iff C.fields k).2 hm)
      cases hfd : f.default with
      | none => exact absurd ⟨f, hf, hfd⟩ hd
      | some d => exact ⟨f, d, hf, hfd⟩
    · rintro ⟨f, d, hf, hfd⟩
      refine ⟨Dict.keys_mem_of_mem (Dict.get?_eq_some_mem _ _ _ hf), ?_⟩
      rintro ⟨f', hf', hd⟩
      rw [hf] at hf'; cases hf'
      rw [hfd] at hd; cases hd
  · rw [hreq]; exact hwf.sublist (List.filter_sublist.map _)
  · rw [hopt]; exact hwf.sublist List.filter_sublist

theorem Creatable.wf {C : RecClass W} (h : Creatable C) : C.WF := by
  induction h with
  | intro sp C hok _ hmk ih => exact mkClass_wf hok hmk ih

end Records
