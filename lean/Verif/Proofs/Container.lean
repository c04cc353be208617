import Verif.Spec.Container
import Verif.Props.Hints
/-
Element loops, and the structure of bound container fillers.
-/
set_option linter.unusedSimpArgs false
namespace Records
variable {W : World}

/-- an appended validator runs after everything else -/
theorem Ann.fill_addValidator (a : Ann W) (g : Coercer W) (v : W.Obj) :
    (a.addValidator g).fill v = M.bind (a.fill v) fun r => M.bind (g r.1) fun y => M.pure (y, r.2) := by
  have hval : ∀ (x : W.Obj) (k : TPK), validate (a.validators ++ [g]) x k =
      M.bind (validate a.validators x k) fun r => M.bind (g r.1) fun y => M.pure (y, r.2) := by
    intro x k
    unfold validate
    rw [foldM_append, M.bind_assoc, M.bind_assoc]
    congr 1
    funext y
    simp only [M.foldM, M.bind_assoc, M.pure_bind]
  cases h : a.style with
  | default => unfold Ann.fill; simp only [Ann.addValidator, h]; rfl
  | hollow => unfold Ann.fill; simp only [Ann.addValidator, h]; exact hval v .hollow
  | check | checkStrict =>
    funext s
    have e1 : (a.addValidator g).fill v s = _ := Ann.fill_checked (a.addValidator g) (by simp [Ann.addValidator, h]) v s
    have e2 := Ann.fill_checked a (by simp [h]) v s
    have e3 : (a.addValidator g).validators = a.validators ++ [g] := rfl
    have e4 : (a.addValidator g).kind = a.kind := rfl
    have e5 : (a.addValidator g).style = a.style := rfl
    have e6 : (a.addValidator g).coercers = a.coercers := rfl
    rw [e3, e4, e5, e6] at e1
    have e7 : ∀ F : W.Obj × TPK → M W (W.Obj × TPK), M.bind (a.fill v) F s = M.bind (fun _ => a.fill v s) F s := fun _ => rfl
    rw [e1, e7, e2]
    by_cases h1 : a.kind.typeCheck v s = .exact
    · simp only [h1, if_true]; rw [hval]; rfl
    · by_cases h2 : a.kind.typeCheck v s = .inexact ∧ a.style = .check
      · rw [if_neg h1, if_pos h2, if_neg h1, if_pos h2, hval]; rfl
      · by_cases h3 : a.coercers.isEmpty = true
        · rw [if_neg h1, if_neg h2, if_pos h3, if_neg h1, if_neg h2, if_pos h3]; rfl
        · rw [if_neg h1, if_neg h2, if_neg h3, if_neg h1, if_neg h2, if_neg h3]
          simp only [hval]
          rw [← M.bind_assoc]
          rfl

theorem call_wrap_add (k : WrapKind W) (b : Bool) (a : Ann W) (g : Coercer W) (subs : List (F W)) (v : W.Obj) :
    (F.wrap b k (a.addValidator g) subs).call v = M.bind ((F.ann a).call v) g := by
  rw [F.call_eq, F.call_eq]
  simp only [F.fill, Ann.fill_addValidator, M.bind_assoc, M.pure_bind]
  congr 1
  funext r
  exact M.bind_pure _

theorem call_wrap (k : WrapKind W) (b : Bool) (a : Ann W) (subs : List (F W)) (v : W.Obj) :
    (F.wrap b k a subs).call v = (F.ann a).call v := by
  rw [F.call_eq, F.call_eq]; rfl

theorem call_addValidator (a : Ann W) (g : Coercer W) (v : W.Obj) :
    (F.ann (a.addValidator g)).call v = M.bind ((F.ann a).call v) g := by
  rw [F.call_eq, F.call_eq]
  simp only [F.fill, Ann.fill_addValidator, M.bind_assoc, M.pure_bind]
  congr 1
  funext r
  exact M.bind_pure _

theorem fillSeq_total : ∀ (es : List (W.Obj × (W.Obj → M W W.Obj))) (s : LState W),
    (∃ ws s', FillSeq es s ws s') ∨ ∃ ws e s', FillSeqFails es s ws e s'
  | [], s => .inl ⟨[], s, .nil s⟩
  | (e, f) :: es, s => by
    rcases h : f e s with ⟨r, s1⟩
    cases r with
    | error x => exact .inr ⟨[], x, s1, .here h⟩
    | ok w =>
      rcases fillSeq_total es s1 with ⟨ws, s', h'⟩ | ⟨ws, x, s', h'⟩
      · exact .inl ⟨w :: ws, s', .cons h h'⟩
      · exact .inr ⟨w :: ws, x, s', .later h h'⟩

theorem mapM_fillSeq {es : List (W.Obj × (W.Obj → M W W.Obj))} {s : LState W} {ws : List W.Obj} {s' : LState W}
    (h : FillSeq es s ws s') : M.mapM (fun p => p.2 p.1) es s = (.ok ws, s') := by
  induction h with
  | nil s => rfl
  | cons h _ ih => simp only [M.mapM]; rw [M.bind_ok h, M.bind_ok ih]; rfl

theorem mapM_fillSeqFails {es : List (W.Obj × (W.Obj → M W W.Obj))} {s : LState W} {ws : List W.Obj} {e : Exc} {s' : LState W}
    (h : FillSeqFails es s ws e s') : M.mapM (fun p => p.2 p.1) es s = (.error e, s') := by
  induction h with
  | here h => simp only [M.mapM]; rw [M.bind_error h]
  | later h _ ih => simp only [M.mapM]; rw [M.bind_ok h, M.bind_error ih]

/-- all elements fill to themselves: the container itself -/
theorem elemLoop_same {drains : Bool} {rebuild : List W.Obj → M W W.Obj} {v : W.Obj}
    {es : List (W.Obj × (W.Obj → M W W.Obj))} {s : LState W} {ws : List W.Obj} {s' : LState W} (h : FillSeq es s ws s')
    (hw : ws = es.map Prod.fst) (pre : List W.Obj) : elemLoop drains rebuild v es pre s = (.ok v, s') := by
  induction h generalizing pre with
  | nil s => rfl
  | @cons e f es s w s1 ws s2 h _ ih =>
    simp only [List.map_cons, List.cons.injEq] at hw
    simp only [elemLoop]
    rw [M.bind_ok h]
    simp only [hw.1, if_true]
    exact ih hw.2 _

/-- some element changes and the constructor drains its argument -/
theorem elemLoop_rebuild {rebuild : List W.Obj → M W W.Obj} {v : W.Obj}
    {es : List (W.Obj × (W.Obj → M W W.Obj))} {s : LState W} {ws : List W.Obj} {s' : LState W} (h : FillSeq es s ws s')
    (hw : ws ≠ es.map Prod.fst) (pre : List W.Obj) : elemLoop true rebuild v es pre s = rebuild (pre ++ ws) s' := by
  induction h generalizing pre with
  | nil s => exact absurd rfl hw
  | @cons e f es s w s1 ws s2 h ht ih =>
    simp only [elemLoop]
    rw [M.bind_ok h]
    by_cases hwe : w = e
    · subst hwe
      simp only [if_true]
      rw [ih (fun hx => hw (by simp [hx]))]
      simp
    · simp only [hwe, if_false, if_true]
      rw [M.bind_ok (M.generator_ok (mapM_fillSeq ht))]

/-- an element fails before any changed -/
theorem elemLoop_fails {dr : Bool} {rebuild : List W.Obj → M W W.Obj} {v : W.Obj}
    {es : List (W.Obj × (W.Obj → M W W.Obj))} {s : LState W} {ws : List W.Obj} {x : Exc} {s' : LState W} (h : FillSeqFails es s ws x s')
    (hw : ws <+: es.map Prod.fst) (pre : List W.Obj) : elemLoop dr rebuild v es pre s = (.error x, s') := by
  induction h generalizing pre with
  | here h => simp only [elemLoop]; rw [M.bind_error h]
  | @later e f es s w s1 ws x s2 h ht ih =>
    obtain ⟨rfl, hw'⟩ := List.cons_prefix_cons.1 hw
    simp only [elemLoop]
    rw [M.bind_ok h]
    simp only [if_true]
    exact ih hw' _

/-- an element fails after one changed, in the generator of the rest -/
theorem elemLoop_failsLate {rebuild : List W.Obj → M W W.Obj} {v : W.Obj}
    {es : List (W.Obj × (W.Obj → M W W.Obj))} {s : LState W} {ws : List W.Obj} {x : Exc} {s' : LState W} (h : FillSeqFails es s ws x s')
    (hw : ¬ ws <+: es.map Prod.fst) (pre : List W.Obj) : elemLoop true rebuild v es pre s = (.error x.leaving, s') := by
  induction h generalizing pre with
  | here h => exact absurd List.nil_prefix hw
  | @later e f es s w s1 ws x s2 h ht ih =>
    simp only [elemLoop]
    rw [M.bind_ok h]
    by_cases hwe : w = e
    · subst hwe
      simp only [if_true]
      exact ih (fun h' => hw (List.cons_prefix_cons.2 ⟨rfl, h'⟩)) _
    · simp only [hwe, if_false, if_true]
      rw [M.bind_error (M.generator_error (mapM_fillSeqFails ht))]

/-- the first changed element, when the constructor does not drain -/
theorem elemLoop_stuck {rebuild : List W.Obj → M W W.Obj} {v : W.Obj}
    {es : List (W.Obj × (W.Obj → M W W.Obj))} {s : LState W} {ws : List W.Obj} {s1 : LState W} (h : FillSeq es s ws s1)
    (hw : ws = es.map Prod.fst) {e w : W.Obj} {f : W.Obj → M W W.Obj} {s2 : LState W} (hf : Returns (f e) s1 w s2) (hne : w ≠ e)
    (es' : List (W.Obj × (W.Obj → M W W.Obj))) (pre : List W.Obj) :
    elemLoop false rebuild v (es ++ (e, f) :: es') pre s = rebuild [] s2 := by
  induction h generalizing pre with
  | nil s =>
    simp only [List.nil_append, elemLoop]
    rw [M.bind_ok hf]
    simp [hne]
  | @cons e0 f0 es0 s w0 s1 ws s2 h _ ih =>
    simp only [List.map_cons, List.cons.injEq] at hw
    simp only [List.cons_append, elemLoop]
    rw [M.bind_ok h]
    simp only [hw.1, if_true]
    exact ih hw.2 hf _

/-! mappings -/

theorem fillSeq_pairs {fk fv : W.Obj → M W W.Obj} : ∀ {l : List (W.Obj × W.Obj)} {s : LState W} {ws : List W.Obj} {s' : LState W},
    FillSeq (interleave fk fv l) s ws s' →
    M.mapM (fun (p : W.Obj × W.Obj) => M.bind (fk p.1) fun a => M.bind (fv p.2) fun b => M.pure (a, b)) l s = (.ok (pairUp ws), s') ∧
    (pairUp ws).length = l.length
  | [], s, ws, s', h => by cases h; exact ⟨rfl, rfl⟩
  | (k, v) :: l, s, ws, s', h => by
    simp only [interleave] at h
    cases h with
    | cons h1 h =>
      cases h with
      | cons h2 h =>
        obtain ⟨i1, i2⟩ := fillSeq_pairs h
        refine ⟨?_, by simp [pairUp, i2]⟩
        simp only [M.mapM, M.bind_assoc, M.pure_bind]
        rw [M.bind_ok h1, M.bind_ok h2, M.bind_ok i1]
        rfl

theorem fillSeqFails_pairs {fk fv : W.Obj → M W W.Obj} : ∀ {l : List (W.Obj × W.Obj)} {s : LState W} {ws : List W.Obj} {e : Exc} {s' : LState W},
    FillSeqFails (interleave fk fv l) s ws e s' →
    M.mapM (fun (p : W.Obj × W.Obj) => M.bind (fk p.1) fun a => M.bind (fv p.2) fun b => M.pure (a, b)) l s = (.error e, s')
  | [], s, _, e, s', h => by cases h
  | (k, v) :: l, s, _, e, s', h => by
    simp only [interleave] at h
    simp only [M.mapM, M.bind_assoc, M.pure_bind]
    cases h with
    | here h1 => rw [M.bind_error h1]
    | later h1 h =>
      rw [M.bind_ok h1]
      cases h with
      | here h2 => rw [M.bind_error h2]
      | later h2 h =>
        rw [M.bind_ok h2, M.bind_error (fillSeqFails_pairs h)]

theorem pairs_changed {l m : List (W.Obj × W.Obj)} (h : m.length = l.length) :
    (l.zip m).any (fun q => decide (q.1.1 ≠ q.2.1) || decide (q.1.2 ≠ q.2.2)) = true ↔ m ≠ l := by
  induction l generalizing m with
  | nil => cases m <;> simp_all
  | cons p l ih =>
    cases m with
    | nil => simp at h
    | cons q m =>
      have := ih (m := m) (by simpa using h)
      obtain ⟨p1, p2⟩ := p
      obtain ⟨q1, q2⟩ := q
      simp only [List.zip_cons_cons, List.any_cons, Bool.or_eq_true, this]
      simp only [decide_eq_true_eq, ne_eq, List.cons.injEq, Prod.mk.injEq]
      constructor
      · rintro ((h1 | h1) | h1) ⟨⟨rfl, rfl⟩, rfl⟩
        · exact h1 rfl
        · exact h1 rfl
        · exact h1 rfl
      · intro h1
        by_cases a : p1 = q1
        · by_cases b : p2 = q2
          · right; rintro rfl; exact h1 ⟨⟨a.symm, b.symm⟩, rfl⟩
          · left; right; exact b
        · left; left; exact a

/-! ### the structure of container fillers -/

/-- which key reaches part `j`: tuples also take negative keys -/
def WrapKind.negKeys : WrapKind W → Bool
  | .tupleFix | .tupleVar => true
  | _ => false

theorem applyAll_append (f : F W) (a b : List (Tok W)) :
    f.applyAll (a ++ b) = match f.applyAll a with | .ok g => g.applyAll b | .error e => .error e := by
  induction a generalizing f with
  | nil => rfl
  | cons t ts ih =>
    simp only [List.cons_append, F.applyAll]
    cases f.apply t with
    | error e => rfl
    | ok g => exact ih g

theorem Ann.applyAll_append (f : Ann W) (a b : List (Tok W)) :
    f.applyAll (a ++ b) = match f.applyAll a with | .ok g => g.applyAll b | .error e => .error e := by
  induction a generalizing f with
  | nil => rfl
  | cons t ts ih =>
    simp only [List.cons_append, Ann.applyAll]
    cases f.apply t with
    | error e => rfl
    | ok g => exact ih g

theorem pyIndex_some {n : Nat} {i : Int} {j : Nat} (h : pyIndex n i = some j) :
    j < n ∧ (i = j ∨ i = (j : Int) - n) := by
  unfold pyIndex at h
  split at h
  · cases h; omega
  · split at h
    · cases h; omega
    · cases h

/-- one token applied to a wrapper or one of its parts -/
theorem applySub_wrap {k : WrapKind W} {inner : Ann W} {subs : List (F W)} {key : Option Int} {t : Tok W} {f : F W}
    (h : F.applySub (.wrap false k inner subs) key t = .ok f) :
    ∃ inner' subs', f = .wrap false k inner' subs' ∧ subs'.length = subs.length ∧
      inner.applyAll (ownTokens [(key, t)]) = .ok inner' ∧
      ∀ (j : Nat) (g : F W), subs[j]? = some g → ∃ g' : F W, subs'[j]? = some g' ∧
        g.applyAll (partTokens k.negKeys subs.length j [(key, t)]) = .ok g' := by
  cases key with
  | none =>
    simp only [F.applySub, F.withSub, F.apply] at h
    cases h1 : inner.apply t with
    | error e => simp [h1, Except.map] at h
    | ok i =>
      simp only [h1, Except.map] at h
      cases h
      refine ⟨i, subs, rfl, rfl, by simp [ownTokens, Ann.applyAll, h1], fun j g hg => ⟨g, hg, ?_⟩⟩
      simp [partTokens, F.applyAll]
  | some i =>
    -- the mutation of part j
    have core : ∀ j, F.withSub.at_ (fun g : F W => g.apply t) subs (some j) (.wrap false k inner) = .ok f →
        (∀ j' : Nat, j' < subs.length → ((i = (j' : Int) ∨ (k.negKeys = true ∧ i = (j' : Int) - subs.length)) ↔ j' = j)) →
        ∃ inner' subs', f = .wrap false k inner' subs' ∧ subs'.length = subs.length ∧
          inner.applyAll (ownTokens [(some i, t)]) = .ok inner' ∧
          ∀ (j : Nat) (g : F W), subs[j]? = some g → ∃ g' : F W, subs'[j]? = some g' ∧
            g.applyAll (partTokens k.negKeys subs.length j [(some i, t)]) = .ok g' := by
      intro j hat hkey
      unfold F.withSub.at_ at hat
      cases hj : subs[j]? with
      | none => simp [hj] at hat
      | some g =>
        simp only [hj] at hat
        cases hg : g.apply t with
        | error e => simp [hg] at hat
        | ok g' =>
          simp only [hg] at hat
          cases hat
          refine ⟨inner, subs.set j g', rfl, by simp, by simp [ownTokens, Ann.applyAll], ?_⟩
          intro j' g0 hg0
          have hlt : j' < subs.length := (List.getElem?_eq_some_iff.1 hg0).1
          by_cases hjj : j' = j
          · subst hjj
            rw [hj] at hg0
            cases hg0
            refine ⟨g', by simp [hlt], ?_⟩
            have := (hkey j' hlt).2 rfl
            have h2 : (some i = some (j' : Int) ∨ (k.negKeys = true ∧ some i = some ((j' : Int) - subs.length))) := by
              simpa using this
            simp only [partTokens, List.filterMap_cons, if_pos h2, List.filterMap_nil, F.applyAll, hg]
          · refine ⟨g0, by rw [List.getElem?_set_ne (Ne.symm hjj)]; exact hg0, ?_⟩
            have h2 : ¬ (some i = some (j' : Int) ∨ (k.negKeys = true ∧ some i = some ((j' : Int) - subs.length))) := by
              intro hx
              exact hjj ((hkey j' hlt).1 (by simpa using hx))
            simp only [partTokens, List.filterMap_cons, if_neg h2, List.filterMap_nil, F.applyAll]
    cases k with
    | tupleFix | tupleVar =>
      simp only [F.applySub, F.withSub] at h
      cases hp : pyIndex subs.length i with
      | none => simp [hp, F.withSub.at_] at h
      | some j =>
        rw [hp] at h
        refine core j h ?_
        intro j' hj'
        obtain ⟨h1, h2⟩ := pyIndex_some hp
        simp only [WrapKind.negKeys, true_and]
        omega
    | iter | deque =>
      simp only [F.applySub, F.withSub] at h
      split at h
      · rename_i hi
        refine core 0 h ?_
        intro j' hj'
        simp only [WrapKind.negKeys]
        constructor
        · rintro (h | ⟨h, -⟩)
          · omega
          · cases h
        · intro h; left; omega
      · cases h
    | mapping | defaultdict =>
      simp only [F.applySub, F.withSub] at h
      split at h
      · rename_i hi
        refine core 0 h ?_
        intro j' hj'
        simp only [WrapKind.negKeys]
        constructor
        · rintro (h | ⟨h, -⟩)
          · omega
          · cases h
        · intro h; left; omega
      · split at h
        · rename_i hi
          refine core 1 h ?_
          intro j' hj'
          simp only [WrapKind.negKeys]
          constructor
          · rintro (h | ⟨h, -⟩)
            · omega
            · cases h
          · intro h; left; omega
        · cases h
    | typeF b | generic => simp [F.applySub, F.withSub] at h

theorem applyPre_wrap {k : WrapKind W} : ∀ {pre : List (Option Int × Tok W)} {inner : Ann W} {subs : List (F W)} {f : F W},
    F.applyPre (.wrap false k inner subs) pre = .ok f →
    ∃ inner' subs', f = .wrap false k inner' subs' ∧ subs'.length = subs.length ∧
      inner.applyAll (ownTokens pre) = .ok inner' ∧
      ∀ (j : Nat) (g : F W), subs[j]? = some g → ∃ g' : F W, subs'[j]? = some g' ∧
        g.applyAll (partTokens k.negKeys subs.length j pre) = .ok g'
  | [], inner, subs, f, h => by
    simp [F.applyPre] at h
    subst h
    exact ⟨inner, subs, rfl, rfl, rfl, fun j g hg => ⟨g, hg, rfl⟩⟩
  | (key, t) :: pre, inner, subs, f, h => by
    simp only [F.applyPre] at h
    cases h1 : F.applySub (.wrap false k inner subs) key t with
    | error e => simp [h1] at h
    | ok f1 =>
      simp only [h1] at h
      obtain ⟨i1, s1, rfl, hl, hi, hs⟩ := applySub_wrap h1
      obtain ⟨i2, s2, rfl, hl2, hi2, hs2⟩ := applyPre_wrap h
      refine ⟨i2, s2, rfl, hl2.trans hl, ?_, ?_⟩
      · have : ownTokens ((key, t) :: pre) = ownTokens [(key, t)] ++ ownTokens pre := by
          simp only [ownTokens, ← List.filterMap_append, List.singleton_append]
        rw [this, Ann.applyAll_append, hi]
        exact hi2
      · intro j g hg
        obtain ⟨g1, hg1, ha1⟩ := hs j g hg
        obtain ⟨g2, hg2, ha2⟩ := hs2 j g1 hg1
        refine ⟨g2, hg2, ?_⟩
        have : partTokens k.negKeys subs.length j ((key, t) :: pre) =
            partTokens k.negKeys subs.length j [(key, t)] ++ partTokens k.negKeys subs.length j pre := by
          simp only [partTokens, ← List.filterMap_append, List.singleton_append]
        rw [this, applyAll_append, ha1]
        rw [hl] at ha2
        exact ha2

/-- a bound container filler, given the filler its hint resolves to -/
theorem make_wrap {d : Style} {pre : List (Option Int × Tok W)} {h : Hint W} {args : List (Tok W)} {f : F W} {k : WrapKind W}
    {c : W.Cls} {subs : List (F W)} (hget : getF h (some args) = .ok (.wrap false k (classAnn c args) subs))
    (hf : makeFiller d pre (.annotated h args) = .ok f) :
    ∃ a a' bs, Ann.make d (classKind c) (ownTokens pre) args = .ok a ∧ wrapFinish k a bs = .ok a' ∧ f = .wrap true k a' bs ∧
      bs.length = subs.length ∧
      ∀ (j : Nat) (g : F W), subs[j]? = some g → ∃ g' b : F W, bs[j]? = some b ∧
        g.applyAll (partTokens k.negKeys subs.length j pre) = .ok g' ∧ g'.bind d = .ok b := by
  simp only [makeFiller, getFiller, getF, hget] at hf
  cases e : F.applyPre (.wrap false k (classAnn c args) subs) pre with
  | error e' => simp [e] at hf
  | ok f1 =>
    simp only [e] at hf
    obtain ⟨i1, s1, rfl, hl, hi, hs⟩ := applyPre_wrap e
    obtain ⟨i, subs', i', hb, hsb, hfin, rfl⟩ := F.bind_wrap_ok hf
    obtain ⟨hl', hi'⟩ := F.bindAll_get hsb
    refine ⟨i, i', subs', ?_, hfin, rfl, hl'.trans hl, ?_⟩
    · unfold Ann.make
      unfold classAnn at hi
      rw [hi]
      exact hb
    · intro j g hg
      obtain ⟨g', hg', ha⟩ := hs j g hg
      have hlt : j < s1.length := (List.getElem?_eq_some_iff.1 hg').1
      obtain ⟨b, hbj⟩ : ∃ b, subs'[j]? = some b := ⟨_, List.getElem?_eq_getElem (by omega)⟩
      exact ⟨g', b, hbj, ha, hi' j g' b hg' hbj⟩

end Records
