import Verif.Spec.Dispatch
import Verif.Props.Accepts
/-
C130: equivalent ways to write a type make the same field.
-/
namespace Records
variable {W : World}

/-! ### the table -/

theorem StdClasses.nodup {S : StdClasses W} (h : S.OK) : (S.origins.map (·.1)).Nodup := by
  refine (List.Perm.nodup_iff ?_).2 h.1
  unfold StdClasses.origins StdClasses.known StdClasses.iterables StdClasses.mappings StdClasses.generics
  simp only [List.map, List.cons_append, List.nil_append]
  refine .cons _ (.cons _ (.cons _ (.cons _ (.cons _ (.cons _ (.cons _ (.cons _ (.cons _ (.cons _ (.cons _ ?_))))))))))
  refine List.perm_append_comm (l₁ := [S.iterable, S.iterator, S.reversible, S.collection, S.container, S.asyncIterator,
    S.asyncIterable, S.contextManager, S.asyncContextManager]) (l₂ := [S.mapping, S.mutableMapping, S.dict]) |>.append_right
    [S.asyncGenerator, S.generator]

theorem find_nodup {α β : Type} [DecidableEq α] {k : α} {v : β} : {l : List (α × β)} → (l.map (·.1)).Nodup → (k, v) ∈ l →
    (l.find? fun p => decide (p.1 = k)).map (·.2) = some v
  | (a, b) :: l, hn, hm => by
    simp only [List.map, List.nodup_cons] at hn
    rcases List.mem_cons.1 hm with h | h
    · cases h; simp
    · have : a ≠ k := by
        rintro rfl
        exact hn.1 (List.mem_map.2 ⟨_, h, rfl⟩)
      rw [List.find?_cons_of_neg (by simpa using this)]
      exact find_nodup hn.2 h

theorem kindOf_mem {S : StdClasses W} {o : W.Cls} {k : GKind} (h : S.kindOf o = some k) : (o, k) ∈ S.origins := by
  unfold StdClasses.kindOf at h
  cases hf : S.origins.find? fun p => decide (p.1 = o) with
  | none => rw [hf] at h; cases h
  | some p =>
    rw [hf] at h
    cases h
    have := List.mem_of_find?_eq_some hf
    have h2 := List.find?_some hf
    simp only [decide_eq_true_eq] at h2
    exact h2 ▸ this

theorem kindOf_iff {S : StdClasses W} (h : S.OK) {o : W.Cls} {k : GKind} : S.kindOf o = some k ↔ (o, k) ∈ S.origins :=
  ⟨kindOf_mem, fun hm => find_nodup (S.nodup h) hm⟩

theorem kindOf_type {S : StdClasses W} {o : W.Cls} (h : S.kindOf o = some .type) : o = W.typeCls := by
  have := kindOf_mem h
  simpa [StdClasses.origins] using this

theorem kindOf_tuple {S : StdClasses W} (h : S.OK) : S.kindOf W.tupleCls = some .tuple :=
  (kindOf_iff h).2 (by simp [StdClasses.origins])
theorem kindOf_deque {S : StdClasses W} (h : S.OK) : S.kindOf S.deque = some .deque :=
  (kindOf_iff h).2 (by simp [StdClasses.origins])
theorem kindOf_defaultdict {S : StdClasses W} (h : S.OK) : S.kindOf S.defaultdict = some .defaultdict :=
  (kindOf_iff h).2 (by simp [StdClasses.origins])
theorem kindOf_iterable {S : StdClasses W} (h : S.OK) {o : W.Cls} (ho : o ∈ S.iterables) : S.kindOf o = some .iterable := by
  refine (kindOf_iff h).2 ?_
  simp only [StdClasses.iterables, List.mem_cons, List.not_mem_nil, or_false] at ho
  rcases ho with rfl | rfl | rfl | rfl | rfl | rfl | rfl <;> simp [StdClasses.origins]
theorem kindOf_mapping {S : StdClasses W} (h : S.OK) {o : W.Cls} (ho : o ∈ S.mappings) : S.kindOf o = some .mapping := by
  refine (kindOf_iff h).2 ?_
  simp only [StdClasses.mappings, List.mem_cons, List.not_mem_nil, or_false] at ho
  rcases ho with rfl | rfl | rfl <;> simp [StdClasses.origins]
theorem kindOf_generic {S : StdClasses W} (h : S.OK) {o : W.Cls} (ho : o ∈ S.generics) : S.kindOf o = some .generic := by
  refine (kindOf_iff h).2 ?_
  simp only [StdClasses.generics, List.mem_cons, List.not_mem_nil, or_false] at ho
  rcases ho with rfl | rfl | rfl | rfl | rfl | rfl | rfl | rfl | rfl | rfl | rfl <;> simp [StdClasses.origins]
theorem kindOf_none {S : StdClasses W} {o : W.Cls} (ho : o ∉ S.known) : S.kindOf o = none := by
  cases hk : S.kindOf o with
  | none => rfl
  | some k =>
    refine absurd ?_ ho
    have := List.mem_map_of_mem (f := fun p : W.Cls × GKind => p.1) (kindOf_mem hk)
    simp only [StdClasses.origins, List.map, List.mem_cons, List.not_mem_nil, or_false] at this
    simp only [StdClasses.known, StdClasses.iterables, StdClasses.mappings, StdClasses.generics, List.cons_append, List.nil_append,
      List.mem_cons, List.not_mem_nil, or_false]
    rcases this with h | h | h | h | h | h | h | h | h | h | h | h | h | h | h | h | h | h | h | h | h | h | h | h | h <;> simp [h]

/-! ### the meaning of hints -/

theorem hasArgs_eq {as : List (TypeObj W)} : hasArgs as = true ↔ ∃ a ∈ as, a.isVar = false := by
  simp [hasArgs]

theorem getFs_sequence (hs : List (Hint W)) : getFs hs = sequenceF (hs.map fun h => getF h none) := by
  induction hs with
  | nil => rfl
  | cons h hs ih =>
    simp only [getFs, List.map, ih]
    cases getF h none <;> rfl

theorem getFsLate_map (hs : List (Hint W)) :
    getFsLate hs = (hs.map fun h => getF h none).map fun f => match f with | .ok f => f | .error e => .failing e := by
  induction hs with
  | nil => rfl
  | cons h hs ih =>
    simp only [getFsLate, List.map, ih]
    cases getF h none <;> rfl

theorem tuple_meaning (as : List (TypeObj W)) (hs : List (Hint W)) (args : Option (List (Tok W))) (hlen : hs.length = as.length) :
    (if variadic as then match (hs.map fun h => getF h none) with
        | .ok f :: _ => .ok (.wrap false .tupleVar (classAnn W.tupleCls (args.getD [])) [f])
        | .error e :: _ => .error e
        | [] => .error .indexError
      else match sequenceF (hs.map fun h => getF h none) with
        | .ok fs => .ok (.wrap false .tupleFix (classAnn W.tupleCls (args.getD [])) fs)
        | .error e => .error e : Except Exc (F W)) = getF (tupleMeaning as hs) args := by
  cases hva : variadic as with
  | true =>
    unfold variadic at hva
    split at hva
    · rename_i x a
      cases a <;> simp [TypeObj.isDots] at hva
      rcases hs with _ | ⟨h, hs⟩
      · cases hlen
      · simp only [tupleMeaning, if_true, List.map, getF]
        cases getF h none <;> rfl
    · cases hva
  | false =>
    have : tupleMeaning as hs = .tupleFix hs := by
      unfold tupleMeaning
      split
      · cases hva
      · rfl
    rw [this]
    simp only [getF, getFs_sequence, Bool.false_eq_true, if_false]
    cases sequenceF (hs.map fun h => getF h none) <;> rfl

theorem alias_meaning {S : StdClasses W} (hS : S.OK) (o : W.Cls) (as : List (TypeObj W)) (hs : List (Hint W)) (args : Option (List (Tok W)))
    (hlen : hs.length = as.length) (har : (∃ a ∈ as, a.isVar = false) → o ∈ S.defaultdict :: S.mappings → as.length = 2) :
    aliasFiller S o as (hs.map fun h => getF h none) (args.getD []) = getF (aliasMeaning S o as hs) args := by
  have htk : W.typeCls ∈ S.known := by simp [StdClasses.known]
  unfold aliasFiller aliasMeaning
  by_cases hc : o = S.callable
  · have : o ≠ W.typeCls := fun h => hS.2 (hc ▸ h ▸ htk)
    rw [if_neg this, if_pos hc, if_pos hc]
    rfl
  rw [if_neg hc, if_neg hc]
  by_cases hv : ∀ a ∈ as, a.isVar = true
  · have hh : hasArgs as = false := by
      cases hx : hasArgs as with
      | false => rfl
      | true =>
        obtain ⟨a, ha, hb⟩ := hasArgs_eq.1 hx
        rw [hv a ha] at hb; cases hb
    rw [if_pos hv, hh]
    by_cases ht : o = W.typeCls
    · rw [if_pos ht]; subst ht; rfl
    · rw [if_neg ht]; rfl
  rw [if_neg hv]
  have hex : ∃ a ∈ as, a.isVar = false := by
    refine Classical.byContradiction fun hn => hv fun a ha => ?_
    cases hb : a.isVar with
    | true => rfl
    | false => exact absurd ⟨a, ha, hb⟩ hn
  rw [hasArgs_eq.2 hex]
  have har := har hex
  by_cases ht : o = W.typeCls
  · rw [if_pos ht, if_pos ht]
    subst ht
    simp only [if_true, getF]
    rcases as with _ | ⟨a, as⟩
    · rfl
    · cases a <;> rfl
  rw [if_neg ht, if_neg ht, if_pos rfl]
  by_cases h1 : o = W.tupleCls
  · subst h1
    rw [if_pos rfl, kindOf_tuple hS]
    simp only
    exact tuple_meaning as hs args hlen
  rw [if_neg h1]
  rcases hs with _ | ⟨h, hs⟩
  · obtain ⟨a, ha, -⟩ := hex
    rcases as with _ | ⟨b, as⟩
    · cases ha
    · cases hlen
  simp only [List.map]
  by_cases h2 : o = S.deque
  · subst h2
    rw [if_pos rfl, kindOf_deque hS]
    simp only [getF]
    cases getF h none <;> rfl
  rw [if_neg h2]
  by_cases h3 : o = S.defaultdict
  · subst h3
    rw [if_pos rfl, kindOf_defaultdict hS]
    have hl := har (by simp)
    rw [← hlen] at hl
    rcases hs with _ | ⟨h', _ | _⟩ <;> simp at hl
    simp only [getF, List.map, List.head?, Option.getD]
    cases getF h none <;> cases getF h' none <;> rfl
  rw [if_neg h3]
  by_cases h4 : o ∈ S.iterables
  · rw [if_pos h4, kindOf_iterable hS h4]
    simp only [getF]
    cases getF h none <;> rfl
  rw [if_neg h4]
  by_cases h5 : o ∈ S.mappings
  · rw [if_pos h5, kindOf_mapping hS h5]
    have hl := har (by simp [h5])
    rw [← hlen] at hl
    rcases hs with _ | ⟨h', _ | _⟩ <;> simp at hl
    simp only [getF, List.map, List.head?, Option.getD]
    cases getF h none <;> cases getF h' none <;> rfl
  rw [if_neg h5]
  by_cases h6 : o ∈ S.generics
  · rw [if_pos h6, kindOf_generic hS h6]
    simp only [getF, getFsLate_map, List.map]
    rfl
  · rw [if_neg h6, kindOf_none (by simp [StdClasses.known, ht, h1, h2, h3, h4, h5, h6])]
    simp only [getF, dumbFiller]

mutual
theorem dispatch_meaning {S : StdClasses W} (hS : S.OK) : (t : TypeObj W) → (args : Option (List (Tok W))) → t.Arity S →
    dispatch S t args = getF (t.meaning S) args
  | .cls c, args, _ => by simp only [dispatch, TypeObj.meaning, getF]
  | .none, args, _ => by simp only [dispatch, TypeObj.meaning, getF]
  | .any, args, _ => by simp only [dispatch, TypeObj.meaning, getF]
  | .callableFn, args, _ => by simp only [dispatch, TypeObj.meaning, getF]
  | .newType t, args, ha => by
    simp only [TypeObj.Arity] at ha
    simp only [dispatch, TypeObj.meaning, getF, dispatch_meaning hS t _ ha]
  | .union ts, args, ha => by
    simp only [TypeObj.Arity] at ha
    simp only [dispatch, TypeObj.meaning, getF, dispatchAll_meaning hS ts ha, getFs_sequence]
    rfl
  | .literal id vals, args, _ => by simp only [dispatch, TypeObj.meaning, getF]
  | .alias o as, args, ha => by
    simp only [TypeObj.Arity] at ha
    simp only [dispatch, TypeObj.meaning, dispatchAll_meaning hS as ha.2]
    exact alias_meaning hS o as _ args (meanings_length as) ha.1
  | .annotated t toks, Option.none, ha => by
    simp only [TypeObj.Arity] at ha
    simp only [dispatch, TypeObj.meaning, getF, dispatch_meaning hS t _ ha]
  | .annotated t toks, some args, _ => by simp only [dispatch, TypeObj.meaning, getF, dumbFiller]
  | .typeVar, args, _ => by simp only [dispatch, TypeObj.meaning, getF, dumbFiller]
  | .ellipsis, args, _ => by simp only [dispatch, TypeObj.meaning, getF, dumbFiller]
  | .other, args, _ => by simp only [dispatch, TypeObj.meaning, getF, dumbFiller]
theorem dispatchAll_meaning {S : StdClasses W} (hS : S.OK) : (ts : List (TypeObj W)) → Arities S ts →
    dispatchAll S ts = (meanings S ts).map fun h => getF h none
  | [], _ => by simp only [dispatchAll, meanings, List.map]
  | t :: ts, ha => by
    simp only [Arities] at ha
    simp only [dispatchAll, meanings, List.map, dispatch_meaning hS t none ha.1, dispatchAll_meaning hS ts ha.2]
theorem meanings_length {S : StdClasses W} : (ts : List (TypeObj W)) → (meanings S ts).length = ts.length
  | [] => by simp only [meanings, List.length]
  | t :: ts => by simp only [meanings, List.length, meanings_length ts]
end

/-- **C130.** The library reads a hint as the table says, at any depth. -/
theorem C130_meaning {S : StdClasses W} (hS : S.OK) (t : TypeObj W) (ha : t.Arity S) : dispatch S t none = getFiller (t.meaning S) :=
  dispatch_meaning hS t none ha

/-! ### equivalent hints -/

theorem dispatch_ordinary {S : StdClasses W} {t : TypeObj W} (ht : t.ordinary = true) (args : Option (List (Tok W))) :
    dispatch S t (some (args.getD [])) = dispatch S t args := by
  cases args with
  | some l => rfl
  | none => cases t <;> simp [TypeObj.ordinary] at ht <;> simp only [dispatch, Option.getD]

theorem dispatchAll_append {S : StdClasses W} {t u : TypeObj W} (h : dispatch S t none = dispatch S u none) (pre post : List (TypeObj W)) :
    dispatchAll S (pre ++ t :: post) = dispatchAll S (pre ++ u :: post) := by
  induction pre with
  | nil => simp only [List.nil_append, dispatchAll, h]
  | cons p pre ih => simp only [List.cons_append, dispatchAll, ih]

theorem variadic_append {t u : TypeObj W} (h : t.isDots = u.isDots) (pre post : List (TypeObj W)) :
    variadic (pre ++ t :: post) = variadic (pre ++ u :: post) := by
  rcases pre with _ | ⟨p, _ | ⟨q, pre⟩⟩
  · rcases post with _ | ⟨r, _ | _⟩ <;> rfl
  · rcases post with _ | ⟨r, post⟩
    · exact h
    · rfl
  · rcases pre with _ | ⟨r, pre⟩ <;> rfl

/-- what a step keeps -/
theorem same_step {S : StdClasses W} (hS : S.OK) {t u : TypeObj W} (h : SameType S t u) :
    (∀ args, dispatch S t args = dispatch S u args) ∧ t.isVar = u.isVar ∧ t.isDots = u.isDots := by
  have htk : W.typeCls ∈ S.known := by simp [StdClasses.known]
  induction h with
  | refl t => exact ⟨fun _ => rfl, rfl, rfl⟩
  | symm _ ih => exact ⟨fun a => (ih.1 a).symm, ih.2.1.symm, ih.2.2.symm⟩
  | trans _ _ ih1 ih2 => exact ⟨fun a => (ih1.1 a).trans (ih2.1 a), ih1.2.1.trans ih2.2.1, ih1.2.2.trans ih2.2.2⟩
  | any => exact ⟨fun a => by simp only [dispatch], rfl, rfl⟩
  | none => exact ⟨fun a => by simp only [dispatch], rfl, rfl⟩
  | callable as =>
    refine ⟨fun a => ?_, rfl, rfl⟩
    simp only [dispatch, aliasFiller]
    have : S.callable ≠ W.typeCls := fun h => hS.2 (h ▸ htk)
    simp only [if_neg this, if_true]
  | bare o as hc hv =>
    refine ⟨fun a => ?_, rfl, rfl⟩
    have hh : hasArgs as = false := by
      cases hx : hasArgs as with
      | false => rfl
      | true =>
        obtain ⟨a, ha, hb⟩ := hasArgs_eq.1 hx
        rw [hv a ha] at hb; cases hb
    simp only [dispatch, aliasFiller, hh]
    by_cases ht : o = W.typeCls
    · rw [if_pos ht]; subst ht; rfl
    · rw [if_neg ht, if_neg hc]; rfl
  | newType t ht =>
    refine ⟨fun a => ?_, ?_, ?_⟩
    · simp only [dispatch]; exact dispatch_ordinary ht a
    · cases t <;> first | rfl | cases ht
    · cases t <;> first | rfl | cases ht
  | inNewType _ ih => exact ⟨fun a => by simp only [dispatch, ih.1], rfl, rfl⟩
  | inAnnotated _ ih => exact ⟨fun a => by cases a <;> simp only [dispatch, ih.1], rfl, rfl⟩
  | inUnion pre post _ ih => exact ⟨fun a => by simp only [dispatch, dispatchAll_append (ih.1 none) pre post], rfl, rfl⟩
  | @inAlias t u o pre post ho _ ih =>
    refine ⟨fun a => ?_, rfl, rfl⟩
    have hh : hasArgs (pre ++ t :: post) = hasArgs (pre ++ u :: post) := by simp [hasArgs, ih.2.1]
    have hk : S.kindOf o ≠ some .type := fun h => ho (kindOf_type h)
    simp only [dispatch, dispatchAll_append (ih.1 none) pre post, aliasFiller, hh, variadic_append ih.2.2 pre post]
    rw [if_neg ho, if_neg ho]
    cases hk' : S.kindOf o with
    | none => rfl
    | some k => cases k <;> first | rfl | exact absurd hk' hk

/-- **C130.** Equivalent hints make the same filler, with or without tokens. -/
theorem C130_same {S : StdClasses W} (hS : S.OK) {t u : TypeObj W} (h : SameType S t u) (args : Option (List (Tok W))) :
    dispatch S t args = dispatch S u args := (same_step hS h).1 args

/-- **C130.** A mapping type with another number of parameters than two is refused with ValueError. -/
theorem C130_arity {S : StdClasses W} (hS : S.OK) {o : W.Cls} {as : List (TypeObj W)} {args : Option (List (Tok W))}
    (ho : o ∈ S.defaultdict :: S.mappings) (hv : ∃ a ∈ as, a.isVar = false) (hn : as.length ≠ 2) :
    dispatch S (.alias o as) args = .error .valueError := by
  have hlen : ∀ ts : List (TypeObj W), (dispatchAll S ts).length = ts.length := by
    intro ts
    induction ts with
    | nil => simp only [dispatchAll, List.length]
    | cons t ts ih => simp only [dispatchAll, List.length, ih]
  have hk : S.kindOf o = some .mapping ∨ S.kindOf o = some .defaultdict := by
    rcases List.mem_cons.1 ho with rfl | ho
    · exact .inr (kindOf_defaultdict hS)
    · exact .inl (kindOf_mapping hS ho)
  have hkn : o ∈ S.known := by
    rcases List.mem_cons.1 ho with rfl | ho
    · simp [StdClasses.known]
    · simp [StdClasses.known, ho]
  have ht : o ≠ W.typeCls := by
    rintro rfl
    have := (kindOf_iff hS (o := W.typeCls) (k := .type)).2 (by simp [StdClasses.origins])
    rw [this] at hk
    rcases hk with h | h <;> cases h
  simp only [dispatch, aliasFiller]
  rw [if_neg ht, if_neg fun (h : o = S.callable) => hS.2 (h ▸ hkn), if_pos (hasArgs_eq.2 hv)]
  have hl := hlen as
  rcases hk with h | h <;> rw [h] <;> simp only <;> split <;> rename_i heq <;> first | rfl | (rw [heq] at hl; exact absurd hl.symm hn)

/-- **C130.** Further parameters of `list` and the like are ignored. -/
theorem C130_extra {S : StdClasses W} (hS : S.OK) {o : W.Cls} {a : TypeObj W} {more : List (TypeObj W)} {args : Option (List (Tok W))}
    (ho : o ∈ S.deque :: S.iterables) (ha : a.isVar = false) :
    dispatch S (.alias o (a :: more)) args = dispatch S (.alias o [a]) args := by
  have hk : S.kindOf o = some .iterable ∨ S.kindOf o = some .deque := by
    rcases List.mem_cons.1 ho with rfl | ho
    · exact .inr (kindOf_deque hS)
    · exact .inl (kindOf_iterable hS ho)
  have ht : o ≠ W.typeCls := by
    rintro rfl
    have := (kindOf_iff hS (o := W.typeCls) (k := .type)).2 (by simp [StdClasses.origins])
    rw [this] at hk
    rcases hk with h | h <;> cases h
  have h1 : ∀ l : List (TypeObj W), hasArgs (a :: l) = true := fun l => hasArgs_eq.2 ⟨a, by simp, ha⟩
  simp only [dispatch, aliasFiller, h1, dispatchAll]
  rw [if_neg ht, if_neg ht]
  by_cases hc : o = S.callable
  · rw [if_pos hc, if_pos hc]
  · rw [if_neg hc, if_neg hc]
    rcases hk with h | h <;> rw [h] <;> cases dispatch S a none <;> rfl

/-- **C130.** Other classes with parameters cannot be interpreted: such a field is accepted only without tokens and in a class that does not
check by default. -/
theorem C130_unknown {S : StdClasses W} {o : W.Cls} {as : List (TypeObj W)} (ho : o ∉ S.known) (hc : o ≠ S.callable)
    (hv : ∃ a ∈ as, a.isVar = false) :
    dispatch S (.alias o as) none = getFiller .opaque ∧
    ∀ toks, toks ≠ [] → dispatch S (.annotated (.alias o as) toks) none = .error .typeError := by
  have ht : o ≠ W.typeCls := by
    rintro rfl
    exact ho (by simp [StdClasses.known])
  have key : ∀ args, dispatch S (.alias o as) args = dumbFiller (args.getD []) := by
    intro args
    simp only [dispatch, aliasFiller]
    rw [if_neg ht, if_neg hc, if_pos (hasArgs_eq.2 hv), kindOf_none ho]
  refine ⟨by rw [key]; rfl, fun toks hne => ?_⟩
  simp only [dispatch] at key ⊢
  rw [key]
  cases toks with
  | nil => exact absurd rfl hne
  | cons => rfl

end Records

namespace Records.Toy.Dis
open Records

/-- the standard classes of the toy world -/
def std : StdClasses Toy.W where
  deque := .deque
  defaultdict := .defaultdict
  sequence := .sequenceABC
  mutableSequence := .record 101
  setAbc := .record 102
  mutableSet := .record 103
  list := .list
  set := .set
  frozenset := .record 104
  iterable := .record 105
  iterator := .record 106
  reversible := .record 107
  collection := .record 108
  container := .record 109
  asyncIterator := .record 110
  asyncIterable := .record 111
  contextManager := .record 112
  asyncContextManager := .record 113
  mapping := .record 114
  mutableMapping := .record 115
  dict := .dict
  asyncGenerator := .record 116
  generator := .record 117
  callable := .record 118

theorem std_ok : std.OK := by
  unfold StdClasses.OK
  exact ⟨by decide, by decide⟩

/-- `Union[List[Any], Callable[[int], str], Tuple[Dict[str, None], ...]]` -/
def long : TypeObj Toy.W := .union [.alias (.list : TCls) [.any], .alias (.record 118 : TCls) [.other, .cls (.str : TCls)],
  .alias (.tuple : TCls) [.alias (.dict : TCls) [.cls (.str : TCls), .none], .ellipsis]]
/-- `Union[List[object], callable, Tuple[Dict[str, NoneType], ...]]` -/
def short : TypeObj Toy.W := .union [.alias (.list : TCls) [.cls (.object : TCls)], .callableFn,
  .alias (.tuple : TCls) [.alias (.dict : TCls) [.cls (.str : TCls), .cls (.none : TCls)], .ellipsis]]

theorem long_short : SameType std long short := by
  refine .trans (.inUnion [] _ (.inAlias [] [] nofun .any)) ?_
  refine .trans (.inUnion [_] _ (.callable _)) ?_
  exact .inUnion [_, _] [] (.inAlias [] [_] nofun (.inAlias [_] [] nofun .none))

example : dispatch std long none = dispatch std short none := C130_same std_ok long_short none
example : long.Arity std := by
  have h1 : ∀ c : TCls, c ≠ .defaultdict → c ≠ .dict → (∀ n, c ≠ .record n) →
      ¬ (c ∈ ([.defaultdict, .record 114, .record 115, .dict] : List TCls)) := by
    intro c a b d hm
    simp only [List.mem_cons, List.not_mem_nil, or_false] at hm
    rcases hm with h | h | h | h
    · exact a h
    · exact d _ h
    · exact d _ h
    · exact b h
  refine ⟨⟨fun _ h => (h1 .list nofun nofun nofun h).elim, trivial, trivial⟩,
    ⟨fun _ h => ?_, trivial, trivial, trivial⟩, ⟨fun _ h => (h1 .tuple nofun nofun nofun h).elim, ⟨fun _ _ => rfl, trivial, trivial, trivial⟩, trivial, trivial⟩, trivial⟩
  rfl
example : short.meaning std = .union [.iter (.list : TCls) (.cls (.object : TCls)), .callable,
    .tupleVar (.mapping (.dict : TCls) (.cls (.str : TCls)) (.cls (.none : TCls)))] := rfl

-- `dict[str]` is refused, `list[int, str]` is `list[int]`, an unknown generic cannot be interpreted
example : dispatch std (.alias (.dict : TCls) [.cls (.str : TCls)]) none = .error .valueError :=
  C130_arity std_ok (by show TCls.dict ∈ ([.defaultdict, .record 114, .record 115, .dict] : List TCls); decide) ⟨_, List.mem_singleton.2 rfl, rfl⟩ (by decide)
example : dispatch std (.alias (.list : TCls) [.cls (.int : TCls), .cls (.str : TCls)]) none =
    dispatch std (.alias (.list : TCls) [.cls (.int : TCls)]) none := C130_extra std_ok (by
      show TCls.list ∈ ([.deque, .sequenceABC, .record 101, .record 102, .record 103, .list, .set, .record 104] : List TCls); decide) rfl
example : dispatch std (.alias (.record 1 : TCls) [.cls (.int : TCls)]) none = .ok (.dumb false) :=
  (C130_unknown (S := std) (by
      show TCls.record 1 ∉ ([.tuple, .type, .deque, .defaultdict, .sequenceABC, .record 101, .record 102, .record 103, .list, .set,
        .record 104, .record 114, .record 115, .dict, .record 105, .record 106, .record 107, .record 108, .record 109, .record 110,
        .record 111, .record 112, .record 113, .record 116, .record 117] : List TCls)
      decide)
    (by show TCls.record 1 ≠ TCls.record 118; decide) ⟨_, List.mem_singleton.2 rfl, rfl⟩).1

-- `Type[Any]` refuses `int`, `Type[object]` takes it
example : (match makeFiller (W := Toy.W) .check [] (TypeObj.meaning std (.alias (.type : TCls) [.any])) with
    | .ok f => (f.call (.cls .int) s0).1
    | .error e => .error e) = .error .typeError := rfl
example : (match makeFiller (W := Toy.W) .check [] (TypeObj.meaning std (.alias (.type : TCls) [.cls (.object : TCls)])) with
    | .ok f => (f.call (.cls .int) s0).1
    | .error e => .error e) = .ok (.cls .int) := rfl

end Records.Toy.Dis

namespace Records

/-- that equivalent types are equivalent as parameters of `Type` -/
def C130_claim : Prop := ∀ (W : World) (S : StdClasses W), S.OK → ∀ t u, SameType S t u → ∀ args,
  dispatch S (.alias W.typeCls [t]) args = dispatch S (.alias W.typeCls [u]) args

/-- `Type[Any]` and `Type[object]` are different: the first refuses every class. -/
theorem C130_refuted : ¬ C130_claim := by
  intro h
  have := h Toy.W Toy.Dis.std Toy.Dis.std_ok _ _ .any none
  have hf : ∀ (b : Option Toy.TCls), dispatch (W := Toy.W) Toy.Dis.std (.alias (W := Toy.W) (.type : Toy.TCls) [.any]) none =
      .ok (.wrap false (.typeF b) (classAnn (W := Toy.W) (.type : Toy.TCls) []) []) → b = none := by
    intro b hb
    change (.ok (.wrap false (.typeF none) (classAnn (W := Toy.W) (.type : Toy.TCls) []) []) : Except Exc (F Toy.W)) = _ at hb
    injection hb with hb
    injection hb with _ hb
    injection hb with hb
    exact hb.symm
  have := hf (some .object) this
  cases this

end Records
