import Verif.Spec.Program
import Verif.Spec.Parse
import Verif.Proofs.Program
import Verif.Props.Class
import Verif.Props.Parse
/-
Properties of whole programs (C97, C98; program forms of C44, C87 and C88).
-/
namespace Records
variable {W : World}

/-! ### C97 -/

theorem ownDict_get? {E : PyEnv W} {st : PyStmt W} {n : String} :
    (st.ownDict E).get? n =
      if n ∈ st.fieldNames then some { value := .value (E.fieldObj st.cid n) } else (Dict.update [] st.attrs).get? n := by
  have hnd : st.fieldNames.Nodup := by
    have := Dict.WF.update (d := []) List.nodup_nil st.anns
    exact List.Nodup.sublist (List.Sublist.map _ List.filter_sublist) this
  unfold PyStmt.ownDict
  have hwf : Dict.WF (st.fieldNames.map fun n => (n, ({ value := .value (E.fieldObj st.cid n) } : Attr W))) := by
    simpa [Dict.WF, Dict.keys, Function.comp_def] using hnd
  rw [Dict.get?_update _ _ hwf]
  split
  · next hn =>
    rw [Dict.mem_get? _ hwf n { value := .value (E.fieldObj st.cid n) } (List.mem_map.2 ⟨n, hn, rfl⟩)]
    rfl
  · next hn =>
    rw [(Dict.get?_eq_none_iff _ _).2 (by simpa [Dict.keys, Function.comp_def] using hn)]
    rfl

/-- the parsers of a class that has just been created -/
theorem parsersOf_spec {tbl : List (PyClass W)} (hn : (tbl.map (·.cid)).Nodup) (cid : W.Cls) (own : Dict (Attr W)) (l : List W.Cls) :
    ∃ ps : List (String × Parser W), parsersOf tbl cid own l = ps.map (·.2) ∧ (ps.map (·.1)).Pairwise (· < ·) ∧
      ∀ n p, (n, p) ∈ ps ↔ ∃ a g, (own.get? n = some a ∨ own.get? n = none ∧ Resolves tbl l n a) ∧ a.parser = some g ∧ p = g cid := by
  let look : String → Option (Parser W) := fun n =>
    match own.get? n with
    | some a => a.parser.map (· cid)
    | none => match firstOf tbl (fun k => k.dict.get? n) l with
      | some a => a.parser.map (· cid)
      | none => none
  have hlook : ∀ n p, look n = some p ↔
      ∃ a g, (own.get? n = some a ∨ own.get? n = none ∧ Resolves tbl l n a) ∧ a.parser = some g ∧ p = g cid := by
    intro n p
    show (match own.get? n with
      | some a => a.parser.map (· cid)
      | none => match firstOf tbl (fun k => k.dict.get? n) l with
        | some a => a.parser.map (· cid)
        | none => none) = some p ↔ _
    cases ho : own.get? n with
    | some a =>
      simp only [Option.map_eq_some_iff, Option.some.injEq]
      constructor
      · rintro ⟨g, hg, rfl⟩; exact ⟨a, g, .inl rfl, hg, rfl⟩
      · rintro ⟨a', g, h | h, hg, rfl⟩
        · cases h; exact ⟨g, hg, rfl⟩
        · cases h.1
    | none =>
      cases hf : firstOf tbl (fun k => k.dict.get? n) l with
      | some a =>
        have hr := (firstOf_some hn).1 hf
        simp only [Option.map_eq_some_iff]
        constructor
        · rintro ⟨g, hg, rfl⟩; exact ⟨a, g, .inr ⟨trivial, hr⟩, hg, rfl⟩
        · rintro ⟨a', g, h | h, hg, rfl⟩
          · cases h
          · have := (firstOf_some hn).2 h.2
            rw [hf] at this; cases this
            exact ⟨g, hg, rfl⟩
      | none =>
        simp only
        constructor
        · nofun
        · rintro ⟨a', g, h | h, hg, rfl⟩
          · cases h
          · have := (firstOf_some hn).2 h.2
            rw [hf] at this; cases this
  let names := sortNames (own.keys ++ l.flatMap fun c => match findClass tbl c with | some k => k.dict.keys | none => [])
  have hnames := sortNames_spec (own.keys ++ l.flatMap fun c => match findClass tbl c with | some k => k.dict.keys | none => [])
  refine ⟨names.filterMap fun n => (look n).map fun p => (n, p), ?_, ?_, ?_⟩
  · show names.filterMap look = _
    rw [List.map_filterMap]
    congr 1
    funext n
    rw [Option.map_map]
    exact Option.map_id'.symm
  · rw [List.map_filterMap]
    refine List.Pairwise.sublist ?_ hnames.1
    show (names.filterMap _).Sublist names
    clear_value names
    clear hnames
    induction names with
    | nil => exact List.Sublist.refl _
    | cons m names ih =>
      rw [List.filterMap_cons]
      cases look m with
      | none => exact ih.cons _
      | some p => exact ih.cons_cons _
  · intro n p
    rw [List.mem_filterMap]
    constructor
    · rintro ⟨m, -, hm⟩
      obtain ⟨p', hp', he⟩ := Option.map_eq_some_iff.1 hm
      cases he
      exact (hlook _ _).1 hp'
    · intro h
      have hl := (hlook n p).2 h
      refine ⟨n, (hnames.2 n).2 ?_, by rw [hl]; rfl⟩
      obtain ⟨a, g, h1 | ⟨-, pre, d, post, rfl, ⟨k, hk, rfl, hg⟩, -⟩, -, -⟩ := h
      · exact List.mem_append_left _ ((Dict.get?_isSome_iff _ _).1 (h1 ▸ rfl))
      · refine List.mem_append_right _ (List.mem_flatMap.2 ⟨k.cid, by simp, ?_⟩)
        rw [findClass_of_mem hn hk]
        exact (Dict.get?_isSome_iff _ _).1 (Option.isSome_iff_exists.2 ⟨_, hg⟩)

/-- how a record class of a program was made; lookups in the final table -/
theorem Reach.record {E : PyEnv W} {tbl : List (PyClass W)} (hr : Reach E tbl) {c : PyClass W} {C : RecClass W}
    (hc : IsRecord tbl c C) :
    ∃ tbl0 rest st l, tbl = tbl0 ++ rest ∧ Reach E tbl0 ∧ (∀ k ∈ tbl0, k.cid ≠ st.cid) ∧ newClass E tbl0 st = .ok c ∧
      c.cid = st.cid ∧ c.mro = st.cid :: l ∧ c.pre = st.pre ∧ c.postNew = st.postNew ∧ c.truthy = st.truthy ∧
      c.dict = st.ownDict E ∧ mkClass (st.spec E tbl0 c.bases l) = .ok C ∧ (∀ b ∈ c.bases, ∃ k ∈ tbl0, k.cid = b) ∧
      ∀ {β : Type} (g : PyClass W → Option β), firstOf tbl g c.mro = match g c with
        | some b => some b
        | none => firstOf tbl0 g l := by
  obtain ⟨hc, hC⟩ := hc
  rcases hr.made hc with rfl | rfl | ⟨tbl0, rest, st, rfl, hr0, hf, hb, hnew⟩
  · cases hC
  · cases hC
  have ht := hr.table
  have ht0 := hr0.table
  obtain ⟨l, hl, hcid, hbases, hmro, -, hpre, hpn, htr, ⟨hrb, C', hmk, hC', hdict⟩ | ⟨-, hC', -⟩⟩ := newClass_ok hnew
  · rw [hC] at hC'; cases hC'
    have hbs' : ∀ b ∈ c.bases, ∃ k ∈ tbl0, k.cid = b := by
      intro b hbm
      rw [hbases] at hbm
      split at hbm
      · obtain ⟨r0, rfl⟩ := ht0.start
        exact ⟨_, List.mem_cons_self, (List.mem_singleton.1 hbm).symm⟩
      · exact hb b hbm
    refine ⟨tbl0, rest, st, l, rfl, hr0, hf, hnew, hcid, hmro, hpre, hpn, htr, hdict, hmk, hbs', fun g => ?_⟩
    have hl0 : ∀ d ∈ l, ∃ k ∈ tbl0, k.cid = d := by
      intro d hd
      obtain ⟨kb, hkb, -, hdk, -⟩ := newClass_via ht0 hbs' hl hd
      exact ht0.known kb hkb d hdk
    have hfind : findClass (tbl0 ++ rest) st.cid = some c := by rw [← hcid]; exact findClass_of_mem ht.nodup hc
    rw [hmro]
    simp only [firstOf, hfind, Option.bind_some, firstOf_append hl0]
    cases g c <;> rfl
  · rw [hC] at hC'; cases hC'

/-- C97: the parsers of a record class, in the order of `parse`: for every name, in sorted order, whose nearest definition in
the method resolution order is marked, that parser on the class; nothing else. -/
theorem C97_parsers {E : PyEnv W} {tbl : List (PyClass W)} (hr : Reach E tbl) {c : PyClass W} {C : RecClass W}
    (hc : IsRecord tbl c C) :
    ∃ ps : List (String × Parser W), C.parsers = ps.map (·.2) ∧ (ps.map (·.1)).Pairwise (· < ·) ∧
      ∀ n p, (n, p) ∈ ps ↔ ∃ a g, Resolves tbl c.mro n a ∧ a.parser = some g ∧ p = g c.cid := by
  obtain ⟨tbl0, rest, st, l, rfl, hr0, hf, -, hcid, hmro, -, -, -, hdict, hmk, -, hfirst⟩ := hr.record hc
  have ht0 := hr0.table
  have hok := spec_ok (E := E) ht0 hf c.bases l
  obtain ⟨_, _, -, -, -, -, -, -, -, -, -, -, -, -, -, -, hp, -⟩ := mkClass_ok hok.1 hmk
  obtain ⟨ps, h1, h2, h3⟩ := parsersOf_spec ht0.nodup st.cid (st.ownDict E) l
  refine ⟨ps, hp.trans h1, h2, fun n p => ?_⟩
  rw [h3, hcid]
  have hres : ∀ a, ((st.ownDict E).get? n = some a ∨ (st.ownDict E).get? n = none ∧ Resolves tbl0 l n a) ↔
      Resolves (tbl0 ++ rest) c.mro n a := by
    intro a
    unfold Resolves Nearest
    rw [← firstOf_some hr.table.nodup (g := fun k => k.dict.get? n), ← firstOf_some ht0.nodup (g := fun k => k.dict.get? n),
      hfirst, hdict]
    cases (st.ownDict E).get? n with
    | some b => simp
    | none => simp
  constructor
  · rintro ⟨a, g, h, hg, rfl⟩; exact ⟨a, g, (hres a).1 h, hg, rfl⟩
  · rintro ⟨a, g, h, hg, rfl⟩; exact ⟨a, g, (hres a).2 h, hg, rfl⟩

/-- C97: a marked parser of a class is a parser of every subclass in which no nearer class has an attribute of that name. -/
theorem C97_inherited {E : PyEnv W} {tbl : List (PyClass W)} (hr : Reach E tbl) {c k : PyClass W} {C : RecClass W}
    (hc : IsRecord tbl c C) (hk : k ∈ tbl) {pre post : List W.Cls} (hm : c.mro = pre ++ k.cid :: post) {n : String} {a : Attr W}
    {g : W.Cls → Parser W} (ha : k.dict.get? n = some a) (hg : a.parser = some g) (hno : LacksAttr tbl pre n) :
    g c.cid ∈ C.parsers := by
  obtain ⟨ps, h1, -, h3⟩ := C97_parsers hr hc
  rw [h1]
  exact List.mem_map.2 ⟨(n, g c.cid), (h3 _ _).2 ⟨a, g, ⟨pre, k.cid, post, hm, ⟨k, hk, rfl, ha⟩, hno⟩, hg, rfl⟩, rfl⟩

/-- C97: a parser is taken from a superclass (or the class) where it is marked, and no nearer class has an attribute of its
name: an unmarked attribute - a method, a value, a field - of the same name in a nearer class removes it. -/
theorem C97_from {E : PyEnv W} {tbl : List (PyClass W)} (hr : Reach E tbl) {c : PyClass W} {C : RecClass W}
    (hc : IsRecord tbl c C) {p : Parser W} (hp : p ∈ C.parsers) :
    ∃ k ∈ tbl, ∃ pre post n a g, c.mro = pre ++ k.cid :: post ∧ k.dict.get? n = some a ∧ a.parser = some g ∧ p = g c.cid ∧
      LacksAttr tbl pre n := by
  obtain ⟨ps, h1, -, h3⟩ := C97_parsers hr hc
  rw [h1] at hp
  obtain ⟨⟨n, p⟩, hm, rfl⟩ := List.mem_map.1 hp
  obtain ⟨a, g, ⟨pre, d, post, hmro, ⟨k, hk, rfl, ha⟩, hno⟩, hg, rfl⟩ := (h3 n p).1 hm
  exact ⟨k, hk, pre, post, n, a, g, hmro, ha, hg, rfl, hno⟩

/-- C97: the own fields of a record class are attributes that are not parsers: a field named like an inherited parser removes
that parser. -/
theorem C97_field_shadows {E : PyEnv W} {tbl : List (PyClass W)} (hr : Reach E tbl) {st : PyStmt W} {c : PyClass W} {C : RecClass W}
    (hf : ∀ k ∈ tbl, k.cid ≠ st.cid) (hb : ∀ b ∈ st.bases, ∃ k ∈ tbl, k.cid = b) (hi : ∀ n ∈ st.fieldNames, n ∉ E.internal)
    (h : newClass E tbl st = .ok c) (hC : c.rcd = some C) {n : String} (hn : n ∈ st.fieldNames) :
    (∃ a, c.dict.get? n = some a ∧ a.parser = none) ∧
      ∃ ps : List (String × Parser W), C.parsers = ps.map (·.2) ∧ n ∉ ps.map (·.1) ∧
        ∀ m p, (m, p) ∈ ps ↔ ∃ a g, Resolves (tbl ++ [c]) c.mro m a ∧ a.parser = some g ∧ p = g c.cid := by
  have hr' : Reach E (tbl ++ [c]) := .stmt tbl st c hr hf hb hi h
  have hcm : c ∈ tbl ++ [c] := List.mem_append_right _ (List.mem_singleton.2 rfl)
  have hd : c.dict.get? n = some { value := .value (E.fieldObj st.cid n) } := by
    obtain ⟨l, -, -, -, -, -, -, -, -, ⟨-, C', -, -, hdict⟩ | ⟨-, hC', -⟩⟩ := newClass_ok h
    · rw [hdict, ownDict_get?, if_pos hn]
    · rw [hC] at hC'; cases hC'
  obtain ⟨ps, h1, -, h3⟩ := C97_parsers hr' ⟨hcm, hC⟩
  refine ⟨⟨_, hd, rfl⟩, ps, h1, ?_, h3⟩
  intro hm
  obtain ⟨⟨m, p⟩, hmp, rfl⟩ := List.mem_map.1 hm
  obtain ⟨a, g, hres, hg, -⟩ := (h3 m p).1 hmp
  obtain ⟨pre, d, post, hmro, ⟨k, hk, rfl, ha⟩, hno⟩ := hres
  obtain ⟨l, hl⟩ := hr'.table.head c hcm
  rw [hl] at hmro
  cases pre with
  | nil =>
    simp only [List.nil_append, List.cons.injEq] at hmro
    have := mem_unique hr'.table.nodup hk hcm hmro.1.symm
    subst this
    dsimp only at ha hd
    rw [hd] at ha; cases ha
    cases hg
  | cons e pre =>
    simp only [List.cons_append, List.cons.injEq] at hmro
    have := hno e List.mem_cons_self c hcm hmro.1
    dsimp only at this hd
    rw [hd] at this; cases this

theorem RunAll.length_le {P : Type} {run : P → M W (Res W)} {ps : List P} {s s' : LState W} {rs : List (Res W)}
    (h : RunAll run ps s rs s') {qs : List P} (hq : qs.Sublist ps) (hok : ∀ q ∈ qs, ∀ t, ∃ r t', run q t = (.ok r, t')) :
    qs.length ≤ rs.length := by
  induction h generalizing qs with
  | nil => rw [List.sublist_nil.1 hq]; simp
  | @ok p ps s r s1 rs s2 h1 _ ih =>
    cases hq with
    | cons _ h' => exact Nat.le_succ_of_le (ih h' hok)
    | cons_cons _ h' => exact Nat.succ_le_succ (ih h' fun q hq => hok q (List.mem_cons_of_mem _ hq))
  | @fail p ps s e s1 rs s2 h1 he _ ih =>
    cases hq with
    | cons _ h' => exact ih h' hok
    | cons_cons _ h' =>
      obtain ⟨r, t', hr⟩ := hok p List.mem_cons_self s
      rw [h1] at hr; cases hr

/-- C97: if two names of a class resolve to marked attributes whose parsers both accept the argument - for instance, to the
same parser: an alias, or an override that keeps the original under another name - then `parse` does not return. -/
theorem C97_alias {E : PyEnv W} {tbl : List (PyClass W)} (hr : Reach E tbl) {c : PyClass W} {C : RecClass W}
    (hc : IsRecord tbl c C) {n m : String} (hne : n ≠ m) {a b : Attr W} {g g' : W.Cls → Parser W}
    (ha : Resolves tbl c.mro n a) (hb : Resolves tbl c.mro m b) (hg : a.parser = some g) (hg' : b.parser = some g')
    {Ev : Env W} {call : Dict W.Obj → M W (Res W)} {v : W.Obj}
    (h1 : ∀ s, ∃ r s', (g c.cid).run Ev C call v s = (.ok r, s')) (h2 : ∀ s, ∃ r s', (g' c.cid).run Ev C call v s = (.ok r, s'))
    (s : LState W) :
    (∀ r, (parseWith Ev C call v s).1 ≠ .ok r) ∧
      ((∀ p ∈ C.parsers, ∀ t, Ordinary (p.run Ev C call v t).1) → (parseWith Ev C call v s).1 = .error .typeError) := by
  obtain ⟨ps, hps, hsort, hmem⟩ := C97_parsers hr hc
  have hm1 := (hmem n (g c.cid)).2 ⟨a, g, ha, hg, rfl⟩
  have hm2 := (hmem m (g' c.cid)).2 ⟨b, g', hb, hg', rfl⟩
  have hsub : ∃ qs : List (Parser W), qs.length = 2 ∧ (∀ q ∈ qs, q = g c.cid ∨ q = g' c.cid) ∧ qs.Sublist C.parsers := by
    obtain ⟨l1, l2, rfl⟩ := List.append_of_mem hm1
    rw [hps]
    rcases List.mem_append.1 hm2 with h | h
    · obtain ⟨l3, l4, rfl⟩ := List.append_of_mem h
      refine ⟨[g' c.cid, g c.cid], rfl, by simp [or_comm], ?_⟩
      simp only [List.append_assoc, List.map_append, List.map_cons, List.cons_append]
      exact ((((List.nil_sublist _).cons_cons (g c.cid)).trans (List.sublist_append_right _ _)).cons_cons _).trans
        (List.sublist_append_right _ _)
    · rcases List.mem_cons.1 h with h | h
      · exact absurd (congrArg Prod.fst h).symm hne
      · obtain ⟨l3, l4, rfl⟩ := List.append_of_mem h
        refine ⟨[g c.cid, g' c.cid], rfl, by simp, ?_⟩
        simp only [List.map_append, List.map_cons]
        exact ((((List.nil_sublist _).cons_cons (g' c.cid)).trans (List.sublist_append_right _ _)).cons_cons _).trans
          (List.sublist_append_right _ _)
  obtain ⟨qs, hlen, hqs, hsub⟩ := hsub
  have hok : ∀ q ∈ qs, ∀ t, ∃ r t', q.run Ev C call v t = (.ok r, t') := by
    intro q hq
    rcases hqs q hq with rfl | rfl
    · exact h1
    · exact h2
  rcases C57_cases (Parser.run Ev C call v) C.parsers s with ⟨rs, s', h⟩ | ⟨e, s', h⟩
  · have hle := h.length_le hsub hok
    rw [hlen] at hle
    obtain ⟨x, hx, -, -, h3⟩ := C57_parse h
    have := h3.2 hle
    subst this
    rw [hx]
    exact ⟨nofun, fun _ => rfl⟩
  · rw [C57_interrupted h]
    refine ⟨nofun, fun ho => ?_⟩
    exfalso
    generalize C.parsers = ps' at ho h
    induction h with
    | @here p _ t _ _ h1 he =>
      have := ho p List.mem_cons_self t
      rw [h1] at this
      exact absurd this (by simp [Ordinary, he])
    | ok _ _ ih => exact ih fun p hp => ho p (List.mem_cons_of_mem _ hp)
    | fail _ _ _ ih => exact ih fun p hp => ho p (List.mem_cons_of_mem _ hp)

/-- C97: `post_new` and `__bool__` of a record class are those of the nearest class of its order that defines them, record
class or not; by default `post_new` does nothing and records are true. -/
theorem C97_hooks {E : PyEnv W} {tbl : List (PyClass W)} (hr : Reach E tbl) {c : PyClass W} {C : RecClass W}
    (hc : IsRecord tbl c C) :
    (∀ h, Nearest tbl (·.postNew) c.mro h → C.postNew = h) ∧
    ((∀ d ∈ c.mro, ∀ k ∈ tbl, k.cid = d → k.postNew = none) → ∀ i, C.postNew i = M.pure (i, none)) ∧
    (∀ h, Nearest tbl (·.truthy) c.mro h → C.truthy = h) ∧
    ((∀ d ∈ c.mro, ∀ k ∈ tbl, k.cid = d → k.truthy = none) → ∀ i, C.truthy i = true) := by
  have ht := hr.table
  obtain ⟨tbl0, rest, st, l, rfl, hr0, hf, -, hcid, hmro, -, hpn, htr, hdict, hmk, -, hfirst⟩ := hr.record hc
  have hok := spec_ok (E := E) hr0.table hf c.bases l
  obtain ⟨_, _, -, -, -, -, -, -, -, -, -, -, -, -, -, -, -, h1, h2, -⟩ := mkClass_ok hok.1 hmk
  have e1 : C.postNew = (firstOf (tbl0 ++ rest) (·.postNew) c.mro).getD fun i => M.pure (i, none) := by
    rw [h1, hfirst, hpn]
    show (match st.postNew with
      | some p => p
      | none => (firstOf tbl0 (·.postNew) l).getD fun i => M.pure (i, none)) = _
    cases st.postNew <;> rfl
  have e2 : C.truthy = (firstOf (tbl0 ++ rest) (·.truthy) c.mro).getD fun _ => true := by
    rw [h2, hfirst, htr]
    show (match st.truthy with
      | some p => p
      | none => (firstOf tbl0 (·.truthy) l).getD fun _ => true) = _
    cases st.truthy <;> rfl
  refine ⟨fun h hn => ?_, fun hn i => ?_, fun h hn => ?_, fun hn i => ?_⟩
  · rw [e1, (firstOf_some ht.nodup).2 hn]; rfl
  · rw [e1, (firstOf_none ht.nodup).2 hn]; rfl
  · rw [e2, (firstOf_some ht.nodup).2 hn]; rfl
  · rw [e2, (firstOf_none ht.nodup).2 hn]; rfl

/-! ### C98 -/

/-- C98: every field of a record class is, unchanged, a field of every subclass - whatever the bodies of the classes in between
assign to its name. -/
theorem C98_inherited {E : PyEnv W} {tbl : List (PyClass W)} (hr : Reach E tbl) {c k : PyClass W} {C D : RecClass W}
    (hc : IsRecord tbl c C) (hk : IsRecord tbl k D) (hs : Super k c) {n : String} {f : Field W} (hf : D.fields.get? n = some f) :
    C.fields.get? n = some f :=
  C45_inherited_field (hr.table.desc c hc.1 k hk.1 C D hc.2 hk.2 hs) hf

theorem Reach.field {E : PyEnv W} {tbl : List (PyClass W)} (hr : Reach E tbl) : ∀ {c : PyClass W} {C : RecClass W},
    IsRecord tbl c C → ∀ {n : String} {f : Field W}, C.fields.get? n = some f →
      ∃ k D, IsRecord tbl k D ∧ Super k c ∧ D.fields.get? n = some f ∧ f.owner = k.cid := by
  induction hr with
  | init =>
    intro c C hc
    obtain ⟨hc, hC⟩ := hc
    simp only [List.mem_cons, List.not_mem_nil, or_false] at hc
    rcases hc with rfl | rfl <;> cases hC
  | stmt tbl st c' h0 hf hb hi hn ih =>
    intro c C hc n f hfl
    have ht := h0.table
    have ht' := table_step ht hf hb hn
    have hr' : Reach E (tbl ++ [c']) := .stmt tbl st c' h0 hf hb hi hn
    have hup : ∀ {k : PyClass W} {D : RecClass W}, IsRecord tbl k D → IsRecord (tbl ++ [c']) k D :=
      fun h => ⟨List.mem_append_left _ h.1, h.2⟩
    rcases List.mem_append.1 hc.1 with hm | hm
    · obtain ⟨k, D, h1, h2, h3⟩ := ih ⟨hm, hc.2⟩ hfl
      exact ⟨k, D, hup h1, h2, h3⟩
    · rw [List.mem_singleton] at hm
      subst hm
      obtain ⟨l, hl, hcid, hbases, hmro, -, -, -, -, ⟨hrb, C', hmk, hC', hdict⟩ | ⟨-, hC', -⟩⟩ := newClass_ok hn
      · obtain ⟨hcm, hC⟩ := hc
        rw [hC] at hC'; cases hC'
        have hok := spec_ok (E := E) ht hf c.bases l
        rcases mkClass_field hok.1 hmk (fun p hpm => (hok.2 p hpm).wf.bound) hfl with
          ⟨p, hpm, hpf, -, -⟩ | ⟨hh, g, -, -, he, hfg, -⟩
        · obtain ⟨b, hbm, hb'⟩ := List.mem_filterMap.1 hpm
          obtain ⟨kb, hkb, hr⟩ := Option.bind_eq_some_iff.1 hb'
          obtain ⟨hkm, rfl⟩ := findClass_some hkb
          have hpw := (ht.creatable kb hkm p hr).wf.nodup
          obtain ⟨k, D, h1, h2, h3⟩ := ih ⟨hkm, hr⟩ (Dict.mem_get? _ (show Dict.WF p.fields from hpw) _ _ hpf)
          refine ⟨k, D, hup h1, ?_, h3⟩
          have hsub := (c3_sound hl).2.1 _ (List.mem_append_left _ (List.mem_map.2 ⟨kb.cid, hbm, rfl⟩))
          rw [hkb] at hsub
          show k.cid ∈ c.mro
          rw [hmro]
          exact List.mem_cons_of_mem _ (hsub.subset h2)
        · obtain ⟨-, -, n3, -⟩ := fieldFromHint_some he
          refine ⟨c, C, ⟨hcm, hC⟩, ?_, hfl, ?_⟩
          · show c.cid ∈ c.mro
            rw [hmro, hcid]; exact List.mem_cons_self
          · rw [hfg, hcid]; exact n3
      · rw [hc.2] at hC'; cases hC'

/-- C98: the fields of a record class are exactly the fields declared by its record superclasses and itself, and each is
declared by just one of them. -/
theorem C98_declared {E : PyEnv W} {tbl : List (PyClass W)} (hr : Reach E tbl) {c : PyClass W} {C : RecClass W}
    (hc : IsRecord tbl c C) (n : String) (f : Field W) :
    (C.fields.get? n = some f ↔ ∃ k D, IsRecord tbl k D ∧ Super k c ∧ D.fields.get? n = some f ∧ f.owner = k.cid) ∧
    ∀ k D f' k' D' f'', IsRecord tbl k D → Super k c → D.fields.get? n = some f' → f'.owner = k.cid →
      IsRecord tbl k' D' → Super k' c → D'.fields.get? n = some f'' → f''.owner = k'.cid → k = k' := by
  refine ⟨⟨fun h => hr.field hc h, fun ⟨k, D, hk, hs, hf, _⟩ => C98_inherited hr hc hk hs hf⟩, ?_⟩
  intro k D f' k' D' f'' hk hs hf ho hk' hs' hf' ho'
  have h1 := C98_inherited hr hc hk hs hf
  have h2 := C98_inherited hr hc hk' hs' hf'
  rw [h1] at h2; cases h2
  exact mem_unique hr.table.nodup hk.1 hk'.1 (ho.symm.trans ho')

/-- C44 for programs: a class with two bases that are, or derive from, one record class cannot be made. -/
theorem C44_program_diamond {E : PyEnv W} {tbl : List (PyClass W)} (hr : Reach E tbl) {st : PyStmt W}
    (hf : ∀ k ∈ tbl, k.cid ≠ st.cid) {b b' k : PyClass W} {D : RecClass W} (hb : b ∈ tbl) (hb' : b' ∈ tbl) (hk : IsRecord tbl k D)
    (hs : Super k b) (hs' : Super k b') {l₁ l₂ l₃ : List W.Cls} (hbs : st.bases = l₁ ++ b.cid :: l₂ ++ b'.cid :: l₃) :
    ∀ c, newClass E tbl st ≠ .ok c := by
  intro c h
  have ht := hr.table
  obtain ⟨l, hl, hcid, hbases, hmro, -, -, -, -, hcase⟩ := newClass_ok h
  have hbe : c.bases = st.bases := by
    rw [hbases, hbs]; rw [if_neg]; simp
  have hrec : ∀ q ∈ tbl, Super k q → ∃ Q, q.rcd = some Q := by
    intro q hq hsq
    have hkr := (ht.recd k hk.1).1 (hk.2 ▸ rfl)
    refine Option.isSome_iff_exists.1 ((ht.recd q hq).2 ⟨(ht.trans q hq k hk.1 hsq).subset hkr.1, fun he => ?_⟩)
    obtain ⟨rest, rfl⟩ := ht.start
    have := mem_unique ht.nodup hq (List.mem_cons_of_mem _ List.mem_cons_self : E.recordClass ∈ _) he
    subst this
    simp only [Super, PyEnv.recordClass, List.mem_cons, List.not_mem_nil, or_false] at hsq
    rcases hsq with hsq | hsq
    · exact hkr.2 hsq
    · have := mem_unique ht.nodup hk.1 (List.mem_cons_self : E.objectClass ∈ _) hsq
      subst this
      have := hk.2
      cases this
  obtain ⟨P, hP⟩ := hrec b hb hs
  obtain ⟨Q, hQ⟩ := hrec b' hb' hs'
  have hbm : b.cid ∈ c.bases := by rw [hbe, hbs]; simp
  have hsub := (c3_sound hl).2.1 _ (List.mem_append_left _ (List.mem_map.2 ⟨b.cid, hbm, rfl⟩))
  rw [findClass_of_mem ht.nodup hb] at hsub
  have hin : E.recordBase ∈ l := hsub.subset ((ht.recd b hb).1 (hP ▸ rfl)).1
  rcases hcase with ⟨-, C, hmk, -, -⟩ | ⟨hno, -, -⟩
  · have hok := spec_ok (E := E) ht hf c.bases l
    refine (C44_diamond hok.1 (ht.creatable k hk.1 D hk.2) (p := P) (q := Q)
      (l₁ := l₁.filterMap fun b => (findClass tbl b).bind (·.rcd)) (l₂ := l₂.filterMap fun b => (findClass tbl b).bind (·.rcd))
      (l₃ := l₃.filterMap fun b => (findClass tbl b).bind (·.rcd)) ?_
      (ht.desc b hb k hk.1 P D hP hk.2 hs) (ht.desc b' hb' k hk.1 Q D hQ hk.2 hs')).1 C hmk
    show c.bases.filterMap (fun b => (findClass tbl b).bind (·.rcd)) = _
    rw [hbe, hbs]
    simp [findClass_of_mem ht.nodup hb, findClass_of_mem ht.nodup hb', hP, hQ]
  · exact hno hin

/-- C88 for programs: an own field is required iff the body gives it no value and no superclass, nor the metaclass, has an
attribute of its name. -/
theorem C88_program {E : PyEnv W} {tbl : List (PyClass W)} (hr : Reach E tbl) {st : PyStmt W} {c : PyClass W} {C : RecClass W}
    (hf : ∀ k ∈ tbl, k.cid ≠ st.cid) (h : newClass E tbl st = .ok c) (hC : c.rcd = some C) {n : String} (hn : n ∈ st.fieldNames) :
    (n ∈ C.required ↔ (∀ v, (n, v) ∉ st.attrs) ∧ LacksAttr tbl c.mro.tail n ∧ E.typeAttr n = none) ∧
    (∀ a, (∀ v, (n, v) ∉ st.attrs) → Resolves tbl c.mro.tail n a → ∃ f, C.fields.get? n = some f ∧ f.default = some a.value) ∧
    (∀ d, (∀ v, (n, v) ∉ st.attrs) → LacksAttr tbl c.mro.tail n → E.typeAttr n = some d →
      ∃ f, C.fields.get? n = some f ∧ f.default = some d) := by
  have ht := hr.table
  obtain ⟨l, hl, hcid, hbases, hmro, -, -, -, -, ⟨hrb, C', hmk, hC', hdict⟩ | ⟨-, hC', -⟩⟩ := newClass_ok h
  · rw [hC] at hC'; cases hC'
    have hok := spec_ok (E := E) ht hf c.bases l
    have hd : n ∈ (st.spec E tbl c.bases l).declared := by
      have : st.fieldNames = (st.spec E tbl c.bases l).declared := by
        show ((Dict.update [] st.anns).filter _).map _ = ((Dict.update [] st.anns).filter _).map _
        congr 2
      exact this ▸ hn
    obtain ⟨h1, -, h3⟩ := C88_required_iff hok.1 hok.2 hmk hd
    have hattr : (st.spec E tbl c.bases l).attrs.get? n = none ↔ ∀ v, (n, v) ∉ st.attrs := by
      show Dict.get? ((Dict.update [] st.attrs).map fun a => (a.1, a.2.value)) n = none ↔ _
      rw [Dict.get?_eq_none_iff]
      have : Dict.keys ((Dict.update [] st.attrs).map fun a => (a.1, a.2.value)) = Dict.keys (Dict.update [] st.attrs) := by
        simp [Dict.keys, Function.comp_def]
      rw [this, Dict.mem_keys_update]
      constructor
      · intro hno v hv
        exact hno (.inl (Dict.keys_mem_of_mem hv))
      · rintro hno (hm | hm)
        · obtain ⟨⟨n', v⟩, hv, rfl⟩ := List.mem_map.1 hm
          exact hno v hv
        · cases hm
    have hsome : ∀ a, Resolves tbl l n a → (st.spec E tbl c.bases l).mroAttrs n = some a.value := by
      intro a ha
      have : firstOf tbl (fun k => k.dict.get? n) l = some a := (firstOf_some ht.nodup).2 ha
      show (match firstOf tbl (fun k => k.dict.get? n) l with
        | some a => some a.value
        | none => E.typeAttr n) = _
      rw [this]
    have hnone : LacksAttr tbl l n → (st.spec E tbl c.bases l).mroAttrs n = E.typeAttr n := by
      intro ha
      have : firstOf tbl (fun k => k.dict.get? n) l = none := (firstOf_none ht.nodup).2 ha
      show (match firstOf tbl (fun k => k.dict.get? n) l with
        | some a => some a.value
        | none => E.typeAttr n) = _
      rw [this]
    rw [hmro, List.tail_cons]
    refine ⟨?_, fun a hno ha => h3 _ (hattr.2 hno) (hsome a ha), fun d hno hla hty => h3 _ (hattr.2 hno) ((hnone hla).trans hty)⟩
    rw [h1, hattr]
    refine and_congr_right fun _ => ?_
    constructor
    · intro hm
      cases hx : firstOf tbl (fun k => k.dict.get? n) l with
      | some a =>
        rw [hsome a ((firstOf_some ht.nodup).1 hx)] at hm; cases hm
      | none =>
        have hla : LacksAttr tbl l n := (firstOf_none ht.nodup).1 hx
        exact ⟨hla, (hnone hla).symm.trans hm⟩
    · rintro ⟨hla, hty⟩
      exact (hnone hla).trans hty
  · rw [hC] at hC'; cases hC'

/-- C87 for programs: if the nearest `pre_bind` in the order of a new class adds a token to a field of one of its bases, the
class cannot be made. -/
theorem C87_program {E : PyEnv W} {tbl : List (PyClass W)} (hr : Reach E tbl) {st : PyStmt W}
    (hf : ∀ k ∈ tbl, k.cid ≠ st.cid) {b : PyClass W} {B : RecClass W} (hb : IsRecord tbl b B) (hbs : st.bases = [b.cid])
    (hno : st.pre = none) {P : List (String × Option Int × Tok W)} (hP : Nearest tbl (·.pre) b.mro P) (hne : P ≠ []) :
    ∀ c, newClass E tbl st ≠ .ok c := by
  intro c h
  have ht := hr.table
  obtain ⟨l, hl, hcid, hbases, hmro, -, -, -, -, hcase⟩ := newClass_ok h
  have hbe : c.bases = [b.cid] := by rw [hbases, hbs]; rfl
  have hbmro : b.mro.Sublist l ∧ ∀ d ∈ l, d ∈ b.mro := by
    rw [hbe] at hl
    simp only [List.map_cons, List.map_nil, List.cons_append, List.nil_append, findClass_of_mem ht.nodup hb.1] at hl
    obtain ⟨-, h2, h3⟩ := c3_sound hl
    refine ⟨h2 _ List.mem_cons_self, fun d hd => ?_⟩
    obtain ⟨s, hs, hds⟩ := h3 d hd
    simp only [List.mem_cons, List.not_mem_nil, or_false] at hs
    rcases hs with rfl | rfl
    · exact hds
    · rw [List.mem_singleton] at hds
      obtain ⟨l', hl'⟩ := ht.head b hb.1
      rw [hds, hl']; exact List.mem_cons_self
  have hlb : b.mro = l := by
    refine hbmro.1.eq_of_length_le ?_
    exact List.Nodup.length_le_of_subset (c3_sound hl).1 hbmro.2
  have hin : E.recordBase ∈ l := hlb ▸ ((ht.recd b hb.1).1 (hb.2 ▸ rfl)).1
  rcases hcase with ⟨-, C, hmk, -, -⟩ | ⟨hn, -, -⟩
  · have hok := spec_ok (E := E) ht hf c.bases l
    have hpar : B ∈ (st.spec E tbl c.bases l).parents := by
      show B ∈ c.bases.filterMap fun b => (findClass tbl b).bind (·.rcd)
      rw [hbe]
      simp [findClass_of_mem ht.nodup hb.1, hb.2]
    obtain ⟨tbl0, rest, st0, l0, rfl, hr0, hf0, -, hcid0, hmro0, hpre0, -, -, -, hmk0, -, hfirst0⟩ := hr.record hb
    have hok0 := spec_ok (E := E) hr0.table hf0 b.bases l0
    have hfst : firstOf (tbl0 ++ rest) (·.pre) b.mro = some P := (firstOf_some ht.nodup).2 hP
    refine C87_no_subclass hok0.1 hok0.2 hmk0 (sub := st.spec E (tbl0 ++ rest) c.bases l) ?_ hok.1 hok.2 hpar ?_ C hmk
    · have hp0 : (st0.spec E tbl0 b.bases l0).pre = P := by
        rw [hfirst0, hpre0] at hfst
        show (match st0.pre with
          | some p => p
          | none => (firstOf tbl0 (·.pre) l0).getD []) = P
        cases hx : st0.pre with
        | some p => rw [hx] at hfst; cases hfst; rfl
        | none => rw [hx] at hfst; simp only at hfst; rw [hfst]; rfl
      rw [hp0]; exact hne
    · have hp0 : (st0.spec E tbl0 b.bases l0).pre = P := by
        rw [hfirst0, hpre0] at hfst
        show (match st0.pre with
          | some p => p
          | none => (firstOf tbl0 (·.pre) l0).getD []) = P
        cases hx : st0.pre with
        | some p => rw [hx] at hfst; cases hfst; rfl
        | none => rw [hx] at hfst; simp only at hfst; rw [hfst]; rfl
      rw [hp0]
      show (match st.pre with
          | some p => p
          | none => (firstOf (tbl0 ++ rest) (·.pre) l).getD []) = P
      rw [hno]
      simp only
      rw [← hlb, hfst]; rfl
  · exact hn hin

end Records

/-! ### C43 -/
namespace Records
variable {W : World}

theorem firstOccurrences_mem {l : List String} {n : String} : n ∈ firstOccurrences l ↔ n ∈ l := by
  induction l with
  | nil => simp [firstOccurrences]
  | cons a l ih =>
    by_cases h : n = a <;> simp [firstOccurrences, ih, h]

theorem keys_update {V : Type} (d e : Dict V) :
    Dict.keys (Dict.update d e) = Dict.keys d ++ (firstOccurrences (Dict.keys e)).filter fun n => decide (n ∉ Dict.keys d) := by
  induction e generalizing d with
  | nil => simp [Dict.update, Dict.keys, firstOccurrences]
  | cons kv e ih =>
    obtain ⟨k, v⟩ := kv
    show Dict.keys (Dict.update (d.set k v) e) = _
    rw [ih]
    have hcons : firstOccurrences (Dict.keys ((k, v) :: e)) =
        k :: (firstOccurrences (Dict.keys e)).filter fun b => decide (b ≠ k) := rfl
    rw [hcons]
    by_cases hk : k ∈ Dict.keys d
    · rw [Dict.keys_set_of_mem d k v hk, List.filter_cons_of_neg (by simpa using hk), List.filter_filter]
      congr 1
      apply List.filter_congr
      intro b _
      by_cases hb : b = k
      · subst hb; simp [hk]
      · simp [hb]
    · rw [Dict.set_of_not_mem d k v hk, List.filter_cons_of_pos (by simpa using hk), List.filter_filter]
      have he : Dict.keys (d ++ [(k, v)]) = Dict.keys d ++ [k] := by simp [Dict.keys]
      rw [he, List.append_assoc]
      congr 1
      show k :: _ = k :: _
      congr 1
      apply List.filter_congr
      intro b _
      simp only [List.mem_append, List.mem_singleton, not_or, Bool.decide_and, ne_eq]

theorem keys_update_nil {V : Type} (e : Dict V) : Dict.keys (Dict.update [] e) = firstOccurrences (Dict.keys e) := by
  rw [keys_update]
  show [] ++ _ = _
  rw [List.nil_append, List.filter_eq_self]
  intro n _
  simp [Dict.keys]

theorem update_get?_last {V : Type} (d e : Dict V) (n : String) :
    Dict.get? (Dict.update d e) n = match (e.reverse.find? fun a => decide (a.1 = n)) with
      | some a => some a.2
      | none => Dict.get? d n := by
  induction e generalizing d with
  | nil => rfl
  | cons kv e ih =>
    obtain ⟨k, v⟩ := kv
    show Dict.get? (Dict.update (d.set k v) e) n = _
    rw [ih, List.reverse_cons, List.find?_append]
    cases he : List.find? (fun a => decide (a.1 = n)) e.reverse with
    | some a => rfl
    | none =>
      simp only [Option.none_or, List.find?_cons, List.find?_nil, Dict.get?_set]
      by_cases hk : k = n
      · simp [hk]
      · simp [hk, Ne.symm hk]

theorem fieldNames_eq (st : PyStmt W) : st.fieldNames = st.ownFieldNames := by
  have hwf : Dict.WF (Dict.update [] st.anns) := Dict.WF.update (d := []) List.nodup_nil st.anns
  unfold PyStmt.fieldNames PyStmt.ownFieldNames
  have hk : firstOccurrences (st.anns.map (·.1)) = Dict.keys (Dict.update [] st.anns) := by
    rw [keys_update_nil]; rfl
  rw [hk]
  show _ = List.filter _ (List.map _ _)
  rw [List.filter_map]
  congr 1
  apply List.filter_congr
  rintro ⟨n, h⟩ hm
  have hg := Dict.mem_get? _ hwf _ _ hm
  rw [update_get?_last] at hg
  simp only [Function.comp]
  cases hf : List.find? (fun a => decide (a.1 = n)) st.anns.reverse with
  | none => rw [hf] at hg; cases hg
  | some a =>
    rw [hf] at hg
    obtain ⟨a1, a2⟩ := a
    cases hg
    cases a2 <;> rfl

theorem annotated_eq {tbl : List (PyClass W)} (hn : (tbl.map (·.cid)).Nodup) (mro : List W.Cls) :
    inheritedAnns tbl mro = firstOccurrences (annotated tbl mro) := by
  unfold inheritedAnns annotated
  rw [keys_update_nil]
  simp only [Dict.keys, List.map_flatMap]
  congr 1
  congr 1
  funext d
  have hz : ∀ tbl : List (PyClass W), (∀ k ∈ tbl, k.cid ≠ d) → tbl.flatMap (fun k => if k.cid = d then k.anns else []) = [] := by
    intro tbl h
    rw [List.flatMap_eq_nil_iff]
    intro k hk
    rw [if_neg (h k hk)]
  have hfl : ∀ tbl : List (PyClass W), (tbl.map (·.cid)).Nodup →
      tbl.flatMap (fun k => if k.cid = d then k.anns else []) = match findClass tbl d with | some k => k.anns | none => [] := by
    intro tbl hn
    induction tbl with
    | nil => rfl
    | cons a tbl ih =>
      rw [List.map_cons, List.nodup_cons] at hn
      rw [List.flatMap_cons]
      unfold findClass
      by_cases ha : a.cid = d
      · rw [List.find?_cons_of_pos (by simpa using ha), if_pos ha, hz, List.append_nil]
        intro k hk he
        exact hn.1 (ha.trans he.symm ▸ List.mem_map.2 ⟨k, hk, rfl⟩)
      · rw [List.find?_cons_of_neg (by simpa using ha), if_neg ha, List.nil_append]
        exact ih hn.2
  rw [hfl tbl hn]
  cases findClass tbl d with
  | none => rfl
  | some k => simp [Function.comp_def]

/-- C43 for programs: the fields of a new class are those of its record bases, in the order of the bases, then the own ones:
first those whose name is annotated in a superclass, in the order of these annotations from the farthest class to the nearest,
then the others in order of declaration. -/
theorem C43_program {E : PyEnv W} {tbl : List (PyClass W)} (hr : Reach E tbl) {st : PyStmt W} {c : PyClass W} {C : RecClass W}
    (hf : ∀ k ∈ tbl, k.cid ≠ st.cid) (h : newClass E tbl st = .ok c) (hC : c.rcd = some C) :
    C.fields.map (·.1) = (c.bases.flatMap fun b => tbl.flatMap fun k => if k.cid = b then
        (match k.rcd with | some B => B.fields.map (·.1) | none => []) else []) ++
      (firstOccurrences (annotated tbl c.mro.tail)).filter (fun n => decide (n ∈ st.ownFieldNames)) ++
      st.ownFieldNames.filter (fun n => decide (n ∉ annotated tbl c.mro.tail)) := by
  have ht := hr.table
  obtain ⟨l, hl, hcid, hbases, hmro, -, -, -, -, ⟨hrb, C', hmk, hC', hdict⟩ | ⟨-, hC', -⟩⟩ := newClass_ok h
  · rw [hC] at hC'; cases hC'
    have hok := spec_ok (E := E) ht hf c.bases l
    rw [C43_field_order hok.1 hmk, hmro, List.tail_cons]
    have hd : (st.spec E tbl c.bases l).declared = st.ownFieldNames := by
      rw [← fieldNames_eq]
      show ((Dict.update [] st.anns).filter _).map _ = ((Dict.update [] st.anns).filter _).map _
      congr 2
    have hb : (st.spec E tbl c.bases l).baseAnns = firstOccurrences (annotated tbl l) := annotated_eq ht.nodup l
    rw [hd, hb]
    congr 1
    · congr 1
      show (c.bases.filterMap fun b => (findClass tbl b).bind (·.rcd)).flatMap (fun p => p.fields.map (·.1)) = _
      generalize c.bases = bs
      induction bs with
      | nil => rfl
      | cons b bs ih =>
        rw [List.filterMap_cons, List.flatMap_cons, ← ih]
        have hfl : ∀ tbl : List (PyClass W), (tbl.map (·.cid)).Nodup →
            (tbl.flatMap fun k => if k.cid = b then (match k.rcd with | some B => B.fields.map (·.1) | none => []) else []) =
              match (findClass tbl b).bind (·.rcd) with | some B => B.fields.map (·.1) | none => [] := by
          intro tbl hn
          induction tbl with
          | nil => rfl
          | cons a tbl ih =>
            rw [List.map_cons, List.nodup_cons] at hn
            rw [List.flatMap_cons]
            unfold findClass
            by_cases ha : a.cid = b
            · rw [List.find?_cons_of_pos (by simpa using ha), if_pos ha]
              have hz : (tbl.flatMap fun k => if k.cid = b then
                  (match k.rcd with | some B => B.fields.map (·.1) | none => []) else []) = [] := by
                rw [List.flatMap_eq_nil_iff]
                intro k hk
                rw [if_neg]
                intro he
                exact hn.1 (ha.trans he.symm ▸ List.mem_map.2 ⟨k, hk, rfl⟩)
              rw [hz, List.append_nil]
              rfl
            · rw [List.find?_cons_of_neg (by simpa using ha), if_neg ha, List.nil_append]
              exact ih hn.2
        rw [hfl tbl ht.nodup]
        cases (findClass tbl b).bind (·.rcd) <;> simp
    · apply List.filter_congr
      intro n _
      simp only [firstOccurrences_mem]
  · rw [hC] at hC'; cases hC'

/-- The method resolution order of a class of a program: it starts with the class, has no class twice, contains the bases in
their order and every superclass's order as a subsequence, and ends with `object`. -/
theorem C97_mro {E : PyEnv W} {tbl : List (PyClass W)} (hr : Reach E tbl) {c : PyClass W} (hc : c ∈ tbl) :
    (∃ l, c.mro = c.cid :: l ∧ c.bases.Sublist l) ∧ c.mro.Nodup ∧ (∀ k ∈ tbl, Super k c → k.mro.Sublist c.mro) ∧
      (∀ d ∈ c.mro, d = c.cid ∨ ∃ k ∈ tbl, k.cid ∈ c.bases ∧ d ∈ k.mro) := by
  have ht := hr.table
  refine ⟨?_, ht.once c hc, ht.trans c hc, ?_⟩
  · rcases hr.made hc with rfl | rfl | ⟨tbl0, rest, st, rfl, hr0, hf, hb, hnew⟩
    · exact ⟨[], rfl, List.Sublist.refl _⟩
    · exact ⟨[E.object], rfl, List.Sublist.refl _⟩
    · obtain ⟨l, hl, hcid, hbases, hmro, -⟩ := newClass_ok hnew
      exact ⟨l, by rw [hmro, hcid], (c3_sound hl).2.1 _ (List.mem_append_right _ (List.mem_singleton.2 rfl))⟩
  · intro d hd
    rcases hr.made hc with rfl | rfl | ⟨tbl0, rest, st, rfl, hr0, hf, hb, hnew⟩
    · exact .inl (List.mem_singleton.1 hd)
    · rcases List.mem_cons.1 hd with h | h
      · exact .inl h
      · obtain ⟨rest, rfl⟩ := ht.start
        exact .inr ⟨E.objectClass, List.mem_cons_self, List.mem_singleton.2 rfl, h⟩
    · have ht0 := hr0.table
      obtain ⟨l, hl, hcid, hbases, hmro, -⟩ := newClass_ok hnew
      rw [hmro] at hd
      rcases List.mem_cons.1 hd with h | h
      · exact .inl (h.trans hcid.symm)
      · have hbs' : ∀ b ∈ c.bases, ∃ k ∈ tbl0, k.cid = b := by
          intro b hbm
          rw [hbases] at hbm
          split at hbm
          · obtain ⟨r0, rfl⟩ := ht0.start
            exact ⟨_, List.mem_cons_self, (List.mem_singleton.1 hbm).symm⟩
          · exact hb b hbm
        obtain ⟨kb, hkb, hbm, hdk, -⟩ := newClass_via ht0 hbs' hl h
        exact .inr ⟨kb, List.mem_append_left _ hkb, hbm, hdk⟩

/-- When the bases alone make a class statement fail: if no order without repetitions contains the bases in the order written and
every base's resolution order, it raises TypeError; if there is one and no base is a record class, the class is created. -/
theorem C97_bases {E : PyEnv W} {tbl : List (PyClass W)} (hr : Reach E tbl) {st : PyStmt W} (hne : st.bases ≠ [])
    (hb : ∀ b ∈ st.bases, ∃ k ∈ tbl, k.cid = b) :
    ((¬ ∃ r : List W.Cls, r.Nodup ∧ st.bases.Sublist r ∧ ∀ k ∈ tbl, k.cid ∈ st.bases → k.mro.Sublist r) →
      newClass E tbl st = .error .typeError) ∧
    ((∃ r : List W.Cls, r.Nodup ∧ st.bases.Sublist r ∧ ∀ k ∈ tbl, k.cid ∈ st.bases → k.mro.Sublist r) →
      (∀ k ∈ tbl, k.cid ∈ st.bases → E.recordBase ∉ k.mro) → ∃ c, newClass E tbl st = .ok c) := by
  have ht := hr.table
  have hbases : (if st.bases.isEmpty then [E.object] else st.bases) = st.bases := by
    cases h : st.bases with
    | nil => exact absurd h hne
    | cons _ _ => rfl
  have hfind : ∀ k ∈ tbl, findClass tbl k.cid = some k := fun k hk => findClass_of_mem ht.nodup hk
  constructor
  · intro hno
    unfold newClass
    simp only [hbases]
    cases hc : c3 ((st.bases.map fun b => match findClass tbl b with | some k => k.mro | none => []) ++ [st.bases]) with
    | none => rfl
    | some l =>
      obtain ⟨h1, h2, -⟩ := c3_sound hc
      refine absurd ⟨l, h1, h2 _ (by simp), fun k hk hkb => ?_⟩ hno
      exact h2 _ (List.mem_append_left _ (List.mem_map.2 ⟨k.cid, hkb, by rw [hfind k hk]⟩))
  · rintro ⟨r, h1, h2, h3⟩ hrec
    obtain ⟨l, hl⟩ := c3_complete
      (ls := (st.bases.map fun b => match findClass tbl b with | some k => k.mro | none => []) ++ [st.bases]) h1 (by
        intro s hs
        rcases List.mem_append.1 hs with hs | hs
        · obtain ⟨b, hbm, rfl⟩ := List.mem_map.1 hs
          obtain ⟨k, hk, rfl⟩ := hb b hbm
          rw [hfind k hk]
          exact h3 k hk hbm
        · rw [List.mem_singleton.1 hs]; exact h2)
    have hnl : E.recordBase ∉ l := by
      intro hm
      obtain ⟨s, hs, hms⟩ := (c3_sound hl).2.2 _ hm
      rcases List.mem_append.1 hs with hs | hs
      · obtain ⟨b, hbm, rfl⟩ := List.mem_map.1 hs
        obtain ⟨k, hk, rfl⟩ := hb b hbm
        rw [hfind k hk] at hms
        exact hrec k hk hbm hms
      · rw [List.mem_singleton.1 hs] at hms
        obtain ⟨k, hk, hkc⟩ := hb _ hms
        refine hrec k hk (hkc ▸ hms) ?_
        obtain ⟨l', hl', -⟩ := (C97_mro hr hk).1
        rw [hl', hkc]
        exact List.mem_cons_self
    have : ∀ o, o = some l → ∃ c, (match o with
        | none => .error .typeError
        | some l => if E.recordBase ∈ l then
            match mkClass (st.spec E tbl st.bases l) with
            | .error e => .error e
            | .ok C => .ok { cid := st.cid, bases := st.bases, mro := st.cid :: l, anns := Dict.keys (Dict.update [] st.anns),
                             dict := st.ownDict E, pre := st.pre, postNew := st.postNew, truthy := st.truthy, rcd := some C }
          else .ok { cid := st.cid, bases := st.bases, mro := st.cid :: l, anns := Dict.keys (Dict.update [] st.anns),
                     dict := Dict.update [] st.attrs, pre := st.pre, postNew := st.postNew, truthy := st.truthy } :
          Except Exc (PyClass W)) = .ok c := by
      rintro _ rfl
      exact ⟨_, if_neg hnl⟩
    unfold newClass
    simp only [hbases]
    exact this _ hl

end Records

/-! ### Examples -/
namespace Records.Toy.Prog
open Records.Toy

/-- the parser `p` of the example: rejects everything but strings -/
def pf : TObj → M Toy.W (Res Toy.W) := fun v => match v with
  | .str _ => M.pure (.old v)
  | _ => M.throw .valueError

/-- what is there before the program -/
def E : PyEnv Toy.W where
  object := .object
  recordBase := .record 100
  ne := nofun
  objectDict := [("__init__", { value := .value (.fn 1) })]
  recordDict := [("pre_bind", { value := .value (.fn 2) }), ("parse", { value := .value (.fn 3) }),
    ("from_mapping", { value := .value (.fn 4), parser := some fun _ => .fromMapping }),
    ("from_instance", { value := .value (.fn 5), parser := some fun _ => .fromInstance }),
    ("from_json", { value := .value (.fn 6), parser := some fun _ => .fromJson })]
  recordAnns := ["_fields", "_frozen"]
  typeAttr := fun n => if n = "mro" then some (.value (.fn 7)) else Option.none
  fieldObj := fun _ _ => .fn 8
  internal := ["pre_bind", "_fields"]

/-- the class object a statement makes, or `d` -/
def made (tbl : List (PyClass Toy.W)) (st : PyStmt Toy.W) (d : PyClass Toy.W) : PyClass Toy.W :=
  match newClass E tbl st with | .ok c => c | .error _ => d

def t0 : List (PyClass Toy.W) := [E.objectClass, E.recordClass]

/-- `class A(RecordBase): x: int; y: int = 3; @parser def p(...)` -/
def stA : PyStmt Toy.W :=
  { cid := .record 0, bases := [.record 100], anns := [("x", .plain (.cls .int)), ("y", .plain (.cls .int))]
    attrs := [("y", { value := .value (.int 3) }), ("p", { value := .value (.fn 10), parser := some fun _ => .user pf })] }

def cA : PyClass Toy.W := made t0 stA E.objectClass
def t1 : List (PyClass Toy.W) := t0 ++ [cA]

/-- `class B(A): x = 5; p = 0` -/
def stB : PyStmt Toy.W :=
  { cid := .record 1, bases := [.record 0]
    attrs := [("x", { value := .value (.int 5) }), ("p", { value := .value (.int 0) })] }

def cB : PyClass Toy.W := made t1 stB E.objectClass
def t2 : List (PyClass Toy.W) := t1 ++ [cB]

/-- `class M: def post_new(self): ...` -/
def stM : PyStmt Toy.W :=
  { cid := .record 2, bases := [], attrs := [("post_new", { value := .value (.fn 11) })]
    postNew := some fun i => M.pure (i, some (.old .none)) }

def cM : PyClass Toy.W := made t2 stM E.objectClass
def t3 : List (PyClass Toy.W) := t2 ++ [cM]

/-- `class D(M, A): z: int = 1; mro: int; q = A.p; from_json: int = 0` -/
def stD : PyStmt Toy.W :=
  { cid := .record 3, bases := [.record 2, .record 0]
    anns := [("z", .plain (.cls .int)), ("mro", .plain (.cls .int)), ("from_json", .plain (.cls .int))]
    attrs := [("z", { value := .value (.int 1) }), ("q", { value := .value (.fn 10), parser := some fun _ => .user pf }),
      ("from_json", { value := .value (.int 0) })] }

def cD : PyClass Toy.W := made t3 stD E.objectClass
def t4 : List (PyClass Toy.W) := t3 ++ [cD]

theorem A_ok : newClass E t0 stA = .ok cA := rfl
theorem B_ok : newClass E t1 stB = .ok cB := rfl
theorem M_ok : newClass E t2 stM = .ok cM := rfl
theorem D_ok : newClass E t3 stD = .ok cD := rfl

theorem fresh_of {tbl : List (PyClass Toy.W)} {ids : List TCls} (h : tbl.map (·.cid) = ids) {c : TCls} (hc : decide (c ∈ ids) = false) :
    ∀ k ∈ tbl, k.cid ≠ c := fun k hk he => of_decide_eq_false hc (h ▸ he ▸ List.mem_map.2 ⟨k, hk, rfl⟩)

theorem known_of {tbl : List (PyClass Toy.W)} {ids : List TCls} (h : tbl.map (·.cid) = ids) {bs : List TCls}
    (hb : bs.all (fun b => decide (b ∈ ids)) = true) : ∀ b ∈ bs, ∃ k ∈ tbl, k.cid = b := fun b hbm => by
  have := of_decide_eq_true (List.all_eq_true.1 hb b hbm)
  rw [← h] at this
  obtain ⟨k, hk, he⟩ := List.mem_map.1 this
  exact ⟨k, hk, he⟩

theorem super_of {k c : PyClass Toy.W} (h : @decide ((k.cid : TCls) ∈ (c.mro : List TCls)) inferInstance = true) : Super k c :=
  @of_decide_eq_true ((k.cid : TCls) ∈ (c.mro : List TCls)) inferInstance h

theorem ids0 : t0.map (·.cid) = [TCls.object, .record 100] := rfl
theorem ids1 : t1.map (·.cid) = [TCls.object, .record 100, .record 0] := rfl
theorem ids2 : t2.map (·.cid) = [TCls.object, .record 100, .record 0, .record 1] := rfl
theorem ids3 : t3.map (·.cid) = [TCls.object, .record 100, .record 0, .record 1, .record 2] := rfl

theorem t1_reach : Reach E t1 :=
  .stmt t0 stA cA .init (fresh_of ids0 rfl) (known_of ids0 rfl) (by decide) A_ok
theorem t2_reach : Reach E t2 :=
  .stmt t1 stB cB t1_reach (fresh_of ids1 rfl) (known_of ids1 rfl) (by decide) B_ok
theorem t3_reach : Reach E t3 :=
  .stmt t2 stM cM t2_reach (fresh_of ids2 rfl) (known_of ids2 rfl) (by decide) M_ok
theorem t4_reach : Reach E t4 :=
  .stmt t3 stD cD t3_reach (fresh_of ids3 rfl) (known_of ids3 rfl) (by decide) D_ok

/-- the record part of a class, or `d` -/
def recOf (c : PyClass Toy.W) : RecClass Toy.W := match c.rcd with | some C => C | Option.none => noClass

theorem A_rec : IsRecord t4 cA (recOf cA) := ⟨by simp [t4, t3, t2, t1], rfl⟩
theorem B_rec : IsRecord t4 cB (recOf cB) := ⟨by simp [t4, t3, t2], rfl⟩
theorem D_rec : IsRecord t4 cD (recOf cD) := ⟨by simp [t4], rfl⟩

-- the resolution order of a class with a plain and a record base, and the parsers of the three classes
example : cD.mro = [.record 3, .record 2, .record 0, .record 100, .object] := rfl
example : (recOf cA).parsers = [.fromInstance, .fromJson, .fromMapping, .user pf] := rfl
example : (recOf cB).parsers = [.fromInstance, .fromJson, .fromMapping] := rfl
example : (recOf cD).parsers = [.fromInstance, .fromMapping, .user pf, .user pf] := rfl

-- `class X(RecordBase, A)` has no resolution order
example : newClass E t1 { cid := .record 9, bases := [.record 100, .record 0] } = .error .typeError :=
  (C97_bases t1_reach (st := { cid := .record 9, bases := [.record 100, .record 0] }) nofun (known_of ids1 rfl)).1 (by
    rintro ⟨r, hn, h1, h2⟩
    have h3 : [TCls.record 0, .record 100, .object].Sublist r := h2 cA (by simp [t1]) (List.mem_cons_of_mem _ (List.mem_singleton.2 rfl))
    have key : ∀ r : List TCls, r.Nodup → [TCls.record 100, .record 0].Sublist r → ¬ [TCls.record 0, .record 100, .object].Sublist r := by
      intro r
      induction r with
      | nil => intro _ h; cases h
      | cons x r ih =>
        intro hn h1 h3
        cases h1 with
        | cons _ h1 =>
          cases h3 with
          | cons _ h3 => exact ih (List.nodup_cons.1 hn).2 h1 h3
          | cons_cons _ h3 => exact (List.nodup_cons.1 hn).1 (h1.subset (by simp))
        | cons_cons _ h1 =>
          cases h3 with
          | cons _ h3 => exact (List.nodup_cons.1 hn).1 (h3.subset (by simp))
    exact key r hn h1 h3)

-- an inherited parser
example : Parser.user pf ∈ (recOf cD).parsers :=
  C97_inherited t4_reach D_rec A_rec.1 (pre := [.record 3, .record 2]) (post := [.record 100, .object]) rfl (n := "p")
    (a := { value := .value (.fn 10), parser := some fun _ => .user pf }) rfl rfl (by
      intro d hd k hk he
      have hd : d = TCls.record 3 ∨ d = TCls.record 2 := by
        rcases List.mem_cons.1 hd with h | h
        · exact .inl h
        · exact .inr (List.mem_singleton.1 h)
      have hk' : k = cM ∨ k = cD := by
        simp only [t4, t3, t2, t1, t0, List.mem_append, List.mem_cons, List.not_mem_nil, or_false] at hk
        rcases hk with ((((rfl | rfl) | rfl) | rfl) | rfl) | rfl
        · rcases hd with rfl | rfl <;> cases he
        · rcases hd with rfl | rfl <;> cases he
        · rcases hd with rfl | rfl <;> cases he
        · rcases hd with rfl | rfl <;> cases he
        · exact .inl rfl
        · exact .inr rfl
      rcases hk' with rfl | rfl <;> rfl)

-- the aliased parser `p`/`q`: parsing a string with `D` is ambiguous
example : (parseWith env (recOf cD) (fun _ => M.throw .valueError) (.str "s") s0).1 = .error .typeError := rfl

theorem nearest_of {β : Type} {tbl : List (PyClass Toy.W)} (hr : Reach E tbl) {g : PyClass Toy.W → Option β} {m : List TCls} {b : β}
    (h : firstOf tbl g m = some b) : Nearest tbl g m b := (firstOf_some hr.table.nodup).1 h

example (s : LState Toy.W) : ∀ r, (parseWith env (recOf cD) (fun _ => M.throw .valueError) (.str "s") s).1 ≠ .ok r :=
  (C97_alias t4_reach D_rec (n := "p") (m := "q") (by decide)
    (nearest_of t4_reach (b := { value := .value (.fn 10), parser := some fun _ => .user pf }) rfl)
    (nearest_of t4_reach (b := { value := .value (.fn 10), parser := some fun _ => .user pf }) rfl)
    rfl rfl (fun s => ⟨_, s, rfl⟩) (fun s => ⟨_, s, rfl⟩) s).1

-- `post_new` of the plain base class
example (i : Inst Toy.W) : (recOf cD).postNew i = M.pure (i, some (.old .none)) := by
  rw [(C97_hooks t4_reach D_rec).1 _ (nearest_of t4_reach (b := fun i => M.pure (i, some (.old .none))) rfl)]

-- a field named like a parser
example : "from_json" ∈ stD.fieldNames ∧ ∃ ps : List (String × Parser Toy.W),
    (recOf cD).parsers = ps.map (·.2) ∧ "from_json" ∉ ps.map (·.1) :=
  ⟨by decide, by
    obtain ⟨-, ps, h1, h2, -⟩ := C97_field_shadows t3_reach (fresh_of ids3 rfl) (known_of ids3 rfl)
      (by decide) D_ok (C := recOf cD) rfl (n := "from_json") (by decide)
    exact ⟨ps, h1, h2⟩⟩

/-- The documented claim (record.py:32): a callable marked with `@parser` is a parser for the record class and all its
subclasses. -/
def C97_claim (W : World) : Prop :=
  ∀ (E : PyEnv W) tbl, Reach E tbl → ∀ c k C D, IsRecord tbl c C → IsRecord tbl k D → Super k c →
    ∀ n a g, k.dict.get? n = some a → a.parser = some g → g c.cid ∈ C.parsers

/-- C97: refuted: `class B(A): p = 0`. -/
theorem C97_refuted : ¬ C97_claim Toy.W := by
  intro h
  have := h E t4 t4_reach cB cA (recOf cB) (recOf cA) B_rec A_rec (super_of rfl) "p"
    { value := .value (.fn 10), parser := some fun _ => .user pf } _ rfl rfl
  rw [show (recOf cB).parsers = [.fromInstance, .fromJson, .fromMapping] from rfl] at this
  simp at this

-- the inherited fields of `D`, unchanged
example : (recOf cD).fields.map (·.1) = ["x", "y", "z", "mro", "from_json"] := rfl
example (f : Field Toy.W) (hf : (recOf cA).fields.get? "x" = some f) : (recOf cD).fields.get? "x" = some f :=
  C98_inherited t4_reach D_rec A_rec (super_of rfl) hf
example : ∃ k D f, IsRecord t4 k D ∧ Super k cD ∧ D.fields.get? "x" = some f ∧ f.owner = k.cid ∧ k = cA :=
  ⟨cA, recOf cA, _, A_rec, super_of rfl, rfl, rfl, rfl⟩

/-- The claim that a value assigned in the body of a subclass is the default of the field of that name. -/
def C98_claim (W : World) : Prop :=
  ∀ (E : PyEnv W) tbl, Reach E tbl → ∀ c C, IsRecord tbl c C → ∀ n f a, C.fields.get? n = some f → c.dict.get? n = some a →
    f.owner ≠ c.cid → f.default = some a.value

/-- C98: refuted: `class B(A): x = 5` leaves `x` without a default. -/
theorem C98_refuted : ¬ C98_claim Toy.W := by
  intro h
  have := h E t4 t4_reach cB (recOf cB) B_rec "x" _ { value := .value (.int 5) } rfl rfl nofun
  cases this

-- `x` is still required
example : (recOf cB).required = ["x"] := rfl

/-- `class N: v: int; u: int`, `class O(N): w: int; v: int`, and `class Q(O, RecordBase): q: int; w: int; u: int` -/
def stN : PyStmt Toy.W := { cid := .record 7, bases := [], anns := [("v", .plain (.cls .int)), ("u", .plain (.cls .int))] }
def cN : PyClass Toy.W := made t0 stN E.objectClass
def stO : PyStmt Toy.W :=
  { cid := .record 8, bases := [.record 7], anns := [("w", .plain (.cls .int)), ("v", .plain (.cls .int))] }
def cO : PyClass Toy.W := made (t0 ++ [cN]) stO E.objectClass
def stQ : PyStmt Toy.W :=
  { cid := .record 9, bases := [.record 8, .record 100]
    anns := [("q", .plain (.cls .int)), ("w", .plain (.cls .int)), ("u", .plain (.cls .int))] }
def cQ : PyClass Toy.W := made (t0 ++ [cN] ++ [cO]) stQ E.objectClass

-- annotations of plain base classes determine the order of the fields
example : (recOf cQ).fields.map (·.1) = ["u", "w", "q"] := rfl
example : cQ.mro = [.record 9, .record 8, .record 7, .record 100, .object] := rfl

-- a diamond over `A`
example : ∀ c, newClass E t4 { cid := .record 4, bases := [.record 1, .record 3] } ≠ .ok c :=
  C44_program_diamond t4_reach (fresh_of (ids := [.object, .record 100, .record 0, .record 1, .record 2, .record 3]) rfl rfl)
    B_rec.1 D_rec.1 A_rec (super_of rfl) (super_of rfl) (l₁ := []) (l₂ := []) (l₃ := []) rfl

-- `mro` is optional because `type` has an attribute of that name
example : "mro" ∈ stD.fieldNames ∧ "mro" ∉ (recOf cD).required := by decide
example : ¬ ((∀ v, ("mro", v) ∉ stD.attrs) ∧ LacksAttr t3 cD.mro.tail "mro" ∧ E.typeAttr "mro" = Option.none) := fun h =>
  absurd ((C88_program t3_reach (fresh_of ids3 rfl) D_ok (C := recOf cD) rfl (n := "mro") (by decide)).1.2 h) (by decide)

/-- `class K(RecordBase): x: int`, with a `pre_bind` that adds a validator -/
def stK : PyStmt Toy.W :=
  { cid := .record 5, bases := [.record 100], anns := [("x", .plain (.cls .int))]
    pre := some [("x", Option.none, .validation fun _ => .ok fun v => M.pure v)] }

def cK : PyClass Toy.W := made t0 stK E.objectClass
theorem K_ok : newClass E t0 stK = .ok cK := rfl
theorem tK_reach : Reach E (t0 ++ [cK]) :=
  .stmt t0 stK cK .init (fresh_of ids0 rfl) (known_of ids0 rfl) (by decide) K_ok

-- `class L(K): w: int`
example : ∀ c, newClass E (t0 ++ [cK]) { cid := .record 6, bases := [.record 5], anns := [("w", .plain (.cls .int))] } ≠ .ok c :=
  C87_program tK_reach (fresh_of (ids := [.object, .record 100, .record 5]) rfl rfl)
    (b := cK) (B := recOf cK) ⟨by simp, rfl⟩ rfl rfl (nearest_of tK_reach (b := [("x", Option.none, .validation fun _ => .ok fun v => M.pure v)]) rfl)
    (by simp)

end Records.Toy.Prog
