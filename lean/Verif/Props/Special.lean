import Verif.Proofs.Special
import Verif.Props.Program
set_option linter.unusedSimpArgs false
/-
C113: `__init__`, `__setattr__` and `__hash__` of record classes.
-/
namespace Records
open Spec
variable {W : World}

/-- C113: whatever class bodies and bases define, a frozen record class has the `__setattr__` and `__hash__` of the library, a non-frozen
one has the `__setattr__` of `object`, and its `__hash__` is None. -/
theorem C113_setattr_hash {E : PyEnv W} {tbl : List (PyClass W)} (hr : Reach E tbl) (B : Bodies W) {c : PyClass W} {C : RecClass W}
    (hc : IsRecord tbl c C) :
    lookupSpecial E B tbl "__setattr__" c.cid = some (if C.frozen then .library else .object) ∧
      lookupSpecial E B tbl "__hash__" c.cid = some (if C.frozen then .library else .absent) := by
  have ht := hr.table
  obtain ⟨l, hl⟩ := ht.head c hc.1
  have hrec := (ht.recd c hc.1).1 (by rw [hc.2]; rfl)
  have hno : c.cid ≠ E.object := by
    intro e
    have := findClass_of_mem ht.nodup hc.1
    rw [e, show findClass tbl E.object = some E.objectClass from findClass_of_mem ht.nodup (record_in ht).2] at this
    cases this
    cases hc.2
  have hs : special E B c = if C.frozen then ((bodyDict (B c.cid)).set "__setattr__" .library).set "__hash__" .library
      else ((bodyDict (B c.cid)).set "__setattr__" .object).set "__hash__" .absent := by
    unfold special
    rw [if_neg hno, if_neg hrec.2, hc.2]
  unfold lookupSpecial
  rw [findClass_of_mem ht.nodup hc.1]
  simp only
  rw [hl]
  unfold firstOf
  rw [findClass_of_mem ht.nodup hc.1]
  simp only [Option.bind_some, hs]
  cases C.frozen with
  | true =>
    simp only [if_true]
    rw [Dict.get?_set, if_neg (by decide), Dict.get?_set, if_pos rfl, Dict.get?_set, if_pos rfl]
    exact ⟨rfl, rfl⟩
  | false =>
    simp only [Bool.false_eq_true, if_false]
    rw [Dict.get?_set, if_neg (by decide), Dict.get?_set, if_pos rfl, Dict.get?_set, if_pos rfl]
    exact ⟨rfl, rfl⟩

/-- C113: the `__init__` of a record class is that of the nearest class of its resolution order whose body defines one; a definition in its
own body always counts. -/
theorem C113_init {E : PyEnv W} {tbl : List (PyClass W)} (hr : Reach E tbl) (B : Bodies W) {c : PyClass W} {C : RecClass W}
    (hc : IsRecord tbl c C) :
    (∃ m, HasInit E B tbl c m ∧ lookupSpecial E B tbl "__init__" c.cid = some m ∧ ∀ m', HasInit E B tbl c m' → m' = m) ∧
      ∀ m, lastDef (B c.cid) "__init__" = some m → HasInit E B tbl c m := by
  have ht := hr.table
  have hrec := (ht.recd c hc.1).1 (by rw [hc.2]; rfl)
  obtain ⟨m, hm⟩ := init_any hr B hc.1
  refine ⟨⟨m, hm, (lookup_init ht hc.1 m).2 hm, fun m' h => init_unique ht h hm⟩, ?_⟩
  intro m hl
  obtain ⟨l, he⟩ := ht.head c hc.1
  refine ⟨[], c.cid, l, he, ⟨c, hc.1, rfl, ?_⟩, nofun⟩
  have hno : c.cid ≠ E.object := by
    intro e
    have := findClass_of_mem ht.nodup hc.1
    rw [e, show findClass tbl E.object = some E.objectClass from findClass_of_mem ht.nodup (record_in ht).2] at this
    cases this
    cases hc.2
  unfold ownInit
  rw [if_neg hno, if_neg hrec.2, hl]

/-- C113: what the class statement warns of: each of the three names that is in the class body (`__hash__` also if the body defines
`__eq__`), and a base whose `__init__` comes from neither `object` nor `RecordBase`. -/
theorem C113_warnings {E : PyEnv W} {tbl : List (PyClass W)} (hr : Reach E tbl) (B : Bodies W) {c : PyClass W} {C : RecClass W}
    (hc : IsRecord tbl c C) :
    (∀ n, .overrides n ∈ warnings E B tbl c ↔ (n = "__init__" ∨ n = "__setattr__" ∨ n = "__hash__") ∧ Defines (B c.cid) n ∨
      n = "__hash__" ∧ Defines (B c.cid) "__eq__") ∧
    (.parents ∈ warnings E B tbl c ↔ ∃ b ∈ tbl, b.cid ∈ c.bases ∧ ∃ m, HasInit E B tbl b m ∧ m ≠ .object ∧ m ≠ .library) ∧
    (warnings E B tbl c).Nodup := by
  have ht := hr.table
  have hknown : ∀ b ∈ c.bases, ∃ k ∈ tbl, k.cid = b := by
    intro b hb
    obtain ⟨l, hl, hs⟩ := (C97_mro hr hc.1).1
    exact ht.known c hc.1 b (by rw [hl]; exact List.mem_cons_of_mem _ (hs.subset hb))
  refine ⟨fun n => ?_, ?_, ?_⟩
  · unfold warnings
    rw [List.mem_append]
    have hnp : ¬ Warning.overrides n ∈ (if c.bases.any (fun b => !Meth.known (lookupSpecial E B tbl "__init__" b)) = true
        then [Warning.parents] else []) := by
      split
      · intro h; cases List.mem_singleton.1 h
      · intro h; cases h
    constructor
    · rintro (h | h)
      · obtain ⟨n', hn', he⟩ := List.mem_map.1 h
        cases he
        obtain ⟨hf, hh⟩ := List.mem_filter.1 hn'
        have hf : n = "__init__" ∨ n = "__setattr__" ∨ n = "__hash__" := by simpa [forbidden] using hf
        rcases has_bodyDict.1 hh with h | h
        · exact .inl ⟨hf, h⟩
        · exact .inr h
      · exact absurd h hnp
    · intro h
      refine .inl (List.mem_map.2 ⟨n, List.mem_filter.2 ⟨?_, has_bodyDict.2 ?_⟩, rfl⟩)
      · rcases h with ⟨rfl | rfl | rfl, _⟩ | ⟨rfl, _⟩ <;> simp [forbidden]
      · rcases h with ⟨_, h⟩ | h
        · exact .inl h
        · exact .inr h
  · have hsplit : Warning.parents ∈ warnings E B tbl c ↔
        c.bases.any (fun b => !Meth.known (lookupSpecial E B tbl "__init__" b)) = true := by
      unfold warnings
      rw [List.mem_append]
      constructor
      · rintro (h | h)
        · obtain ⟨_, _, he⟩ := List.mem_map.1 h
          cases he
        · split at h
          · next h' => exact h'
          · cases h
      · intro h
        rw [if_pos h]
        exact .inr (List.mem_singleton.2 rfl)
    rw [hsplit, List.any_eq_true]
    constructor
    · rintro ⟨b, hb, hk⟩
      obtain ⟨k, hkt, rfl⟩ := hknown b hb
      obtain ⟨m, hm⟩ := init_any hr B hkt
      refine ⟨k, hkt, hb, m, hm, ?_, ?_⟩
      all_goals
        rintro rfl
        rw [(lookup_init ht hkt _).2 hm] at hk
        cases hk
    · rintro ⟨k, hkt, hb, m, hm, h1, h2⟩
      refine ⟨k.cid, hb, ?_⟩
      rw [(lookup_init ht hkt _).2 hm]
      cases m with
      | object => exact absurd rfl h1
      | library => exact absurd rfl h2
      | absent => rfl
      | user run => rfl
  · unfold warnings
    have h1 : ((forbidden.filter (bodyDict (B c.cid)).has).map Warning.overrides).Nodup := by
      refine List.Pairwise.map _ (fun a b h => ?_) (List.Pairwise.filter _ (by decide : forbidden.Nodup))
      intro e
      cases e
      exact h rfl
    split
    · refine List.nodup_append.2 ⟨h1, by simp, ?_⟩
      intro a ha b hb e
      obtain ⟨_, _, he⟩ := List.mem_map.1 ha
      rw [List.mem_singleton.1 hb] at e
      rw [e] at he
      cases he
    · rw [List.append_nil]
      exact h1

/-- C113: a record class whose statement does not warn has the initializer of `RecordBase`, which does nothing, provided that class bodies
do not assign `object.__init__` themselves: no initializer runs without a warning. -/
theorem C113_silent {E : PyEnv W} {tbl : List (PyClass W)} (hr : Reach E tbl) {B : Bodies W} (hB : OwnInits B) {c : PyClass W}
    {C : RecClass W} (hc : IsRecord tbl c C) (hw : warnings E B tbl c = []) : HasInit E B tbl c .library := by
  have ht := hr.table
  have hrec := (ht.recd c hc.1).1 (by rw [hc.2]; rfl)
  have hno : c.cid ≠ E.object := by
    intro e
    have := findClass_of_mem ht.nodup hc.1
    rw [e, show findClass tbl E.object = some E.objectClass from findClass_of_mem ht.nodup (record_in ht).2] at this
    cases this
    cases hc.2
  obtain ⟨w1, w2, -⟩ := C113_warnings hr B hc
  obtain ⟨m, hm⟩ := init_any hr B hc.1
  obtain ⟨pre, d, post, hsplit, ⟨k, hk, hkd, hkm⟩, hpre⟩ := hm
  have hm : HasInit E B tbl c m := ⟨pre, d, post, hsplit, ⟨k, hk, hkd, hkm⟩, hpre⟩
  -- the initializer is known
  have hknown : m = .object ∨ m = .library := by
    refine Classical.byContradiction fun hnot => ?_
    have hd : d ∈ c.mro := by rw [hsplit]; simp
    rcases (C97_mro hr hc.1).2.2.2 d hd with hdc | ⟨kb, hkb, hkbc, hdk⟩
    · have hkc : k = c := mem_unique ht.nodup hk hc.1 (hkd.trans hdc)
      subst hkc
      unfold ownInit at hkm
      rw [if_neg hno, if_neg hrec.2] at hkm
      have := (w1 "__init__").2 (.inl ⟨.inl rfl, m, lastDef_some hkm⟩)
      rw [hw] at this
      cases this
    · -- the class of the base
      have hsome : ∃ m', HasInit E B tbl kb m' := by
        cases h : firstOf tbl (ownInit E B) kb.mro with
        | some m' => exact ⟨m', (firstOf_some ht.nodup).1 h⟩
        | none =>
          have := (firstOf_none ht.nodup).1 h d hdk k hk hkd
          rw [hkm] at this
          cases this
      obtain ⟨m', hm'⟩ := hsome
      have hk' : m' = .object ∨ m' = .library := by
        refine Classical.byContradiction fun hn => ?_
        have := w2.2 ⟨kb, hkb, hkbc, m', hm', fun e => hn (.inl e), fun e => hn (.inr e)⟩
        rw [hw] at this
        cases this
      obtain ⟨pre', d', post', hs', ⟨k', hk'm, hk'd, hk'v⟩, hpre'⟩ := hm'
      rw [hs'] at hdk
      rcases List.mem_append.1 hdk with h | h
      · rw [hpre' d h k hk hkd] at hkm; cases hkm
      · rcases List.mem_cons.1 h with h | h
        · subst h
          have := mem_unique ht.nodup hk hk'm (hkd.trans hk'd.symm)
          subst this
          rw [hkm] at hk'v
          cases hk'v
          exact hnot hk'
        · have hsub : [d', d].Sublist kb.mro := by
            rw [hs']
            exact (List.Sublist.cons_cons d' (List.singleton_sublist.2 h)).trans (List.sublist_append_right _ _)
          have hkbsup : kb.mro.Sublist c.mro := by
            refine ht.trans c hc.1 kb hkb ?_
            obtain ⟨l, hl, hb⟩ := (C97_mro hr hc.1).1
            rw [hl]
            exact List.mem_cons_of_mem _ (hb.subset hkbc)
          have hbefore := before_of_sublist (hsplit ▸ hsub.trans hkbsup) (hsplit ▸ ht.once c hc.1)
          rw [hpre d' hbefore k' hk'm hk'd] at hk'v
          cases hk'v
  rcases hknown with rfl | rfl
  · exfalso
    by_cases hko : k.cid = E.object
    · have hobj : d = E.object := hkd.symm.trans hko
      subst hobj
      have hsub : [E.recordBase, E.object].Sublist c.mro := ht.trans c hc.1 E.recordClass (record_in ht).1 hrec.1
      have := before_of_sublist (hsplit ▸ hsub) (hsplit ▸ ht.once c hc.1)
      have := hpre _ this E.recordClass (record_in ht).1 rfl
      unfold ownInit at this
      have hne : E.recordClass.cid ≠ E.object := E.ne
      have he : E.recordClass.cid = E.recordBase := rfl
      rw [if_neg hne, if_pos he] at this
      cases this
    · unfold ownInit at hkm
      rw [if_neg hko] at hkm
      split at hkm
      · cases hkm
      · obtain ⟨run, h⟩ := hB _ _ (lastDef_some hkm)
        cases h
  · exact hm

/-- C113: if no statement of a record class (among those whose instances the call can return) warned, calling the class is what the rest of
the model says: `__new__`, and no initializer. -/
theorem C113_call_silent {E : PyEnv W} {tbl : List (PyClass W)} (hr : Reach E tbl) {B : Bodies W} (hB : OwnInits B) {C : RecClass W}
    (hk : ∀ d, W.isSub d C.cid = true → ∃ c D, IsRecord tbl c D ∧ c.cid = d ∧ warnings E B tbl c = [])
    (new : Option W.Obj → Dict W.Obj → M W (Res W)) (arg : Option W.Obj) (kw : Dict W.Obj) :
    typeCall E B tbl C new arg kw = callCls C new arg kw := by
  have hinit : ∀ r : Res W, r.isInst C.cid = true → lookupSpecial E B tbl "__init__" r.cls = some .library := by
    intro r h
    have hs : W.isSub r.cls C.cid = true := by cases r <;> exact h
    obtain ⟨c, D, hc, he, hw⟩ := hk _ hs
    rw [← he]
    exact (lookup_init hr.table hc.1 _).2 (C113_silent hr hB hc hw)
  unfold typeCall callCls
  have hb : ∀ (x : M W (Res W)), (arg.isSome && kw.has "arg") = false →
      (M.bind x fun r => if r.isInst C.cid = true then Meth.init (lookupSpecial E B tbl "__init__" r.cls) r arg kw else M.pure r) =
      M.bind x (callCls.init C kw) := by
    intro x ha
    congr 1
    funext r
    unfold callCls.init
    cases hi : r.isInst C.cid with
    | false => rfl
    | true =>
      simp only [if_true, Bool.true_and]
      rw [hinit r hi]
      unfold Meth.init
      simp only [ha, Bool.or_false]
  by_cases hcls : kw.has "cls" = true
  · simp only [hcls, if_true]
    rfl
  · simp only [hcls, Bool.false_eq_true, if_false]
    cases arg with
    | none =>
      cases hg : kw.get? "arg" with
      | none => exact hb _ rfl
      | some a => exact hb _ rfl
    | some a =>
      cases hg : kw.get? "arg" with
      | none => exact hb _ (by unfold Dict.has; rw [hg]; rfl)
      | some b => rfl

/-- C113: the initializer of the class of the result runs once, after `__new__`, with the arguments of the call, iff `__new__` returned an
instance of the class called; what it raises, the call raises. -/
theorem C113_call {E : PyEnv W} {tbl : List (PyClass W)} (hr : Reach E tbl) (B : Bodies W) {C : RecClass W}
    (new : Option W.Obj → Dict W.Obj → M W (Res W)) {arg : Option W.Obj} {kw : Dict W.Obj} (h1 : kw.has "cls" = false)
    (h2 : kw.has "arg" = false) (s : LState W) :
    (∀ e s', new arg kw s = (.error e, s') → typeCall E B tbl C new arg kw s = (.error e, s')) ∧
    (∀ r s', new arg kw s = (.ok r, s') → r.isInst C.cid = false → typeCall E B tbl C new arg kw s = (.ok r, s')) ∧
    (∀ r s' c run, new arg kw s = (.ok r, s') → r.isInst C.cid = true → c ∈ tbl → c.cid = r.cls →
      HasInit E B tbl c (.user run) → typeCall E B tbl C new arg kw s = run r arg kw s') := by
  have hg : kw.get? "arg" = none := by
    unfold Dict.has at h2
    cases h : kw.get? "arg" with
    | none => rfl
    | some a => rw [h] at h2; cases h2
  have ht : typeCall E B tbl C new arg kw = M.bind (new arg kw) fun r =>
      if r.isInst C.cid then Meth.init (lookupSpecial E B tbl "__init__" r.cls) r arg kw else M.pure r := by
    unfold typeCall
    simp only [h1, Bool.false_eq_true, if_false, hg]
  rw [ht]
  refine ⟨fun e s' h => M.bind_error h, fun r s' h hi => ?_, fun r s' c run h hi hc he hm => ?_⟩
  · rw [M.bind_ok h, hi]
    rfl
  · rw [M.bind_ok h, hi, ← he, (lookup_init hr.table hc _).2 hm]
    rfl

end Records

/-! ### concrete cases -/
namespace Records.Toy.Spc
open Spec Prog

-- the program of C97: `A(RecordBase)`, `B(A)`, `M`, `D(M, A)`; and then `class F(A, M, frozen=True): z: int = 1`
def stF : PyStmt Toy.W :=
  { cid := .record 4, bases := [.record 0, .record 2], frozen := true, anns := [("z", .plain (.cls .int))]
    attrs := [("z", { value := .value (.int 1) })] }

def cF : PyClass Toy.W := made t4 stF E.objectClass
def t5 : List (PyClass Toy.W) := t4 ++ [cF]
theorem F_ok : newClass E t4 stF = .ok cF := rfl
theorem ids4 : t4.map (·.cid) = [TCls.object, .record 100, .record 0, .record 1, .record 2, .record 3] := rfl
theorem t5_reach : Reach E t5 := .stmt t4 stF cF t4_reach (fresh_of ids4 rfl) (known_of ids4 rfl) (by decide) F_ok

/-- an initializer that logs 7 -/
def init7 : Meth Toy.W := .user fun r _ _ s => (.ok r, (log 7 s).2)

/-- `M` defines `__init__`, `__setattr__` and `__hash__`; `B` defines `__init__` and `__eq__` -/
def bodies : Bodies Toy.W := fun c => match c with
  | .record 2 => [("__init__", init7), ("__setattr__", init7), ("__hash__", init7)]
  | .record 1 => [("__init__", init7), ("__eq__", init7)]
  | _ => []

theorem bodies_own : OwnInits (W := Toy.W) bodies := by
  intro c m h
  unfold bodies at h
  split at h
  · simp [init7] at h
    exact ⟨_, h⟩
  · simp [init7] at h
    exact ⟨_, h⟩
  · cases h

theorem A_rec5 : IsRecord t5 cA (recOf cA) := ⟨by simp [t5, t4, t3, t2, t1], rfl⟩
theorem B_rec5 : IsRecord t5 cB (recOf cB) := ⟨by simp [t5, t4, t3, t2], rfl⟩
theorem D_rec5 : IsRecord t5 cD (recOf cD) := ⟨by simp [t5, t4], rfl⟩
theorem F_rec5 : IsRecord t5 cF (recOf cF) := ⟨by simp [t5], rfl⟩

-- `A` is silent, `B` warns of two names, `D` and `F` of a parent
example : warnings E bodies t5 cA = [] := rfl
example : warnings E bodies t5 cB = [.overrides "__init__", .overrides "__hash__"] := rfl
example : warnings E bodies t5 cD = [.parents] := rfl
example : warnings E bodies t5 cF = [.parents] := rfl

-- `F(A, M)` has the initializer of the library (`A` comes first), `D(M, A)` that of `M`, `B` its own
example : lookupSpecial E bodies t5 "__init__" cF.cid = some .library := rfl
example : lookupSpecial E bodies t5 "__init__" cD.cid = some init7 := rfl
example : lookupSpecial E bodies t5 "__init__" cB.cid = some init7 := rfl
example := C113_init t5_reach bodies D_rec5
example := C113_warnings t5_reach bodies D_rec5
-- neither the `__setattr__` nor the `__hash__` of `M` is used
example := C113_setattr_hash t5_reach bodies D_rec5
example : lookupSpecial E bodies t5 "__hash__" cF.cid = some .library := (C113_setattr_hash t5_reach bodies F_rec5).2
example : HasInit E bodies t5 cA .library := C113_silent t5_reach bodies_own A_rec5 rfl

/-- only `A` itself is a subclass of `A` in the concrete world -/
theorem A_only : ∀ d : Toy.W.Cls, Toy.W.isSub d (recOf cA).cid = true →
    ∃ c D, IsRecord t5 c D ∧ c.cid = d ∧ warnings E bodies t5 c = [] := by
  intro d hd
  refine ⟨cA, recOf cA, A_rec5, ?_, rfl⟩
  have : Toy.isSub d (.record 0) = true := hd
  simp [Toy.isSub] at this
  exact this.symm

example := C113_call_silent (W := Toy.W) t5_reach bodies_own A_only (fun _ _ => M.pure (.old .none)) none [("x", .int 1)]

/-- a result of `D`, and the call that runs the initializer of `M` on it -/
def instD : Inst Toy.W := ⟨.record 3, [], none⟩

theorem D_init : HasInit E bodies t5 cD init7 := (lookup_init t5_reach.table D_rec5.1 _).1 rfl

example : typeCall E bodies t5 (recOf cD) (fun _ _ => M.pure (.new instD)) none [("x", .int 1)] s0 = (.ok (.new instD), (log 7 s0).2) :=
  ((C113_call t5_reach bodies (C := recOf cD) (fun _ _ => M.pure (.new instD)) (arg := none) (kw := [("x", .int 1)]) rfl rfl s0).2.2
    (.new instD) s0 cD _ rfl rfl D_rec5.1 rfl D_init)

/-- C113 (refuted claim): "must not override `__init__` (method will be overridden)". -/
theorem C113_refuted_overridden : ¬ ∀ (B : Bodies Toy.W) (c : PyClass Toy.W) (C : RecClass Toy.W), IsRecord t5 c C →
    Warning.overrides "__init__" ∈ warnings E B t5 c → HasInit E B t5 c .library := by
  intro h
  have h1 := h bodies cB _ B_rec5 (List.mem_cons_self)
  have h2 : HasInit E bodies t5 cB init7 := (lookup_init t5_reach.table B_rec5.1 _).1 rfl
  have := init_unique t5_reach.table h1 h2
  cases this

/-- C113 (refuted claim): "has parents that implement `__init__`, the initializer will not be called". -/
theorem C113_refuted_not_called : ¬ ∀ (B : Bodies Toy.W) (c : PyClass Toy.W) (C : RecClass Toy.W), IsRecord t5 c C →
    warnings E B t5 c = [.parents] → HasInit E B t5 c .library := by
  intro h
  have := init_unique t5_reach.table (h bodies cD _ D_rec5 rfl) D_init
  cases this

end Records.Toy.Spc
