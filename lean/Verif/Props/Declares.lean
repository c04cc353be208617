import Verif.Proofs.Declares
import Verif.Proofs.Honest
import Verif.Props.Program
set_option linter.unusedSimpArgs false
/-
C108: which exceptions a class statement can raise.
-/
namespace Records
variable {W : World} {Q : ExcKind → Prop}

/-- the fields before `pre_bind` -/
theorem mid_start (hT : Q .typeError) {sp : ClassSpec W} (hok : sp.OK) (hp : ∀ p ∈ sp.parents, Creatable p) (hm : sp.Made Q)
    {own : Dict (Field W)} (ho : ownFields sp sp.hints = .ok own) :
    MidFields Q sp.cid (sp.parents.flatMap (·.fields) ++ own) := by
  intro kf hkf
  rcases List.mem_append.1 hkf with hkf | hkf
  · obtain ⟨p, hpm, hkf⟩ := List.mem_flatMap.1 hkf
    refine ⟨fun h => absurd h (hok.fresh p hpm kf hkf), fun _ => ?_⟩
    have wf := (hp p hpm).wf
    exact wf.bound kf.1 kf.2 (Dict.mem_get? _ wf.nodup _ _ hkf)
  · obtain ⟨k, f⟩ := kf
    obtain ⟨hh, hmem, hf⟩ := (ownFields_ok ho).2 k f hkf
    obtain ⟨-, -, hof, t, ht, hg, -⟩ := fieldFromHint_some hf
    refine ⟨fun _ => ?_, fun h => absurd hof h⟩
    exact getF_newly hT (hm.anns k hh t ((hints_perm hok).mem_iff.1 hmem) ht) noToksMade hg

/-- `pre_bind` -/
theorem preBind_err (hT : Q .typeError) {cid : W.Cls} {pre : List (String × Option Int × Tok W)} {fs : Dict (Field W)}
    (hw : fs.WF) (hm : MidFields Q cid fs) (hq : ∀ q ∈ pre, q.2.2.Made Q) :
    (∀ e, preBind pre fs = .error e → Q e.kind ∨ ∃ n key t, (n, key, t) ∈ pre ∧
      (e = .attributeError ∧ n ∉ fs.keys ∨ KeyError key e ∨
        e = .runtimeError ∧ ∃ f, fs.get? n = some f ∧ f.owner ≠ cid)) ∧
    (∀ fs', preBind pre fs = .ok fs' → MidFields Q cid fs') := by
  induction pre generalizing fs with
  | nil => rw [preBind]; exact ⟨nofun, fun fs' e => by cases e; exact hm⟩
  | cons q pre ih =>
    obtain ⟨n, key, t⟩ := q
    have ht : t.Made Q := hq _ (.head _)
    rw [preBind]
    unfold preStep
    cases hn : fs.get? n with
    | none =>
      simp only
      refine ⟨fun e he => ?_, nofun⟩
      cases he
      exact .inr ⟨n, key, t, .head _, .inl ⟨rfl, (Dict.get?_eq_none_iff _ _).1 hn⟩⟩
    | some f =>
      have hmem := Dict.get?_eq_some_mem _ _ _ hn
      have hf := hm _ hmem
      simp only
      cases ha : f.filler.applySub key t with
      | error x =>
        refine ⟨fun e he => ?_, nofun⟩
        cases he
        by_cases ho : f.owner = cid
        · rcases (hf.1 ho).applySub_err hT ht ha with h | h
          · exact .inr ⟨n, key, t, .head _, .inr (.inl h)⟩
          · exact .inl h
        · rcases (hf.2 ho).applySub_err ha with h | rfl | rfl
          · exact .inr ⟨n, key, t, .head _, .inr (.inl h)⟩
          · exact .inl hT
          · exact .inr ⟨n, key, t, .head _, .inr (.inr ⟨rfl, f, hn, ho⟩)⟩
      | ok g =>
        simp only
        have hkeys : Dict.keys (fs.set n { f with filler := g }) = fs.keys := Dict.keys_set_self hn
        have hw' : Dict.WF (fs.set n { f with filler := g }) := by unfold Dict.WF; rw [hkeys]; exact hw
        have hm' : MidFields Q cid (fs.set n { f with filler := g }) := by
          intro kf hkf
          have h1 := Dict.mem_get? _ hw' _ _ hkf
          rw [Dict.get?_set] at h1
          split at h1
          · have h1 := Option.some.inj h1
            rw [← h1]
            refine ⟨fun ho => (hf.1 ho).applySub hT ht ha, fun ho => ?_⟩
            obtain ⟨e, he⟩ := (hf.2 ho).applySub key t
            rw [ha] at he; cases he
          · exact hm kf (Dict.get?_eq_some_mem _ _ _ h1)
        obtain ⟨i1, i2⟩ := ih hw' hm' (fun q hq' => hq q (.tail _ hq'))
        refine ⟨fun e he => ?_, i2⟩
        rcases i1 e he with h | ⟨n', key', t', hmem', h⟩
        · exact .inl h
        · refine .inr ⟨n', key', t', .tail _ hmem', ?_⟩
          rw [hkeys] at h
          rcases h with h | h | ⟨h, f', hf', ho'⟩
          · exact .inl h
          · exact .inr (.inl h)
          · refine .inr (.inr ⟨h, ?_⟩)
            rw [Dict.get?_set] at hf'
            split at hf'
            · next hnn => subst hnn; cases hf'; exact ⟨f, hn, ho'⟩
            · exact ⟨f', hf', ho'⟩

/-- C108. If the tokens of a class statement raise only exceptions of `Q` when they are used, and `Q` contains TypeError, then
creating the class raises an exception of `Q`, or one of those a `pre_bind` causes itself, or ValueError because field names
collide or there is no field. -/
theorem C108_causes (hT : Q .typeError) {sp : ClassSpec W} (hok : sp.OK) (hp : ∀ p ∈ sp.parents, Creatable p) (hm : sp.Made Q)
    {e : Exc} (h : mkClass sp = .error e) :
    Q e.kind ∨ sp.BadPre e ∨
      e = .valueError ∧ (¬ (sp.inherited ++ sp.declared).Nodup ∨ sp.inherited ++ sp.declared = []) := by
  unfold mkClass at h
  cases ho : ownFields sp sp.hints with
  | error x => rw [ho] at h; cases h; rw [ownFields_err ho]; exact .inl hT
  | ok own =>
    have hk := (own_keys hok ho).1
    simp only [ho] at h
    cases hi : inheritedFields own sp.parents [] with
    | error x =>
      simp only [hi] at h; cases h
      obtain ⟨rfl, h2⟩ := inheritedFields_error hi
      refine .inr (.inr ⟨rfl, .inl fun hnd => ?_⟩)
      rw [List.nodup_append] at hnd
      rcases h2 List.nodup_nil with ⟨k, hk1, hk2⟩ | h2
      · rw [inherited_eq] at hk1
        exact hnd.2.2 k hk1 k (hk.mem_iff.1 hk2) rfl
      · apply h2
        rw [List.nil_append]
        unfold Dict.WF
        rw [inherited_eq]; exact hnd.1
    | ok inh =>
      simp only [hi] at h
      obtain ⟨e1, e2, e3, e4⟩ := all_eq hok ho hi
      rw [e1] at h
      subst e3
      have hkeys : ∀ k, k ∈ Dict.keys (sp.parents.flatMap (·.fields) ++ own) ↔ k ∈ sp.inherited ++ sp.declared := by
        intro k
        rw [List.mem_append, ← inherited_eq, ← hk.mem_iff]
        simp only [Dict.keys, List.map_append, List.mem_append]
      have hmid := mid_start hT hok hp hm ho
      split at h
      · rename_i he
        cases h
        refine .inr (.inr ⟨rfl, .inr ?_⟩)
        rw [List.isEmpty_iff] at he
        rw [List.eq_nil_iff_forall_not_mem]
        intro k hk'
        rw [← hkeys, he] at hk'
        cases hk'
      · cases h1 : preBind sp.pre (sp.parents.flatMap (·.fields) ++ own) with
        | error x =>
          simp only [h1] at h; cases h
          rcases (preBind_err hT e2 hmid hm.pre).1 _ h1 with h | ⟨n, key, t, hmem, h⟩
          · exact .inl h
          · refine .inr (.inl ?_)
            rcases h with ⟨rfl, h⟩ | ⟨⟨i, rfl⟩, rfl | rfl⟩ | ⟨rfl, f, hf, hof⟩
            · exact .unknown n key t hmem fun hk' => h ((hkeys n).2 hk')
            · exact .subKey n i t hmem
            · exact .subIndex n i t hmem
            · refine .bound n key t hmem ?_
              rcases List.mem_append.1 (Dict.get?_eq_some_mem _ _ _ hf) with hf | hf
              · rw [← inherited_eq]
                exact Dict.keys_mem_of_mem hf
              · obtain ⟨hh, -, hf⟩ := (ownFields_ok ho).2 n f hf
                exact absurd (fieldFromHint_some hf).2.2.1 hof
        | ok all1 =>
          simp only [h1] at h
          cases h2 : bindFields sp.cid sp.style all1 with
          | error x => simp only [h2] at h; cases h; exact .inl (bindFields_err hT ((preBind_err hT e2 hmid hm.pre).2 _ h1) h2)
          | ok all2 => simp only [h2] at h; cases h

/-- the hooks `pre_bind` a class statement can run: its own, or one of an existing class -/
def PyStmt.MayPreBind (tbl : List (PyClass W)) (st : PyStmt W) (P : List (String × Option Int × Tok W)) : Prop :=
  st.pre = some P ∨ ∃ k ∈ tbl, k.pre = some P

/-- C108, programs: a class statement raises an exception of `Q`, or ValueError, or, only if a `pre_bind` that adds tokens is
in reach, AttributeError, RuntimeError, LookupError or IndexError. -/
theorem C108_program (hT : Q .typeError) {E : PyEnv W} {tbl : List (PyClass W)} (hr : Reach E tbl) {st : PyStmt W}
    (hf : ∀ k ∈ tbl, k.cid ≠ st.cid) (hm : ∀ n h t, (n, h) ∈ st.anns → h.type? = some t → t.Made Q)
    (hpre : ∀ P, st.MayPreBind tbl P → ∀ q ∈ P, q.2.2.Made Q) {e : Exc} (h : newClass E tbl st = .error e) :
    Q e.kind ∨ e = .valueError ∨
      (e ∈ [Exc.attributeError, .runtimeError, .lookupError, .indexError] ∧ ∃ P, st.MayPreBind tbl P ∧ P ≠ []) := by
  unfold newClass at h
  simp only at h
  split at h
  · cases h; exact .inl hT
  · next l hl =>
    split at h
    · generalize hb : (if st.bases.isEmpty then [E.object] else st.bases) = bases at h hl
      have hs := spec_ok hr.table hf bases l
      have hP : (st.spec E tbl bases l).pre = [] ∨ st.MayPreBind tbl (st.spec E tbl bases l).pre := by
        unfold PyStmt.spec
        simp only
        cases h1 : st.pre with
        | some P => exact .inr (.inl h1)
        | none =>
          simp only
          cases h2 : firstOf tbl (·.pre) l with
          | none => exact .inl rfl
          | some P =>
            obtain ⟨p, d, q, -, ⟨k, hk, -, hk'⟩, -⟩ := (firstOf_some hr.table.nodup).1 h2
            exact .inr (.inr ⟨k, hk, hk'⟩)
      have hmade : (st.spec E tbl bases l).Made Q := by
        refine ⟨fun n h t hmem ht => ?_, fun q hq => ?_⟩
        · rcases Dict.mem_update (d := []) hmem with h' | h'
          · cases h'
          · exact hm n h t h' ht
        · rcases hP with h0 | h0
          · rw [h0] at hq; cases hq
          · exact hpre _ h0 q hq
      cases h1 : mkClass (st.spec E tbl bases l) with
      | ok C => rw [h1] at h; cases h
      | error x =>
        rw [h1] at h; cases h
        rcases C108_causes hT hs.1 hs.2 hmade h1 with h | h | h
        · exact .inl h
        · refine .inr (.inr ?_)
          have hmem : e ∈ [Exc.attributeError, .runtimeError, .lookupError, .indexError] ∧ (st.spec E tbl bases l).pre ≠ [] := by
            cases h with
            | unknown n key t hq _ => exact ⟨by simp, List.ne_nil_of_mem hq⟩
            | bound n key t hq _ => exact ⟨by simp, List.ne_nil_of_mem hq⟩
            | subKey n key t hq => exact ⟨by simp, List.ne_nil_of_mem hq⟩
            | subIndex n key t hq => exact ⟨by simp, List.ne_nil_of_mem hq⟩
          exact ⟨hmem.1, _, hP.resolve_left hmem.2, hmem.2⟩
        · exact .inr (.inl h.1)
    · cases h

end Records

namespace Records.Toy.Dc
open Records.Toy

/-- tokens may raise KeyError here -/
def Q (k : ExcKind) : Prop := k = .typeError ∨ k = .valueError ∨ k = .keyError

/-- a validator that refuses the origin `int` with KeyError when the class is created -/
def picky : Tok Toy.W := .validation fun o => if o = some .int then .error ⟨.keyError, none⟩ else .ok fun v => M.pure v

theorem picky_made : picky.Made Q := by
  unfold picky
  rw [Tok.Made]
  intro o e h
  split at h
  · cases h; exact .inr (.inr rfl)
  · cases h

theorem coercer_made (c : Coercer Toy.W) : (ctok c).Made Q := by
  unfold ctok
  rw [Tok.Made, CTok.Made]
  exact ⟨nofun, .inr (.inl rfl)⟩

/-- `class C(A): z: Tuple[int, str]`, and a `pre_bind` -/
def sp (pre : List (String × Option Int × Tok Toy.W)) (hs : List (Hint Toy.W)) (name : String := "z") : ClassSpec Toy.W :=
  { cid := .record 5, anns := [(name, .plain (.tupleFix hs))], parents := [A], pre := pre }

theorem sp_ok {pre : List (String × Option Int × Tok Toy.W)} {hs : List (Hint Toy.W)} {name : String} :
    (sp pre hs name).OK := by
  refine ⟨by simp [sp], by simp [sp], ?_⟩
  intro p hp kf hkf
  simp only [sp, List.mem_singleton] at hp
  subst hp
  have : ∀ kf ∈ A.fields, kf.2.owner = (.record 0 : TCls) := by
    intro kf hkf
    rcases hkf with _ | ⟨_, _ | ⟨_, hkf⟩⟩
    · rfl
    · rfl
    · cases hkf
  rw [this kf hkf]
  exact (by decide : (.record 0 : TCls) ≠ .record 5)

theorem sp_parents {pre : List (String × Option Int × Tok Toy.W)} {hs : List (Hint Toy.W)} {name : String} :
    ∀ p ∈ (sp pre hs name).parents, Creatable p := by
  intro p hp
  simp only [sp, List.mem_singleton] at hp
  subst hp
  exact A_creatable

theorem sp_made {pre : List (String × Option Int × Tok Toy.W)} {hs : List (Hint Toy.W)} {name : String}
    (hp : ∀ q ∈ pre, q.2.2.Made Q) (hh : Hint.MadeL Q hs) : (sp pre hs name).Made Q := by
  refine ⟨fun n h t hmem ht => ?_, hp⟩
  simp only [sp, List.mem_singleton, Prod.mk.injEq] at hmem
  obtain ⟨-, rfl⟩ := hmem
  cases ht
  rw [Hint.Made]; exact hh

/-- errors and their causes: the exception of a token, a coercer on a hollow field, a token for a name
that is no field, for an inherited field, with a sub-key the filler does not have, with an index out of range, and a
redeclared field -/
theorem errors :
    mkClass (sp [] [.annotated (.cls .int) [picky]]) = .error ⟨.keyError, none⟩ ∧
    mkClass (sp [("z", some 0, ctok (ret 1 (.int 1)))] [.cls .int]) = .error .valueError ∧
    mkClass (sp [("w", none, picky)] [.cls .int]) = .error .attributeError ∧
    mkClass (sp [("x", none, picky)] [.cls .int]) = .error .runtimeError ∧
    mkClass (sp [("x", some 0, picky)] [.cls .int]) = .error .lookupError ∧
    mkClass (sp [("z", some 2, picky)] [.cls .int]) = .error .indexError ∧
    mkClass (sp [] [.cls .int] "y") = .error .valueError :=
  ⟨rfl, rfl, rfl, rfl, rfl, rfl, rfl⟩

/-- the hypotheses of `C108_causes` hold in all of them -/
example {hs : List (Hint Toy.W)} {pre : List (String × Option Int × Tok Toy.W)} (hp : ∀ q ∈ pre, q.2.2 = picky ∨ ∃ c, q.2.2 = ctok c)
    (hh : ∀ h ∈ hs, h = .cls .int ∨ h = .annotated (.cls .int) [picky]) {e : Exc} (h : mkClass (sp pre hs) = .error e) :
    Q e.kind ∨ (sp pre hs).BadPre e ∨ e = .valueError := by
  have := C108_causes (.inl rfl) sp_ok sp_parents (sp_made (hs := hs) (pre := pre) ?_ ?_) h
  · rcases this with h | h | h
    · exact .inl h
    · exact .inr (.inl h)
    · exact .inr (.inr h.1)
  · intro q hq
    rcases hp q hq with h | ⟨c, h⟩
    · rw [h]; exact picky_made
    · rw [h]; exact coercer_made c
  · clear h
    induction hs with
    | nil => rw [Hint.MadeL]; trivial
    | cons a hs ih =>
      rw [Hint.MadeL]
      refine ⟨?_, ih fun h hm => hh h (.tail _ hm)⟩
      rcases hh a (.head _) with rfl | rfl
      · simp only [Hint.Made]
      · rw [Hint.Made]
        refine ⟨by simp only [Hint.Made], fun t ht => ?_⟩
        rw [List.mem_singleton] at ht; subst ht; exact picky_made

/-- without coercion tokens a class whose field names are fine never raises ValueError -/
example {e : Exc} (h : mkClass (sp [("z", some 1, .style .hollow), ("z", none, .style .check)] [.cls .int, .opaque]) = .error e) :
    e.kind ≠ .valueError := by
  have hm : (sp [("z", some 1, .style .hollow), ("z", none, .style .check)] [.cls .int, .opaque]).Made (fun k => k ≠ .valueError) := by
    refine ⟨fun n h t hmem ht => ?_, ?_⟩
    · simp only [sp, List.mem_singleton, Prod.mk.injEq] at hmem
      obtain ⟨-, rfl⟩ := hmem
      cases ht
      simp only [Hint.Made, Hint.MadeL, and_self]
    · intro q hq
      rcases hq with _ | ⟨_, _ | ⟨_, hq⟩⟩
      · simp only [Tok.Made]
      · simp only [Tok.Made]
      · cases hq
  rcases C108_causes (by decide) sp_ok sp_parents hm h with h | h | ⟨-, h | h⟩
  · exact h
  · cases h <;> decide
  · exact absurd (by decide) h
  · exact absurd h (by decide)

/-- ... but it raises TypeError -/
example : mkClass (sp [("z", some 1, .style .hollow), ("z", none, .style .check)] [.cls .int, .opaque]) = .error .typeError := rfl

/-- a program: the redeclared field of a subclass of `A` -/
example : newClass Prog.E Prog.t1 { cid := .record 9, bases := [.record 0], anns := [("x", .plain (.cls .int))] } =
    .error .valueError := rfl

example {e : Exc} (h : newClass Prog.E Prog.t1 { cid := .record 9, bases := [.record 0], anns := [("x", .plain (.cls .int))] } =
    .error e) : e.kind = .typeError ∨ e = .valueError := by
  have hf : ∀ k ∈ Prog.t1, k.cid ≠ (.record 9 : TCls) := Prog.fresh_of (ids := [.object, .record 100, .record 0]) rfl (by decide)
  have hno : ∀ P, PyStmt.MayPreBind Prog.t1 { cid := .record 9, bases := [.record 0], anns := [("x", .plain (.cls .int))] } P →
      False := by
    rintro P (hP | ⟨k, hk, hP⟩)
    · cases hP
    · rcases hk with _ | ⟨_, _ | ⟨_, _ | ⟨_, hk⟩⟩⟩
      · cases hP
      · cases hP
      · cases hP
      · cases hk
  rcases C108_program (Q := fun k => k = .typeError) rfl Prog.t1_reach hf
    (fun n h t hmem ht => by
      rw [List.mem_singleton] at hmem
      cases hmem; cases ht
      simp only [Hint.Made])
    (fun P hP => (hno P hP).elim) h with h | h | ⟨-, P, hP, -⟩
  · exact .inl h
  · exact .inr h
  · exact (hno P hP).elim

end Records.Toy.Dc
