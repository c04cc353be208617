import Verif.Spec.Keys
import Verif.Props.Equality
set_option linter.unusedSectionVars false
/-
Lemmas on dicts with record keys.
-/
namespace Records
variable {W : World} {R V : Type} [DecidableEq R]

/-- the records of a program: each a proper record of its frozen class -/
structure MemOK (H : Hasher W) (cls : R → RecClass W) (m0 m : Mem W R) : Prop where
  proper : ∀ r, Proper H (cls r) (m r)
  dict : ∀ r, (m r).dict = (m0 r).dict

theorem MemOK.put {H : Hasher W} {cls : R → RecClass W} {m0 m : Mem W R} (hm : MemOK H cls m0 m) {r : R} {i : Inst W}
    (hp : Proper H (cls r) i) (hd : i.dict = (m r).dict) : MemOK H cls m0 (m.put r i) := by
  refine ⟨fun r' => ?_, fun r' => ?_⟩
  · unfold Mem.put; split
    · next h => subst h; exact hp
    · exact hm.proper r'
  · unfold Mem.put; split
    · next h => subst h; exact hd.trans (hm.dict _)
    · exact hm.dict r'

theorem sameFields_congr {C : RecClass W} {a b a' b' : Inst W} (ha : a'.dict = a.dict) (hb : b'.dict = b.dict) :
    SameFields C a' b' ↔ SameFields C a b := by unfold SameFields SameField; rw [ha, hb]

theorem MemOK.same {H : Hasher W} {cls : R → RecClass W} {m0 m : Mem W R} (hm : MemOK H cls m0 m) (a b : R) :
    SameKey cls m a b ↔ SameKey cls m0 a b := by
  unfold SameKey; rw [sameFields_congr (hm.dict a) (hm.dict b)]

section
variable {H : Hasher W} {cls : R → RecClass W} {m0 : Mem W R}

theorem SameKey.refl (hW : EqOK W) (h0 : ∀ r, Proper H (cls r) (m0 r)) (a : R) : SameKey cls m0 a a := by
  refine ⟨rfl, fun k hk => ?_⟩
  obtain ⟨v, hv⟩ := (h0 a).full.get hk
  exact ⟨v, v, hv, hv, hW.refl v⟩

theorem SameKey.symm (hW : EqOK W) (hc : ClsOK cls) {a b : R} (h : SameKey cls m0 a b) : SameKey cls m0 b a := by
  refine ⟨h.1.symm, fun k hk => ?_⟩
  rw [← hc.ident a b h.1] at hk
  obtain ⟨v, w, h1, h2, h3⟩ := h.2 k hk
  exact ⟨w, v, h2, h1, hW.symm h3⟩

theorem SameKey.trans (hW : EqOK W) (hc : ClsOK cls) {a b c : R} (h : SameKey cls m0 a b) (h' : SameKey cls m0 b c) :
    SameKey cls m0 a c := by
  refine ⟨h.1.trans h'.1, fun k hk => ?_⟩
  obtain ⟨v, w, h1, h2, h3⟩ := h.2 k hk
  rw [hc.ident a b h.1] at hk
  obtain ⟨w', x, h4, h5, h6⟩ := h'.2 k hk
  rw [h2] at h4; cases h4
  exact ⟨v, x, h1, h5, hW.trans h3 h6⟩

theorem SameKey.hash (hW : EqOK W) (hH : HashContract H) (hc : ClsOK cls) (h0 : ∀ r, Proper H (cls r) (m0 r)) {a b : R}
    (h : SameKey cls m0 a b) : recordHash H (cls a) (m0 a) = recordHash H (cls b) (m0 b) := by
  have e := hc.ident a b h.1
  refine (recordHash_same hW hH h.2 ((h0 a).hashable (hc.frozen a)) ?_).trans (by rw [e])
  rw [e]
  exact (h0 b).hashable (hc.frozen b)

theorem memHash_ok (E : Env W) (hc : ClsOK cls) {m : Mem W R} (hm : MemOK H cls m0 m) (r : R) (s : LState W) :
    ∃ m', memHash E H cls r m s = (.ok (recordHash H (cls r) (m0 r)), m', s) ∧ MemOK H cls m0 m' := by
  unfold memHash
  rw [hashInst_proper (hc.creatable r).wf (hc.frozen r) (hm.proper r)]
  refine ⟨_, by rw [recordHash_congr (hm.dict r)], hm.put (hm.proper r).cached rfl⟩

theorem memEq_ok (E : Env W) (hW : EqOK W) (hH : HashContract H) (hc : ClsOK cls) {m : Mem W R} (hm : MemOK H cls m0 m) {a b : R}
    (hab : a ≠ b) (s : LState W) :
    ∃ r m', memEq E H cls a b m s = (.ok r, m', s) ∧ MemOK H cls m0 m' ∧ (r = true ↔ SameKey cls m0 a b) := by
  have hb : (m b).cid = (cls a).cid → cls a = cls b := fun h => hc.ident a b (h.symm.trans (hm.proper b).cls)
  obtain ⟨r, i, j, h1, h2, h3, h4, h5, h6, h7⟩ := C67_eq_iff (E := E) hW hH (hc.creatable a) (hm.proper a)
    (b := m b) (fun h => by rw [hb h]; exact hm.proper b) s
  unfold memEq
  rw [h1]
  refine ⟨r, _, rfl, ?_, ?_⟩
  · have hm1 := hm.put h3 h4
    by_cases h : (m b).cid = (cls a).cid
    · refine hm1.put (by rw [← hb h]; exact h5 h) (h7.trans ?_)
      unfold Mem.put; rw [if_neg (Ne.symm hab)]
    · have : eqInst E H (cls a) (m a) (m b) s = (.ok false, m a, m b, s) :=
        C67_other_class E H (cls a) (fun e => h (e.symm.trans (hm.proper a).cls)) s
      rw [this] at h1
      cases h1
      refine hm1.put (hm.proper b) ?_
      unfold Mem.put; rw [if_neg (Ne.symm hab)]
  · rw [h2, ← hm.same a b]
    unfold SameKey
    rw [(hm.proper a).cls, (hm.proper b).cls]
    exact ⟨fun h => ⟨h.1.symm, h.2⟩, fun h => ⟨h.1.symm, h.2⟩⟩

/-- the stored hashes are those of the keys -/
def HashesOK (H : Hasher W) (cls : R → RecClass W) (m0 : Mem W R) (es : List (Entry R V)) : Prop :=
  ∀ e ∈ es, e.hash = recordHash H (cls e.key) (m0 e.key)

theorem findKey_ok (E : Env W) (hW : EqOK W) (hH : HashContract H) (hc : ClsOK cls) (h0 : ∀ r, Proper H (cls r) (m0 r)) (r : R)
    (s : LState W) (es : List (Entry R V)) : ∀ (pre : List (Entry R V)) (m : Mem W R), MemOK H cls m0 m → HashesOK H cls m0 es →
    ∃ x m', findKey E H cls r (recordHash H (cls r) (m0 r)) pre es m s = (.ok x, m', s) ∧ MemOK H cls m0 m' ∧
      ((x = none ∧ ∀ e ∈ es, ¬ SameKey cls m0 e.key r) ∨
        ∃ p e post, x = some (pre ++ p, e, post) ∧ es = p ++ e :: post ∧ SameKey cls m0 e.key r) := by
  induction es with
  | nil => intro pre m hm _; exact ⟨none, m, rfl, hm, .inl ⟨rfl, nofun⟩⟩
  | cons e es ih =>
    intro pre m hm he
    have he' : HashesOK H cls m0 es := fun x hx => he x (by simp [hx])
    have next : ∀ m1, MemOK H cls m0 m1 → ¬ SameKey cls m0 e.key r →
        ∃ x m', findKey E H cls r (recordHash H (cls r) (m0 r)) (pre ++ [e]) es m1 s = (.ok x, m', s) ∧ MemOK H cls m0 m' ∧
      ((x = none ∧ ∀ e' ∈ e :: es, ¬ SameKey cls m0 e'.key r) ∨
        ∃ p e' post, x = some (pre ++ p, e', post) ∧ e :: es = p ++ e' :: post ∧ SameKey cls m0 e'.key r) := by
      intro m1 hm1 hne
      obtain ⟨x, m', h1, h2, h3⟩ := ih (pre ++ [e]) m1 hm1 he'
      refine ⟨x, m', h1, h2, ?_⟩
      rcases h3 with ⟨h3, h4⟩ | ⟨p, e', post, h3, h4, h5⟩
      · refine .inl ⟨h3, fun e' h' => ?_⟩
        rcases List.mem_cons.1 h' with rfl | h'
        · exact hne
        · exact h4 e' h'
      · exact .inr ⟨e :: p, e', post, by rw [h3]; simp, by rw [h4]; simp, h5⟩
    unfold findKey
    by_cases hh : e.hash = recordHash H (cls r) (m0 r)
    · rw [if_neg (by simp [hh])]
      by_cases hk : e.key = r
      · rw [if_pos hk]
        exact ⟨_, m, rfl, hm, .inr ⟨[], e, es, by simp, rfl, by rw [hk]; exact SameKey.refl hW h0 r⟩⟩
      · rw [if_neg hk]
        obtain ⟨b, m1, h1, h2, h3⟩ := memEq_ok E hW hH hc hm hk s
        rw [h1]
        cases b with
        | true => exact ⟨_, m1, rfl, h2, .inr ⟨[], e, es, by simp, rfl, h3.1 rfl⟩⟩
        | false => exact next m1 h2 fun h => by cases h3.2 h
    · rw [if_pos hh]
      exact next m hm fun h => hh ((he e (by simp)).trans (h.hash hW hH hc h0))

/-- the invariant of a program -/
structure KInv (H : Hasher W) (cls : R → RecClass W) (m0 : Mem W R) (past : List (Act W R V)) (q : KState W R V) : Prop where
  mem : MemOK H cls m0 q.mem
  hashes : HashesOK H cls m0 q.dict
  distinct : q.dict.Pairwise fun a b => ¬ SameKey cls m0 a.key b.key
  value : ∀ r v, valueOf (SameKey cls m0) r past = some v ↔ ∃ e ∈ q.dict, SameKey cls m0 e.key r ∧ e.val = v

theorem withKey_ok (E : Env W) (hW : EqOK W) (hH : HashContract H) (hc : ClsOK cls) (h0 : ∀ r, Proper H (cls r) (m0 r))
    {past : List (Act W R V)} {q : KState W R V} (hq : KInv H cls m0 past q) (r : R)
    (k : Int → Option (List (Entry R V) × Entry R V × List (Entry R V)) → List (Entry R V) × Ans V) :
    ∃ x m', withKey E H cls r q k = (.ok (k (recordHash H (cls r) (m0 r)) x).2, ⟨(k (recordHash H (cls r) (m0 r)) x).1, m', q.st⟩) ∧
      MemOK H cls m0 m' ∧
      ((x = none ∧ ∀ e ∈ q.dict, ¬ SameKey cls m0 e.key r) ∨
        ∃ p e post, x = some (p, e, post) ∧ q.dict = p ++ e :: post ∧ SameKey cls m0 e.key r) := by
  obtain ⟨m1, h1, h2⟩ := memHash_ok E hc hq.mem r q.st
  obtain ⟨x, m2, h3, h4, h5⟩ := findKey_ok E hW hH hc h0 r q.st q.dict [] m1 h2 hq.hashes
  refine ⟨x, m2, ?_, h4, by simpa using h5⟩
  unfold withKey
  rw [h1]
  simp only [h3]

/-- the value of a key, given what the search found -/
theorem KInv.found {past : List (Act W R V)} {q : KState W R V} (hq : KInv H cls m0 past q) {r : R} :
    (∀ e ∈ q.dict, ¬ SameKey cls m0 e.key r) → valueOf (SameKey cls m0) r past = none := by
  intro h
  cases hv : valueOf (SameKey cls m0) r past with
  | none => rfl
  | some v => obtain ⟨e, he, hs, _⟩ := (hq.value r v).1 hv; exact absurd hs (h e he)

theorem op_proper (E : Env W) {C : RecClass W} (hC : Creatable C) (hf : C.frozen = true) {i : Inst W} (hi : Proper H C i) (s : LState W)
    {op : Op W} (hop : op.public) : Proper H C (op.run E H C i s).2.1 ∧ (op.run E H C i s).2.1.dict = i.dict := by
  refine ⟨?_, (alike_op E H hf i s hop).dict⟩
  have hh := hashInst_proper (E := E) hC.wf hf hi
  cases op with
  | set k v => show Proper H C (setInst C i k v).2; unfold setInst; rw [if_pos hf]; exact hi
  | del k => exact hop.elim
  | setHash h => exact hop.elim
  | hash => show Proper H C (hashInst E H C i s).2.1; rw [hh]; exact hi.cached
  | eq b =>
    show Proper H C (eqInst E H C i b s).2.1
    unfold eqInst
    split
    · exact hi
    · rw [hh]
      simp only
      rcases hashInst E H C b s with ⟨x | x, b', s'⟩ <;> exact hi.cached
  | eqBy b =>
    show Proper H C (eqInst E H C b i s).2.2.1
    unfold eqInst
    split
    · exact hi
    · rcases hashInst E H C b s with ⟨x | x, b', s'⟩
      · exact hi
      · simp only [hh]; exact hi.cached
  | «export» o => exact hi

theorem entry_unique (hs : ∀ a b, SameKey cls m0 a b → SameKey cls m0 b a) {es : List (Entry R V)}
    (h : es.Pairwise fun a b => ¬ SameKey cls m0 a.key b.key) {e e' : Entry R V} (he : e ∈ es) (he' : e' ∈ es)
    (hk : SameKey cls m0 e.key e'.key) : e = e' := by
  induction es with
  | nil => cases he
  | cons x xs ih =>
    obtain ⟨h1, h2⟩ := List.pairwise_cons.1 h
    rcases List.mem_cons.1 he with rfl | hx <;> rcases List.mem_cons.1 he' with rfl | hx'
    · rfl
    · exact absurd hk (h1 e' hx')
    · exact absurd (hs _ _ hk) (h1 e hx)
    · exact ih h2 hx hx'

open Classical in
/-- one step answers as expected and keeps the invariant -/
theorem act_ok (E : Env W) (hW : EqOK W) (hH : HashContract H) (hc : ClsOK cls) (h0 : ∀ r, Proper H (cls r) (m0 r))
    {past : List (Act W R V)} {q : KState W R V} (hq : KInv H cls m0 past q) {a : Act W R V}
    (ha : ∀ r o, a = .op r o → o.public) :
    Expected (SameKey cls m0) past a (a.run E H cls q).1 ∧ KInv H cls m0 (a :: past) (a.run E H cls q).2 := by
  have symm : ∀ a b, SameKey cls m0 a b → SameKey cls m0 b a := fun a b h => h.symm hW hc
  have trans : ∀ {a b c}, SameKey cls m0 a b → SameKey cls m0 b c → SameKey cls m0 a c := fun h h' => h.trans hW hc h'
  cases a with
  | put r v =>
    obtain ⟨x, m', h1, h2, h3⟩ := withKey_ok E hW hH hc h0 hq r (putFound q.dict r v)
    rw [show (Act.put r v).run E H cls q = withKey E H cls r q (putFound q.dict r v) from rfl, h1]
    have hv : ∀ r', valueOf (SameKey cls m0) r' (.put r v :: past) =
        if SameKey cls m0 r r' then some v else valueOf (SameKey cls m0) r' past := fun r' => rfl
    rcases h3 with ⟨rfl, h3⟩ | ⟨p, e, post, rfl, h3, h4⟩
    · refine ⟨rfl, h2, ?_, ?_, ?_⟩
      · intro e he
        rcases List.mem_append.1 he with he | he
        · exact hq.hashes e he
        · rw [List.mem_singleton.1 he]
      · refine List.pairwise_append.2 ⟨hq.distinct, List.pairwise_singleton .., ?_⟩
        intro a ha b hb
        rw [List.mem_singleton.1 hb]
        exact h3 a ha
      · intro r' w
        rw [hv]
        by_cases hs : SameKey cls m0 r r'
        · rw [if_pos hs]
          constructor
          · intro h; cases h; exact ⟨_, List.mem_append_right _ (List.mem_singleton.2 rfl), hs, rfl⟩
          · rintro ⟨e, he, hk, rfl⟩
            rcases List.mem_append.1 he with he | he
            · exact absurd (trans hk (symm _ _ hs)) (h3 e he)
            · rw [List.mem_singleton.1 he]
        · rw [if_neg hs, hq.value]
          constructor
          · rintro ⟨e, he, hk⟩; exact ⟨e, List.mem_append_left _ he, hk⟩
          · rintro ⟨e, he, hk⟩
            rcases List.mem_append.1 he with he | he
            · exact ⟨e, he, hk⟩
            · rw [List.mem_singleton.1 he] at hk; exact absurd hk.1 hs
    · have mem : ∀ e', e' ∈ q.dict ↔ e' ∈ p ∨ e' = e ∨ e' ∈ post := fun e' => by rw [h3]; simp
      have mem' : ∀ e', e' ∈ p ++ { e with val := v } :: post ↔ e' ∈ p ∨ e' = { e with val := v } ∨ e' ∈ post := fun e' => by simp
      have dist : (p ++ { e with val := v } :: post).Pairwise fun a b => ¬ SameKey cls m0 a.key b.key := by
        have := hq.distinct
        rw [h3] at this
        rw [List.pairwise_append, List.pairwise_cons] at this ⊢
        refine ⟨this.1, ⟨fun a ha => this.2.1.1 a ha, this.2.1.2⟩, fun a ha b hb => ?_⟩
        rcases List.mem_cons.1 hb with rfl | hb
        · exact this.2.2 a ha e (by simp)
        · exact this.2.2 a ha b (by simp [hb])
      refine ⟨rfl, h2, ?_, dist, ?_⟩
      · intro e' he'
        rcases (mem' e').1 he' with he | rfl | he
        · exact hq.hashes e' ((mem e').2 (.inl he))
        · exact hq.hashes e ((mem e).2 (.inr (.inl rfl)))
        · exact hq.hashes e' ((mem e').2 (.inr (.inr he)))
      · intro r' w
        rw [hv]
        by_cases hs : SameKey cls m0 r r'
        · rw [if_pos hs]
          constructor
          · intro h; cases h; exact ⟨_, (mem' _).2 (.inr (.inl rfl)), trans h4 hs, rfl⟩
          · rintro ⟨e', he', hk, rfl⟩
            have : { e with val := v } = e' := entry_unique symm dist ((mem' _).2 (.inr (.inl rfl))) he'
              (trans h4 (trans hs (symm _ _ hk)))
            rw [← this]
        · rw [if_neg hs, hq.value]
          have key : ∀ e' : Entry R V, SameKey cls m0 e'.key r' → e'.key ≠ e.key := by
            intro e' hk e1
            rw [e1] at hk
            exact hs (trans (symm _ _ h4) hk)
          constructor
          · rintro ⟨e', he', hk, hw⟩
            refine ⟨e', (mem' e').2 ?_, hk, hw⟩
            rcases (mem e').1 he' with h | rfl | h
            · exact .inl h
            · exact absurd rfl (key _ hk)
            · exact .inr (.inr h)
          · rintro ⟨e', he', hk, hw⟩
            refine ⟨e', (mem e').2 ?_, hk, hw⟩
            rcases (mem' e').1 he' with h | rfl | h
            · exact .inl h
            · exact absurd rfl (key _ hk)
            · exact .inr (.inr h)
  | get r =>
    obtain ⟨x, m', h1, h2, h3⟩ := withKey_ok E hW hH hc h0 hq r (getFound q.dict)
    rw [show (Act.get r).run E H cls q = withKey E H cls r q (getFound q.dict) from rfl, h1]
    refine ⟨?_, h2, hq.hashes, hq.distinct, hq.value⟩
    show _ = _
    rcases h3 with ⟨rfl, h3⟩ | ⟨p, e, post, rfl, h3, h4⟩
    · rw [hq.found h3]; rfl
    · rw [(hq.value r e.val).2 ⟨e, by rw [h3]; simp, h4, rfl⟩]; rfl
  | pop r =>
    obtain ⟨x, m', h1, h2, h3⟩ := withKey_ok E hW hH hc h0 hq r (popFound q.dict)
    rw [show (Act.pop r).run E H cls q = withKey E H cls r q (popFound q.dict) from rfl, h1]
    have hv : ∀ r', valueOf (SameKey cls m0) r' (.pop r :: past) =
        if SameKey cls m0 r r' then none else valueOf (SameKey cls m0) r' past := fun r' => rfl
    rcases h3 with ⟨rfl, h3⟩ | ⟨p, e, post, rfl, h3, h4⟩
    · refine ⟨?_, h2, hq.hashes, hq.distinct, ?_⟩
      · show _ = _; rw [hq.found h3]; rfl
      · intro r' w
        rw [hv]
        by_cases hs : SameKey cls m0 r r'
        · rw [if_pos hs]
          constructor
          · intro h; cases h
          · rintro ⟨e, he, hk, _⟩; exact absurd (trans hk (symm _ _ hs)) (h3 e he)
        · rw [if_neg hs]; exact hq.value r' w
    · have mem : ∀ e', e' ∈ q.dict ↔ e' ∈ p ∨ e' = e ∨ e' ∈ post := fun e' => by rw [h3]; simp
      have dist := hq.distinct
      rw [h3] at dist
      have dist' := List.pairwise_append.1 dist
      have dist2 := List.pairwise_cons.1 dist'.2.1
      refine ⟨?_, h2, ?_, ?_, ?_⟩
      · show _ = _
        rw [(hq.value r e.val).2 ⟨e, (mem e).2 (.inr (.inl rfl)), h4, rfl⟩]; rfl
      · intro e' he'
        exact hq.hashes e' ((mem e').2 ((List.mem_append.1 he').imp id .inr))
      · exact List.pairwise_append.2 ⟨dist'.1, dist2.2, fun a ha b hb => dist'.2.2 a ha b (by simp [hb])⟩
      · intro r' w
        rw [hv]
        by_cases hs : SameKey cls m0 r r'
        · rw [if_pos hs]
          constructor
          · intro h; cases h
          · rintro ⟨e', he', hk, _⟩
            have hke : SameKey cls m0 e'.key e.key := trans hk (symm _ _ (trans h4 hs))
            rcases List.mem_append.1 he' with h | h
            · exact absurd hke (dist'.2.2 e' h e (by simp))
            · exact absurd (symm _ _ hke) (dist2.1 e' h)
        · rw [if_neg hs, hq.value]
          constructor
          · rintro ⟨e', he', hk, hw⟩
            refine ⟨e', List.mem_append.2 ?_, hk, hw⟩
            rcases (mem e').1 he' with h | rfl | h
            · exact .inl h
            · exact absurd (trans (symm _ _ h4) hk) hs
            · exact .inr h
          · rintro ⟨e', he', hk⟩
            exact ⟨e', (mem e').2 ((List.mem_append.1 he').imp id .inr), hk⟩
  | len =>
    refine ⟨⟨q.dict.map (·.key), ⟨?_, List.pairwise_map.2 hq.distinct, ?_⟩, by rw [List.length_map]; rfl⟩, hq.mem, hq.hashes,
      hq.distinct, hq.value⟩
    · intro r hr
      obtain ⟨e, he, rfl⟩ := List.mem_map.1 hr
      rw [(hq.value e.key e.val).2 ⟨e, he, SameKey.refl hW h0 _, rfl⟩]
      nofun
    · intro r hr
      cases hv : valueOf (SameKey cls m0) r past with
      | none => exact absurd hv hr
      | some v =>
        obtain ⟨e, he, hk, _⟩ := (hq.value r v).1 hv
        exact ⟨e.key, List.mem_map.2 ⟨e, he, rfl⟩, hk⟩
  | op r o =>
    obtain ⟨h1, h2⟩ := op_proper E (hc.creatable r) (hc.frozen r) (hq.mem.proper r) q.st (ha r o rfl)
    exact ⟨trivial, hq.mem.put h1 h2, hq.hashes, hq.distinct, hq.value⟩
end

end Records
