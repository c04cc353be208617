import Verif.Proofs.Keys
set_option linter.unusedSectionVars false
/-
C114: records as keys of dicts and members of sets.
-/
namespace Records
variable {W : World} {R V : Type} [DecidableEq R]

theorem runActs_ok (E : Env W) {H : Hasher W} (hW : EqOK W) (hH : HashContract H) {cls : R → RecClass W} (hc : ClsOK cls)
    {m0 : Mem W R} (h0 : ∀ r, Proper H (cls r) (m0 r)) (acts : List (Act W R V)) :
    ∀ (past : List (Act W R V)) (q : KState W R V), KInv H cls m0 past q → (∀ r o, Act.op r o ∈ acts → o.public) →
      ExpectedAll (SameKey cls m0) past acts (runActs E H cls acts q).1 := by
  induction acts with
  | nil => intro _ _ _ _; rfl
  | cons a as ih =>
    intro past q hq hp
    obtain ⟨h1, h2⟩ := act_ok E hW hH hc h0 hq (a := a) (fun r o h => hp r o (by simp [h]))
    exact ⟨_, _, rfl, h1, ih (a :: past) _ h2 fun r o h => hp r o (by simp [h])⟩

/-- C114: a dict with frozen records as keys answers by class and field values: what a lookup finds is what was stored last under an
equal record, in whichever order records are hashed, compared, exported and (in vain) assigned to in between. No step on the
dict raises. -/
theorem C114_dict (E : Env W) {H : Hasher W} (hW : EqOK W) (hH : HashContract H) {cls : R → RecClass W} (hc : ClsOK cls)
    {m0 : Mem W R} (h0 : ∀ r, Proper H (cls r) (m0 r)) (acts : List (Act W R V)) (hp : ∀ r o, Act.op r o ∈ acts → o.public)
    (s : LState W) : ExpectedAll (SameKey cls m0) [] acts (runActs E H cls acts ⟨[], m0, s⟩).1 :=
  runActs_ok E hW hH hc h0 acts [] _
    ⟨⟨h0, fun _ => rfl⟩, nofun, .nil, fun _ _ => ⟨nofun, fun ⟨_, h, _⟩ => nomatch h⟩⟩ hp

theorem represents_le {same : R → R → Prop} (symm : ∀ a b, same a b → same b a) (trans : ∀ a b c, same a b → same b c → same a c)
    (keys : List R) : ∀ keys' : List R, keys.Pairwise (fun a b => ¬ same a b) → (∀ a ∈ keys, ∃ b ∈ keys', same b a) →
      keys.length ≤ keys'.length := by
  induction keys with
  | nil => intro _ _ _; exact Nat.zero_le _
  | cons a ks ih =>
    intro keys' hd ha
    obtain ⟨h1, h2⟩ := List.pairwise_cons.1 hd
    obtain ⟨b, hb, hs⟩ := ha a (by simp)
    obtain ⟨l1, l2, rfl⟩ := List.append_of_mem hb
    have := ih (l1 ++ l2) h2 fun a' ha' => by
      obtain ⟨b', hb', hs'⟩ := ha a' (by simp [ha'])
      refine ⟨b', ?_, hs'⟩
      rcases List.mem_append.1 hb' with h | h
      · exact List.mem_append_left _ h
      · rcases List.mem_cons.1 h with rfl | h
        · exact absurd (trans _ _ _ (symm _ _ hs) hs') (h1 a' ha')
        · exact List.mem_append_right _ h
    simp only [List.length_cons, List.length_append] at this ⊢
    omega

/-- C114: so `len` counts the different records that are in the dict: every list of representatives has that many. -/
theorem C114_len (hW : EqOK W) {cls : R → RecClass W} (hc : ClsOK cls) {m0 : Mem W R} {past : List (Act W R V)} {keys keys' : List R}
    (h : Represents (SameKey cls m0) past keys) (h' : Represents (SameKey cls m0) past keys') : keys.length = keys'.length := by
  have symm : ∀ a b, SameKey cls m0 a b → SameKey cls m0 b a := fun a b h => h.symm hW hc
  have trans : ∀ a b c, SameKey cls m0 a b → SameKey cls m0 b c → SameKey cls m0 a c := fun a b c h h' => h.trans hW hc h'
  exact Nat.le_antisymm (represents_le symm trans _ _ h.distinct fun a ha => h'.all a (h.live a ha))
    (represents_le symm trans _ _ h'.distinct fun a ha => h.all a (h'.live a ha))

/-- C114: a record of a class that is not frozen is no key: storing, looking up and removing raise TypeError and change nothing. -/
theorem C114_not_frozen (E : Env W) (H : Hasher W) {cls : R → RecClass W} {r : R} (hf : (cls r).frozen = false) (q : KState W R V)
    (v : V) {a : Act W R V} (ha : a = .put r v ∨ a = .get r ∨ a = .pop r) : a.run E H cls q = (.error .typeError, q) := by
  have hm : q.mem.put r (q.mem r) = q.mem := by
    funext r'; unfold Mem.put; split
    · next h => rw [h]
    · rfl
  have hh : memHash E H cls r q.mem q.st = (.error .typeError, q.mem, q.st) := by
    unfold memHash; rw [C71_unhashable E H hf]; simp only [hm]
  have key : ∀ k, withKey E H cls r q k = (.error .typeError, q) := by
    intro k; unfold withKey; rw [hh]
  rcases ha with rfl | rfl | rfl <;> exact key _

theorem findKey_skip (E : Env W) (H : Hasher W) (cls : R → RecClass W) (r : R) (h : Int) (l : List (Entry R V)) :
    ∀ (pre : List (Entry R V)) (rest : List (Entry R V)) (m : Mem W R) (s : LState W), (∀ y ∈ l, y.hash ≠ h) →
      findKey E H cls r h pre (l ++ rest) m s = findKey E H cls r h (pre ++ l) rest m s := by
  induction l with
  | nil => intro pre rest m s _; rw [List.append_nil]; rfl
  | cons y l ih =>
    intro pre rest m s hl
    rw [show findKey E H cls r h pre (y :: l ++ rest) m s = findKey E H cls r h (pre ++ [y]) (l ++ rest) m s from by
      rw [List.cons_append, findKey, if_pos (hl y (by simp))], ih _ _ _ _ fun z hz => hl z (by simp [hz])]
    simp

/-- C114: whatever the records (fields deleted, values that raise): if hashing the record raises, so does storing, looking up and removing;
likewise if comparing it with the first stored key of the same hash raises. The entries stay as they are. If that comparison answers True,
the entry is the one that is found. -/
theorem C114_raises (E : Env W) (H : Hasher W) (cls : R → RecClass W) (r : R) (q : KState W R V) (v : V) {a : Act W R V}
    (ha : a = .put r v ∨ a = .get r ∨ a = .pop r) :
    (∀ e i s, hashInst E H (cls r) (q.mem r) q.st = (.error e, i, s) → a.run E H cls q = (.error e, ⟨q.dict, q.mem.put r i, s⟩)) ∧
    ∀ h i s, hashInst E H (cls r) (q.mem r) q.st = (.ok h, i, s) → ∀ pre x post, q.dict = pre ++ x :: post →
      (∀ y ∈ pre, y.hash ≠ h) → x.hash = h → x.key ≠ r → ∀ b j k s', eqInst E H (cls x.key) (q.mem x.key) i s = (b, j, k, s') →
        (∀ e, b = .error e → a.run E H cls q = (.error e, ⟨q.dict, (q.mem.put x.key j).put r k, s'⟩)) ∧
        (b = .ok true → (a.run E H cls q).2.mem = (q.mem.put x.key j).put r k ∧ (a.run E H cls q).2.st = s' ∧
          (a = .put r v → (a.run E H cls q).2.dict = pre ++ { x with val := v } :: post) ∧
          (a = .get r → (a.run E H cls q).1 = .ok (.found (some x.val)) ∧ (a.run E H cls q).2.dict = q.dict) ∧
          (a = .pop r → (a.run E H cls q).1 = .ok (.found (some x.val)) ∧ (a.run E H cls q).2.dict = pre ++ post)) := by
  have key : ∃ k, a.run E H cls q = withKey E H cls r q k ∧ (a = .put r v → k = putFound q.dict r v) ∧
      (a = .get r → k = getFound q.dict) ∧ (a = .pop r → k = popFound q.dict) := by
    rcases ha with rfl | rfl | rfl
    · exact ⟨_, rfl, fun _ => rfl, nofun, nofun⟩
    · exact ⟨_, rfl, nofun, fun _ => rfl, nofun⟩
    · exact ⟨_, rfl, nofun, nofun, fun _ => rfl⟩
  obtain ⟨k, hr, k1, k2, k3⟩ := key
  rw [hr]
  refine ⟨fun e i s hh => ?_, fun h i s hh pre x post hd hpre hx hk b j k' s' he => ?_⟩
  · have hm : memHash E H cls r q.mem q.st = (.error e, q.mem.put r i, s) := by unfold memHash; rw [hh]
    unfold withKey
    rw [hm]
  · have hm : memHash E H cls r q.mem q.st = (.ok h, q.mem.put r i, s) := by unfold memHash; rw [hh]
    have hmem : ((q.mem.put r i).put x.key j).put r k' = (q.mem.put x.key j).put r k' := by
      funext t
      unfold Mem.put
      split
      · rfl
      split
      · rfl
      rfl
    have hq : memEq E H cls x.key r (q.mem.put r i) s = (b, (q.mem.put x.key j).put r k', s') := by
      unfold memEq
      rw [show (q.mem.put r i) x.key = q.mem x.key from if_neg hk, show (q.mem.put r i) r = i from if_pos rfl, he]
      simp only [hmem]
    have hf : findKey E H cls r h [] q.dict (q.mem.put r i) s = findKey E H cls r h pre (x :: post) (q.mem.put r i) s := by
      rw [hd, findKey_skip E H cls r h pre [] _ _ _ hpre]
      rfl
    rw [findKey, if_neg (by simp [hx]), if_neg hk, hq] at hf
    refine ⟨fun e hb => ?_, fun hb => ?_⟩
    · subst hb
      unfold withKey
      rw [hm]
      simp only
      rw [hf]
    · subst hb
      have hw : withKey E H cls r q k = (.ok (k h (some (pre, x, post))).2,
          ⟨(k h (some (pre, x, post))).1, (q.mem.put x.key j).put r k', s'⟩) := by
        unfold withKey
        rw [hm]
        simp only
        rw [hf]
      rw [hw]
      refine ⟨rfl, rfl, fun h => ?_, fun h => ?_, fun h => ?_⟩
      · rw [k1 h]; rfl
      · rw [k2 h]; exact ⟨rfl, rfl⟩
      · rw [k3 h]; exact ⟨rfl, rfl⟩

end Records

/-! ### examples -/
namespace Records.Toy.Keys
open Toy

/-- four records: 0 and 1 are equal, 2 differs, 3 has the hash of 0 but is another record -/
def mem : Mem W (Fin 4)
  | 0 => mkB (.int 1) (.int 3) "a"
  | 1 => mkB (.int 1) (.int 3) "a"
  | 2 => mkB (.int 2) (.int 3) "a"
  | 3 => mkB (.int 1) (.int 3) "b"

def cls : Fin 4 → RecClass W := fun _ => B

theorem cls_ok : ClsOK cls := ⟨fun _ => B_creatable, fun _ => rfl, fun _ _ _ => rfl⟩

theorem mem_proper : ∀ r, Proper (hasher 0) (cls r) (mem r)
  | 0 => mkB_proper _ 1 3 "a"
  | 1 => mkB_proper _ 1 3 "a"
  | 2 => mkB_proper _ 2 3 "a"
  | 3 => mkB_proper _ 1 3 "b"

/-- `d[r0] = 10; d[r2] = 20; r1.x = 5; d.get(r1); d[r1] = 30; d.get(r0); d.get(r3); len(d); d.pop(r1); d.get(r0); len(d)` -/
def prog : List (Act W (Fin 4) Nat) :=
  [.put 0 10, .put 2 20, .op 1 (.set "x" (.int 5)), .get 1, .put 1 30, .get 0, .get 3, .len, .pop 1, .get 0, .len]

theorem prog_public : ∀ r o, Act.op r o ∈ prog → o.public := by
  intro r o h
  unfold prog at h
  simp only [List.mem_cons, List.not_mem_nil, or_false, reduceCtorEq, false_or] at h
  cases h
  trivial

example := C114_dict env eqOK (contract 0) cls_ok mem_proper prog prog_public s0
/-- the hash of 3 is that of 0, so they are compared -/
example : recordHash (hasher 0) B (mem 0) = recordHash (hasher 0) B (mem 3) := rfl
example : (runActs env (hasher 0) cls [.put 0 10, .put 2 20, .get 1, .get 3] ⟨[], mem, s0⟩).1 =
    [.ok .none, .ok .none, .ok (.found (some 10)), .ok (.found none)] := rfl
example : (runActs env (hasher 0) cls [.put 0 10, .put 1 30, .len, .pop 0, .len] ⟨[], mem, s0⟩).1 =
    [.ok .none, .ok .none, .ok (.size 1), .ok (.found (some 30)), .ok (.size 0)] := rfl

/-- the two representatives of the key in `{r0: 10}` -/
example : [(0 : Fin 4)].length = [(1 : Fin 4)].length := by
  have same : ∀ a b : Fin 4, mem a = mem b → SameKey cls mem a b := fun a b e => ⟨rfl, fun k hk => by
    obtain ⟨v, hv⟩ := (mem_proper a).full.get hk
    exact ⟨v, v, hv, by rw [← e]; exact hv, eqOK.refl v⟩⟩
  have val : ∀ r, SameKey cls mem 0 r → valueOf (SameKey cls mem) r [Act.put (W := W) 0 10] = some 10 := fun r h => if_pos h
  have rep : ∀ a, mem 0 = mem a → mem a = mem 0 → Represents (SameKey cls mem) [Act.put (W := W) 0 10] [a] := fun a h h' =>
    ⟨fun r hr => by rw [List.mem_singleton.1 hr, val a (same 0 a h)]; nofun, List.pairwise_singleton .., fun r hr => ⟨a, by simp, by
      by_cases h0 : SameKey cls mem 0 r
      · exact (same a 0 h').trans eqOK cls_ok h0
      · exact absurd (if_neg h0) hr⟩⟩
  exact C114_len eqOK cls_ok (rep 0 rfl rfl) (rep 1 rfl rfl)

/-- records of `A` are not frozen -/
example : (Act.put (0 : Fin 4) 1).run env (hasher 0) (fun _ => A) ⟨[], mem, s0⟩ = (.error .typeError, (⟨[], mem, s0⟩ : KState W (Fin 4) Nat)) :=
  C114_not_frozen env (hasher 0) (cls := fun _ => A) rfl _ 1 (.inl rfl)

/-- a field of the stored key is deleted: comparing raises -/
example : (runActs env (hasher 0) cls [.put 0 10, .op 0 (.del "x"), .get 1, .len] ⟨[], mem, s0⟩).1 =
    [.ok .none, .ok .none, .error .attributeError, .ok (.size 1)] := rfl
/-- the dict after `d[r0] = 10; del r0.x` -/
def broken : KState W (Fin 4) Nat := (runActs env (hasher 0) cls [.put 0 10, .op 0 (.del "x")] ⟨[], mem, s0⟩).2
example :=
  ((C114_raises env (hasher 0) cls 1 broken 0 (a := .get 1) (.inr (.inl rfl))).2 _ _ _ rfl [] _ [] rfl nofun rfl (by decide) _ _ _ _ rfl).1 _ rfl

end Records.Toy.Keys

/-! ### refuted claim -/
namespace Records
open Toy

/-- The claim that a frozen record put into a dict is found again, whatever is done with the records (but for writing the private
slot). -/
def C114_claim : Prop := ∀ (W : World) (E : Env W) (H : Hasher W) (R V : Type) (_ : DecidableEq R), EqOK W → HashContract H →
  ∀ (cls : R → RecClass W) (m0 : Mem W R), ClsOK cls → (∀ r, Proper H (cls r) (m0 r)) →
    ∀ (acts : List (Act W R V)), (∀ r h, Act.op r (.setHash h) ∉ acts) → ∀ s : LState W,
      ExpectedAll (SameKey cls m0) [] acts (runActs E H cls acts ⟨[], m0, s⟩).1

/-- C114: it does not hold: a field of the key is deleted, and the entry is no longer found under an equal record. -/
theorem C114_refuted : ¬ C114_claim := by
  intro h
  obtain ⟨x, xs, e, _, y, ys, e', _, z, zs, e'', h3, _⟩ := h W Eq.envC (hasher 0) (Fin 4) Nat inferInstance eqOK (contract 0) Keys.cls
    Keys.mem Keys.cls_ok Keys.mem_proper [.put 0 10, .op 0 (.del "x"), .get 1] (by simp) s0
  have : x :: y :: z :: zs = [.ok .none, .ok .none, .ok (.found none)] := by
    rw [← e'', ← e', ← e]; rfl
  cases this
  have hs : SameKey Keys.cls Keys.mem 0 1 := ⟨rfl, fun k hk => by
    obtain ⟨v, hv⟩ := (Keys.mem_proper 0).full.get hk
    exact ⟨v, v, hv, hv, eqOK.refl v⟩⟩
  have : valueOf (W := W) (SameKey Keys.cls Keys.mem) 1 [.op 0 (.del "x"), .put 0 10] = some (10 : Nat) := by
    unfold valueOf; unfold valueOf; rw [if_pos hs]
  have h3 : (Except.ok (.found none) : Except Exc (Ans Nat)) = 
      .ok (.found (valueOf (W := W) (SameKey Keys.cls Keys.mem) 1 [.op 0 (.del "x"), .put 0 10])) := h3
  rw [this] at h3
  cases h3

end Records
