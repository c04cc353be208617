import Verif.Spec.Threads
import Verif.Proofs.Instance
import Verif.Proofs.ClassMore
import Verif.Proofs.OneShot
set_option linter.unusedSimpArgs false
set_option linter.unusedSectionVars false
/- Lemmas about threads. -/
namespace Records
open Spec
variable {W : World} {R S : Type} [DecidableEq R] [DecidableEq S] {α β : Type}

/-- the hash of a record whose shown values are hashable -/
structure HashIs (H : Hasher W) (cls : R → RecClass W) (m : Shared W R S) (r : R) (v : Int) : Prop where
  frozen : (cls r).frozen = true
  hashable : ∀ kv ∈ shown (cls r) (m.mem r), W.hashable kv.2 = true
  value : v = recordHash H (cls r) (m.mem r)

/-- The thread makes at most `n` accesses and ends with `post`, if the fields do not change, and the caches are empty or right; `K` and `B`
are the records and Selects whose caches it knows to be filled. -/
def Thread.Safe (E : Env W) (H : Hasher W) (cls : R → RecClass W) (sel : S → SelectArgs W.Obj) (m : Shared W R S)
    (post : Except Exc α → Prop) : (R → Prop) → (S → Prop) → Nat → Thread W R S α → Prop
  | _, _, _, .done x => post x
  | K, B, n, .field r k next => 0 < n ∧ (next ((m.mem r).attr E k)).Safe E H cls sel m post K B (n - 1)
  | _, _, _, .assign .. => False
  | K, B, n, .hash r next => 0 < n ∧ (cls r).frozen = true ∧
    (¬ K r → (next (.ok none)).Safe E H cls sel m post K B (n - 1)) ∧
    ∀ v, HashIs H cls m r v → (next (.ok (some v))).Safe E H cls sel m post (fun a => K a ∨ a = r) B (n - 1)
  | K, B, n, .setHash r h next => 0 < n ∧ HashIs H cls m r h ∧ next.Safe E H cls sel m post (fun a => K a ∨ a = r) B (n - 1)
  | K, B, n, .truth x next => 0 < n ∧ (¬ B x → (next none).Safe E H cls sel m post K B (n - 1)) ∧
    (next (some (!(argEdits (sel x)).isEmpty))).Safe E H cls sel m post K (fun a => B a ∨ a = x) (n - 1)
  | K, B, n, .setTruth x b next => 0 < n ∧ b = (!(argEdits (sel x)).isEmpty) ∧
    next.Safe E H cls sel m post K (fun a => B a ∨ a = x) (n - 1)
  | _, _, _, .user .. => False

section
variable {E : Env W} {H : Hasher W} {cls : R → RecClass W} {sel : S → SelectArgs W.Obj} {m : Shared W R S}

theorem Thread.Safe.mono {post post' : Except Exc α → Prop} (hp : ∀ x, post x → post' x) (t : Thread W R S α) :
    ∀ {K K' : R → Prop} {B B' : S → Prop} {n n' : Nat}, (∀ r, K r → K' r) → (∀ x, B x → B' x) → n ≤ n' →
      t.Safe E H cls sel m post K B n → t.Safe E H cls sel m post' K' B' n' := by
  induction t with
  | done x => intro K K' B B' n n' hK hB hn h; exact hp _ h
  | field r k next ih =>
    intro K K' B B' n n' hK hB hn ⟨h0, h⟩
    exact ⟨by omega, ih _ hK hB (by omega) h⟩
  | assign r k v next ih => intro K K' B B' n n' hK hB hn h; exact h.elim
  | hash r next ih =>
    intro K K' B B' n n' hK hB hn ⟨h0, hf, h1, h2⟩
    refine ⟨by omega, hf, fun hk => ih _ hK hB (by omega) (h1 fun h => hk (hK r h)), fun v hv => ?_⟩
    exact ih _ (fun a ha => ha.imp_left (hK a)) hB (by omega) (h2 v hv)
  | setHash r h next ih =>
    intro K K' B B' n n' hK hB hn ⟨h0, h1, h2⟩
    exact ⟨by omega, h1, ih (fun a ha => ha.imp_left (hK a)) hB (by omega) h2⟩
  | truth x next ih =>
    intro K K' B B' n n' hK hB hn ⟨h0, h1, h2⟩
    refine ⟨by omega, fun hk => ih _ hK hB (by omega) (h1 fun h => hk (hB x h)), ?_⟩
    exact ih _ hK (fun a ha => ha.imp_left (hB a)) (by omega) h2
  | setTruth x b next ih =>
    intro K K' B B' n n' hK hB hn ⟨h0, h1, h2⟩
    exact ⟨by omega, h1, ih hK (fun a ha => ha.imp_left (hB a)) (by omega) h2⟩
  | user f next ih => intro K K' B B' n n' hK hB hn h; exact h.elim

theorem Thread.Safe.andThen {P : Except Exc α → Prop} {Q : Except Exc β → Prop} {k : Except Exc α → Thread W R S β} {n' : Nat}
    (hk : ∀ x, P x → (k x).Safe E H cls sel m Q (fun _ => False) (fun _ => False) n') (t : Thread W R S α) :
    ∀ {K : R → Prop} {B : S → Prop} {n : Nat}, t.Safe E H cls sel m P K B n → (t.andThen k).Safe E H cls sel m Q K B (n + n') := by
  induction t with
  | done x => intro K B n h; exact Thread.Safe.mono (fun _ h => h) _ nofun nofun (by omega) (hk x h)
  | field r k next ih =>
    intro K B n ⟨h0, h⟩
    exact ⟨by omega, by have := ih _ h; rwa [show n + n' - 1 = n - 1 + n' by omega]⟩
  | assign r k v next ih => intro K B n h; exact h.elim
  | hash r next ih =>
    intro K B n ⟨h0, hf, h1, h2⟩
    rw [show n + n' = (n - 1 + n') + 1 by omega]
    exact ⟨by omega, hf, fun hk => ih _ (h1 hk), fun v hv => ih _ (h2 v hv)⟩
  | setHash r h next ih =>
    intro K B n ⟨h0, h1, h2⟩
    rw [show n + n' = (n - 1 + n') + 1 by omega]
    exact ⟨by omega, h1, ih h2⟩
  | truth x next ih =>
    intro K B n ⟨h0, h1, h2⟩
    rw [show n + n' = (n - 1 + n') + 1 by omega]
    exact ⟨by omega, fun hk => ih _ (h1 hk), ih _ h2⟩
  | setTruth x b next ih =>
    intro K B n ⟨h0, h1, h2⟩
    rw [show n + n' = (n - 1 + n') + 1 by omega]
    exact ⟨by omega, h1, ih h2⟩
  | user f next ih => intro K B n h; exact h.elim

theorem Thread.Safe.bind {P : Except Exc α → Prop} {Q : Except Exc β → Prop} {k : α → Thread W R S β} {n' : Nat}
    (he : ∀ e, P (.error e) → Q (.error e))
    (hk : ∀ a, P (.ok a) → (k a).Safe E H cls sel m Q (fun _ => False) (fun _ => False) n') {t : Thread W R S α}
    {K : R → Prop} {B : S → Prop} {n : Nat} (h : t.Safe E H cls sel m P K B n) : (t.bind k).Safe E H cls sel m Q K B (n + n') := by
  refine Thread.Safe.andThen (fun x hx => ?_) t h
  cases x with
  | error e => exact he e hx
  | ok a => exact hk a hx

/-! ### what the threads may do to each other -/

/-- the shared state while threads run: only caches change -/
structure Good (H : Hasher W) (cls : R → RecClass W) (sel : S → SelectArgs W.Obj) (m q : Shared W R S) : Prop where
  dict : ∀ r, (q.mem r).dict = (m.mem r).dict
  cid : ∀ r, (q.mem r).cid = (m.mem r).cid
  hash : ∀ r, (cls r).frozen = true → (q.mem r).hash = some none ∨ ∃ v, (q.mem r).hash = some (some v) ∧ HashIs H cls m r v
  truth : ∀ x b, q.truth x = some b → b = !(argEdits (sel x)).isEmpty
  st : q.st = m.st

/-- the caches known to be filled are filled -/
structure Known (K : R → Prop) (B : S → Prop) (q : Shared W R S) : Prop where
  hash : ∀ r, K r → (q.mem r).hash ≠ some none
  truth : ∀ x, B x → q.truth x ≠ none

/-- caches are never emptied -/
structure Later (q q' : Shared W R S) : Prop where
  hash : ∀ r, (q.mem r).hash ≠ some none → (q'.mem r).hash ≠ some none
  truth : ∀ x, q.truth x ≠ none → q'.truth x ≠ none

theorem Known.later {K : R → Prop} {B : S → Prop} {q q' : Shared W R S} (h : Known K B q) (hl : Later q q') : Known K B q' :=
  ⟨fun r hr => hl.hash r (h.hash r hr), fun x hx => hl.truth x (h.truth x hx)⟩

/-- the thread is safe, given what it knows -/
def Fine (E : Env W) (H : Hasher W) (cls : R → RecClass W) (sel : S → SelectArgs W.Obj) (m q : Shared W R S)
    (post : Except Exc α → Prop) (n : Nat) (t : Thread W R S α) : Prop :=
  ∃ K B, Known K B q ∧ t.Safe E H cls sel m post K B n

theorem attr_congr {i j : Inst W} (h : i.dict = j.dict) (h' : i.cid = j.cid) (k : String) : i.attr E k = j.attr E k := by
  unfold Inst.attr
  rw [h, h']

theorem Fine.step {q : Shared W R S} (hq : Good H cls sel m q) {post : Except Exc α → Prop} {n : Nat} {t : Thread W R S α}
    (ht : Fine E H cls sel m q post n t) : Good H cls sel m (t.step E q).2 ∧ Later q (t.step E q).2 ∧
      Fine E H cls sel m (t.step E q).2 post (n - 1) (t.step E q).1 := by
  obtain ⟨K, B, hK, hs⟩ := ht
  have hl : Later q q := ⟨fun _ h => h, fun _ h => h⟩
  cases t with
  | done x => exact ⟨hq, hl, K, B, hK, hs⟩
  | field r k next =>
    refine ⟨hq, hl, K, B, hK, ?_⟩
    show (next ((q.mem r).attr E k)).Safe E H cls sel m post K B (n - 1)
    rw [attr_congr (hq.dict r) (hq.cid r)]
    exact hs.2
  | assign r k v next => exact hs.elim
  | hash r next =>
    obtain ⟨h0, hf, h1, h2⟩ := hs
    refine ⟨hq, hl, ?_⟩
    show Fine E H cls sel m q post (n - 1) (next (match (q.mem r).hash with | none => .error .attributeError | some h => .ok h))
    rcases hq.hash r hf with h | ⟨v, h, hv⟩
    · rw [h]
      exact ⟨K, B, hK, h1 fun hk => hK.hash r hk h⟩
    · refine ⟨fun a => K a ∨ a = r, B, ⟨fun a ha => ?_, hK.truth⟩, ?_⟩
      · rcases ha with ha | rfl
        · exact hK.hash a ha
        · rw [h]; nofun
      · rw [h]
        exact h2 v hv
  | setHash r v next =>
    obtain ⟨h0, hv, h2⟩ := hs
    have hne : ∀ a, a ≠ r → (q.mem.put r { q.mem r with hash := some (some v) }) a = q.mem a := fun a ha => if_neg ha
    have heq : (q.mem.put r { q.mem r with hash := some (some v) }) r = { q.mem r with hash := some (some v) } := if_pos rfl
    have hl' : Later q { q with mem := q.mem.put r { q.mem r with hash := some (some v) } } := by
      refine ⟨fun a ha => ?_, fun _ h => h⟩
      by_cases h : a = r
      · subst h
        show ((q.mem.put a _) a).hash ≠ _
        rw [heq]; nofun
      · show ((q.mem.put r _) a).hash ≠ _
        rw [hne a h]; exact ha
    refine ⟨⟨fun a => ?_, fun a => ?_, fun a ha => ?_, hq.truth, hq.st⟩, hl', fun a => K a ∨ a = r, B, ⟨fun a ha => ?_, hK.truth⟩, h2⟩
    · by_cases h : a = r
      · subst h
        show ((q.mem.put a _) a).dict = _
        rw [heq]; exact hq.dict a
      · show ((q.mem.put r _) a).dict = _
        rw [hne a h]; exact hq.dict a
    · by_cases h : a = r
      · subst h
        show ((q.mem.put a _) a).cid = _
        rw [heq]; exact hq.cid a
      · show ((q.mem.put r _) a).cid = _
        rw [hne a h]; exact hq.cid a
    · by_cases h : a = r
      · subst h
        refine .inr ⟨v, ?_, hv⟩
        show ((q.mem.put a _) a).hash = _
        rw [heq]
      · show ((q.mem.put r _) a).hash = _ ∨ ∃ v', ((q.mem.put r _) a).hash = _ ∧ _
        rw [hne a h]; exact hq.hash a ha
    · rcases ha with ha | rfl
      · exact hl'.hash a (hK.hash a ha)
      · show ((q.mem.put a _) a).hash ≠ _
        rw [heq]; nofun
  | truth x next =>
    obtain ⟨h0, h1, h2⟩ := hs
    refine ⟨hq, hl, ?_⟩
    show Fine E H cls sel m q post (n - 1) (next (q.truth x))
    cases h : q.truth x with
    | none => exact ⟨K, B, hK, h1 fun hb => hK.truth x hb h⟩
    | some b =>
      refine ⟨K, fun a => B a ∨ a = x, ⟨hK.hash, fun a ha => ?_⟩, ?_⟩
      · rcases ha with ha | rfl
        · exact hK.truth a ha
        · rw [h]; nofun
      · rw [hq.truth x b h]
        exact h2
  | setTruth x b next =>
    obtain ⟨h0, hb, h2⟩ := hs
    have hl' : Later q { q with truth := fun y => if y = x then some b else q.truth y } := by
      refine ⟨fun _ h => h, fun a ha => ?_⟩
      show (if a = x then some b else q.truth a) ≠ none
      split
      · nofun
      · exact ha
    refine ⟨⟨hq.dict, hq.cid, hq.hash, fun y c h => ?_, hq.st⟩, hl', K, fun a => B a ∨ a = x, ⟨hK.hash, fun a ha => ?_⟩, h2⟩
    · have h : (if y = x then some b else q.truth y) = some c := h
      by_cases e : y = x
      · rw [if_pos e] at h
        rw [e]
        cases h
        exact hb
      · rw [if_neg e] at h
        exact hq.truth y c h
    · show (if a = x then some b else q.truth a) ≠ none
      split
      · nofun
      · next e => exact hK.truth a (ha.resolve_right e)
  | user f next => exact hs.elim

/-- a machine whose threads are safe -/
structure MOK (E : Env W) (H : Hasher W) (cls : R → RecClass W) (sel : S → SelectArgs W.Obj) (m : Shared W R S)
    (post : Nat → Except Exc α → Prop) (n : Nat → Nat) (c : Machine W R S α) : Prop where
  good : Good H cls sel m c.shared
  fine : ∀ i t, c.threads[i]? = some t → Fine E H cls sel m c.shared (post i) (n i) t

theorem MOK.tick {post : Nat → Except Exc α → Prop} {n : Nat → Nat} {c : Machine W R S α} (h : MOK E H cls sel m post n c) (i : Nat) :
    MOK E H cls sel m post (fun j => n j - if j = i then 1 else 0) (c.tick E i) ∧
      (c.tick E i).threads.length = c.threads.length := by
  unfold Machine.tick
  cases hi : c.threads[i]? with
  | none =>
    refine ⟨⟨h.good, fun j t hj => ?_⟩, rfl⟩
    have : j ≠ i := fun e => by subst e; rw [hi] at hj; cases hj
    simp only [this, if_false, Nat.sub_zero]
    exact h.fine j t hj
  | some t =>
    obtain ⟨h1, h2, h3⟩ := (h.fine i t hi).step h.good
    refine ⟨⟨h1, fun j t' hj => ?_⟩, by simp⟩
    have hlt := (List.getElem?_eq_some_iff.1 hi).1
    by_cases e : j = i
    · subst e
      simp only [if_true]
      simp only [List.getElem?_set_self hlt, Option.some.injEq] at hj
      subst hj
      exact h3
    · simp only [e, if_false, Nat.sub_zero]
      simp only [List.getElem?_set_ne (fun x => e x.symm)] at hj
      obtain ⟨K, B, hK, hs⟩ := h.fine j t' hj
      exact ⟨K, B, hK.later h2, hs⟩

theorem MOK.run {post : Nat → Except Exc α → Prop} (sched : List Nat) : ∀ {n : Nat → Nat} {c : Machine W R S α},
    MOK E H cls sel m post n c → MOK E H cls sel m post (fun j => n j - sched.count j) (c.run E sched) ∧
      (c.run E sched).threads.length = c.threads.length := by
  induction sched with
  | nil => intro n c h; exact ⟨h, rfl⟩
  | cons i sched ih =>
    intro n c h
    obtain ⟨h1, h2⟩ := h.tick i
    obtain ⟨h3, h4⟩ := ih h1
    refine ⟨?_, h4.trans h2⟩
    have e : (fun j => n j - (i :: sched).count j) = fun j => (n j - if j = i then 1 else 0) - sched.count j := by
      funext j
      rw [List.count_cons]
      by_cases e : j = i
      · subst e; simp; omega
      · have : (i == j) = false := by simp; exact fun x => e x.symm
        simp [e, this]
    rw [e]
    exact h3

theorem Safe_zero {post : Except Exc α → Prop} {K : R → Prop} {B : S → Prop} {t : Thread W R S α}
    (h : t.Safe E H cls sel m post K B 0) : ∃ x, t = .done x := by
  cases t with
  | done x => exact ⟨x, rfl⟩
  | field => exact absurd h.1 (by omega)
  | assign => exact h.elim
  | hash => exact absurd h.1 (by omega)
  | setHash => exact absurd h.1 (by omega)
  | truth => exact absurd h.1 (by omega)
  | setTruth => exact absurd h.1 (by omega)
  | user => exact h.elim

/-! ### the operations are safe -/

theorem tuplesT_safe {r : R} {o : ExportOpts} {mok : List String} (fs : List (XField W))
    (hf : ∀ f ∈ fs, ∃ v, (m.mem r).dict.get? f.name = some v) {K : R → Prop} {B : S → Prop} :
    (tuplesT r o mok fs : Thread W R S _).Safe E H cls sel m
      (fun x => ∀ s, exportTuples (.ofInst E (m.mem r)) o mok fs s = (x, s)) K B fs.length := by
  induction fs generalizing K B with
  | nil => exact fun s => rfl
  | cons f fs ih =>
    have ih := fun {K B} => @ih (fun g hg => hf g (by simp [hg])) K B
    unfold tuplesT
    cases he : exportField o f with
    | error e =>
      intro s
      unfold exportTuples
      rw [he]
    | ok b =>
      cases b with
      | false =>
        refine Thread.Safe.mono (fun x hx s => ?_) _ (fun _ h => h) (fun _ h => h) (by simp) (ih (K := K) (B := B))
        rw [← hx s, exportTuples, he]
      | true =>
        obtain ⟨v, hv⟩ := hf f (by simp)
        have ha : (m.mem r).attr E f.name = .ok v := by unfold Inst.attr; rw [hv]
        have hc : ∀ s, (Carrier.ofInst E (m.mem r)).attr f.name s = (.ok v, s) := fun s => by
          show M.ofExcept ((m.mem r).attr E f.name) s = _
          rw [ha]; rfl
        refine ⟨by simp, ?_⟩
        rw [ha]
        simp only [List.length_cons, Nat.add_sub_cancel]
        cases hx : exportValue o f v with
        | true =>
          rw [if_pos rfl]
          refine Thread.Safe.mono (fun _ h => h) _ (fun _ h => h) (fun _ h => h) (Nat.le_refl _)
            (Thread.Safe.bind (n' := 0) (fun e hx' s => ?_) (fun l hl => ?_) (ih (K := K) (B := B)))
          · rw [exportTuples, he]
            simp only
            rw [hc s]
            simp only [hx, if_true]
            exact M.bind_error (hx' s)
          · show ∀ s, exportTuples (.ofInst E (m.mem r)) o mok (f :: fs) s = _
            intro s
            rw [exportTuples, he]
            simp only
            rw [hc s]
            simp only [hx, if_true]
            rw [M.bind_ok (hl s)]
            rfl
        | false =>
          rw [if_neg (by simp)]
          refine Thread.Safe.mono (fun x hx' s => ?_) _ (fun _ h => h) (fun _ h => h) (Nat.le_refl _) (ih (K := K) (B := B))
          rw [exportTuples, he]
          simp only
          rw [hc s]
          simp only [hx, Bool.false_eq_true, if_false]
          exact hx' s

theorem toDict_run (C : RecClass W) (obj : Carrier W) (o : ExportOpts) (x : Sel W.Obj) (s : LState W) :
    toDict C obj o x s = match exportTuples obj o (extraction C x).1 (extraction C x).2.values s with
      | (.ok l, s') => (.ok (Dict.update [] (sortEntries o.sort l)), s')
      | (.error e, s') => (.error e.leaving, s') := by
  show M.bind (M.generator (exportTuples obj o (extraction C x).1 (extraction C x).2.values)) _ s = _
  unfold M.bind M.generator
  rcases exportTuples obj o (extraction C x).1 (extraction C x).2.values s with ⟨_ | _, _⟩ <;> rfl

theorem exportT_safe (hm : Ready H cls sel m) (r : R) (o : ExportOpts) {K : R → Prop} {B : S → Prop} :
    (exportT (cls r) r o : Thread W R S _).Safe E H cls sel m
      (fun x => ∀ s, toDict (cls r) (.ofInst E (m.mem r)) o Sel.empty s = (x, s)) K B (cls r).fields.length := by
  have wf := (hm.creatable r).wf
  have hl : (extraction (cls r) Sel.empty).2.values.length = (cls r).fields.length := by
    rw [extraction_empty_values]; simp
  rw [← hl]
  refine Thread.Safe.andThen (n' := 0) (fun x (hx : ∀ s, exportTuples (.ofInst E (m.mem r)) o (extraction (cls r) Sel.empty).1
    (extraction (cls r) Sel.empty).2.values s = (x, s)) => ?_) _ (tuplesT_safe _ fun f hf => ?_)
  · cases x with
    | error e =>
      show ∀ s, toDict _ _ _ _ s = _
      intro s
      rw [toDict_run, hx s]
    | ok l =>
      show ∀ s, toDict _ _ _ _ s = _
      intro s
      rw [toDict_run, hx s]
  · rw [extraction_empty_values] at hf
    obtain ⟨g, hg, rfl⟩ := List.mem_map.1 hf
    obtain ⟨kf, hkf, rfl⟩ := List.mem_map.1 hg
    obtain ⟨v, hv⟩ := (hm.record r).full.get (List.mem_map.2 ⟨kf, hkf, rfl⟩)
    exact ⟨v, by rw [show (kf.2.x).name = kf.1 from wf.named kf.1 kf.2 (Dict.mem_get? _ wf.nodup _ _ hkf)]; exact hv⟩

theorem hashIs_answer (hm : Ready H cls sel m) {r : R} {v : Int} (hv : HashIs H cls m r v) (s : LState W) :
    (hashInst E H (cls r) (m.mem r) s).1 = .ok v := by
  rw [hashInst_proper (hm.creatable r).wf hv.frozen ⟨(hm.record r).cls, (hm.record r).full, fun _ => hv.hashable, fun hf =>
    ((hm.record r).cache hf).imp_right And.left⟩ s, hv.value]

theorem returnHash_safe (hm : Ready H cls sel m) {r : R} (hf : (cls r).frozen = true) {K : R → Prop} {B : S → Prop} (hK : K r) :
    (returnHash r : Thread W R S _).Safe E H cls sel m (fun x => ∀ s, (hashInst E H (cls r) (m.mem r) s).1 = x) K B 1 := by
  refine ⟨by omega, hf, fun h => absurd hK h, fun v hv => ?_⟩
  exact fun s => hashIs_answer hm hv s

theorem hashT_safe (hm : Ready H cls sel m) (r : R) {K : R → Prop} {B : S → Prop} :
    (hashT H (cls r) r : Thread W R S _).Safe E H cls sel m (fun x => ∀ s, (hashInst E H (cls r) (m.mem r) s).1 = x) K B
      ((cls r).fields.length + 3) := by
  unfold hashT
  cases hf : (cls r).frozen with
  | false =>
    intro s
    show (hashInst E H (cls r) (m.mem r) s).1 = _
    unfold hashInst
    rw [hf]; rfl
  | true =>
    refine ⟨by omega, hf, fun _ => ?_, fun v hv => ?_⟩
    · rw [show (cls r).fields.length + 3 - 1 = (cls r).fields.length + 2 by omega]
      have wf := (hm.creatable r).wf
      have hshown : ∀ s, toDict (cls r) (.ofInst E (m.mem r)) {} Sel.empty s = (.ok (shown (cls r) (m.mem r)), s) :=
        fun s => toDict_shown wf (hm.record r).full s
      have hd := @exportT_safe W R S _ _ E H cls sel m hm r {} K B
      refine Thread.Safe.andThen (n' := 2) (P := fun x => x = .ok (shown (cls r) (m.mem r))) (fun x hx => ?_) _
        (Thread.Safe.mono (fun x hx => ?_) _ (fun _ h => h) (fun _ h => h) (Nat.le_refl _) hd)
      · subst hx
        simp only
        cases ht : hashTuple H (shown (cls r) (m.mem r)).values with
        | error e =>
          intro s
          rcases (hm.record r).cache hf with h | ⟨h, hh⟩
          · show (hashInst E H (cls r) (m.mem r) s).1 = _
            unfold hashInst
            rw [hf, h]
            simp only [Bool.not_true, Bool.false_eq_true, if_false]
            rw [hshown s]
            simp only [ht]
          · rw [hashTuple_ok (fun v hv => by
              obtain ⟨kv, hkv, rfl⟩ := List.mem_map.1 hv
              exact hh kv hkv)] at ht
            cases ht
        | ok n =>
          have hh : HashIs H cls m r n := by
            unfold hashTuple at ht
            split at ht
            · next hall =>
              refine ⟨hf, fun kv hkv => List.all_eq_true.1 hall kv.2 (List.mem_map.2 ⟨kv, hkv, rfl⟩), ?_⟩
              cases ht
              simp [recordHash, Dict.values, List.map_map, Function.comp_def]
            · cases ht
          exact ⟨by omega, hh, returnHash_safe hm hf (.inr rfl)⟩
      · have h1 := hx ⟨(m.st).1, (m.st).2⟩
        rw [hshown] at h1
        cases h1
        rfl
    · refine Thread.Safe.mono (fun _ h => h) _ (fun _ h => h) (fun _ h => h) (by omega) (returnHash_safe hm hf (K := fun a => K a ∨ a = r) (B := B) (.inr rfl))

theorem eqFieldsT_safe (a b : R) (ks : List String) {K : R → Prop} {B : S → Prop} :
    (eqFieldsT a b ks : Thread W R S _).Safe E H cls sel m (fun x => eqFields E (m.mem a) (m.mem b) ks = x) K B (2 * ks.length) := by
  induction ks generalizing K B with
  | nil => exact rfl
  | cons k ks ih =>
    have ih := fun {K B} => @ih K B
    refine ⟨by simp, ?_⟩
    unfold eqFields
    cases ha : (m.mem a).attr E k with
    | error e => exact rfl
    | ok v =>
      refine ⟨by simp; omega, ?_⟩
      cases hb : (m.mem b).attr E k with
      | error e => exact rfl
      | ok w =>
        simp only [List.length_cons]
        rw [show 2 * (ks.length + 1) - 1 - 1 = 2 * ks.length by omega]
        cases W.eq v w with
        | true => exact ih
        | false => exact rfl

theorem eqT_safe (hm : Ready H cls sel m) (a b : R) {K : R → Prop} {B : S → Prop} :
    (eqT H cls a b : Thread W R S _).Safe E H cls sel m (fun x => ∀ s, (eqInst E H (cls a) (m.mem a) (m.mem b) s).1 = x) K B
      (4 * (cls a).fields.length + 6) := by
  have hc : ∀ r, (m.mem r).cid = (cls r).cid := fun r => (hm.record r).cls
  unfold eqT
  by_cases hcid : (cls a).cid = (cls b).cid
  · rw [if_neg (by simpa using hcid)]
    have hab := hm.ident a b hcid
    have hk : (cls a).fields.keys.length = (cls a).fields.length := by simp [Dict.keys]
    cases hf : (cls a).frozen with
    | true =>
      rw [if_pos rfl]
      have h1 := @hashT_safe W R S _ _ E H cls sel m hm a K B
      have h2 : ∀ {K B}, _ := fun {K B} => @hashT_safe W R S _ _ E H cls sel m hm b K B
      rw [← hab] at h2
      rw [show 4 * (cls a).fields.length + 6 = ((cls a).fields.length + 3) + (((cls a).fields.length + 3) +
        2 * (cls a).fields.length) by omega]
      refine Thread.Safe.bind (fun e he s => ?_) (fun x hx => ?_) h1
      · unfold eqInst
        rw [hc, hc, if_neg (by simpa using hcid), hf, if_pos rfl]
        have := he s
        rcases hh : hashInst E H (cls a) (m.mem a) s with ⟨y, i, s1⟩
        rw [hh] at this
        simp only at this
        subst this
        rfl
      · refine Thread.Safe.bind (fun e he s => ?_) (fun y hy => ?_) h2
        · unfold eqInst
          rw [hc, hc, if_neg (by simpa using hcid), hf, if_pos rfl]
          have hx := hx s
          rcases hh : hashInst E H (cls a) (m.mem a) s with ⟨z, i, s1⟩
          rw [hh] at hx
          simp only at hx
          subst hx
          have he := he s1
          rcases hh' : hashInst E H (cls a) (m.mem b) s1 with ⟨z, j, s2⟩
          rw [hh'] at he
          simp only at he
          subst he
          simp only [hh']
        · have key : ∀ s, (eqInst E H (cls a) (m.mem a) (m.mem b) s).1 =
              if x ≠ y then .ok false else eqFields E (m.mem a) (m.mem b) (cls a).fields.keys := by
            intro s
            unfold eqInst
            rw [hc, hc, if_neg (by simpa using hcid), hf, if_pos rfl]
            have hx := hx s
            rcases hh : hashInst E H (cls a) (m.mem a) s with ⟨z, i, s1⟩
            rw [hh] at hx
            simp only at hx
            subst hx
            have hy := hy s1
            rcases hh' : hashInst E H (cls a) (m.mem b) s1 with ⟨z, j, s2⟩
            rw [hh'] at hy
            simp only at hy
            subst hy
            simp only [hh']
          by_cases hne : x = y
          · rw [if_neg (by simpa using hne)]
            rw [← hk]
            refine Thread.Safe.mono (fun z hz s => ?_) _ (fun _ h => h) (fun _ h => h) (Nat.le_refl _)
              (@eqFieldsT_safe W R S _ _ E H cls sel m a b (cls a).fields.keys _ _)
            rw [key s, if_neg (by simpa using hne), hz]
          · rw [if_pos hne]
            intro s
            show (eqInst E H (cls a) (m.mem a) (m.mem b) s).1 = _
            rw [key s, if_pos hne]
    | false =>
      rw [if_neg (by simp)]
      refine Thread.Safe.mono (fun z hz s => ?_) _ (fun _ h => h) (fun _ h => h) (by rw [hk]; omega)
        (@eqFieldsT_safe W R S _ _ E H cls sel m a b (cls a).fields.keys K B)
      unfold eqInst
      rw [hc, hc, if_neg (by simpa using hcid), hf, if_neg (by simp)]
      exact hz
  · rw [if_pos hcid]
    show ∀ s, (eqInst E H (cls a) (m.mem a) (m.mem b) s).1 = _
    intro s
    unfold eqInst
    rw [hc, hc, if_pos hcid]

theorem truthT_safe (x : S) {K : R → Prop} {B : S → Prop} :
    (truthT (sel x) x : Thread W R S _).Safe E H cls sel m (fun b => b = .ok (!(argEdits (sel x)).isEmpty)) K B 3 := by
  have ht : ∀ {K : R → Prop} {B : S → Prop}, B x → (returnTruth x : Thread W R S _).Safe E H cls sel m
      (fun b => b = .ok (!(argEdits (sel x)).isEmpty)) K B 1 := fun hB => ⟨by omega, fun h => absurd hB h, rfl⟩
  refine ⟨by omega, fun _ => ?_, ?_⟩
  · exact ⟨by omega, (truth_first (sel x)).1, ht (.inr rfl)⟩
  · exact Thread.Safe.mono (fun _ h => h) _ (fun _ h => h) (fun _ h => h) (by omega) (ht (B := fun a => B a ∨ a = x) (.inr rfl))

theorem applyTo_args {a : SelectArgs W.Obj} (ha : Reiterable a) (d : Dict W.Obj) : a.mk'.applyTo d =
    if !(!(argEdits a).isEmpty) then .ok d
    else match (a.mk'.edit d).err with | some e => .error e | none => .ok (a.mk'.edit d).dict := by
  obtain ⟨h1, h2, h3⟩ := truth_pure _ (mk'_pure ha)
  have e := (edit_ofLoop a.mk'.truth.2 d).trans ((congrArg (fun x => ofLoop (scriptLoop (Edits.script x) d)) h3).trans
    (edit_ofLoop a.mk' d).symm)
  unfold Sel.applyTo
  rw [h1, mk'_edits ha]
  split
  · rfl
  · exact e

theorem applyT_safe (hm : Ready H cls sel m) (x : S) (d : Dict W.Obj) {K : R → Prop} {B : S → Prop} :
    (applyT (sel x) x d : Thread W R S _).Safe E H cls sel m (fun y => (sel x).mk'.applyTo d = y) K B 3 := by
  refine Thread.Safe.bind (n' := 0) (fun e he => by cases he) (fun b hb => ?_) (truthT_safe x)
  cases hb
  rw [applyTo_args (hm.reiterable x)]
  cases (argEdits (sel x)).isEmpty <;> exact rfl

theorem TOp.thread_safe (hm : Ready H cls sel m) (op : TOp W R S) (hop : op.readOnly cls) {K : R → Prop} {B : S → Prop} :
    (op.thread H cls sel).Safe E H cls sel m (op.answer E H cls sel m) K B (op.cost cls) := by
  cases op with
  | hash r =>
    refine Thread.Safe.bind (n' := 0) (fun e he s => ?_) (fun x hx => ?_) (hashT_safe hm r)
    · rw [he s]; rfl
    · exact fun s => by rw [hx s]; rfl
  | eq a b =>
    refine Thread.Safe.bind (n' := 0) (fun e he s => ?_) (fun x hx => ?_) (eqT_safe hm a b)
    · rw [he s]; rfl
    · exact fun s => by rw [hx s]; rfl
  | «export» r o =>
    refine Thread.Safe.bind (n' := 0) (fun e he s => ?_) (fun x hx => ?_) (exportT_safe hm r o)
    · rw [he s]; rfl
    · exact fun s => by rw [hx s]; rfl
  | set r k v =>
    have hop : (cls r).frozen = true := hop
    have h : (setT (cls r) r k v : Thread W R S _) = .done (.error .typeError) := by unfold setT; rw [hop, if_pos rfl]
    show ((setT (cls r) r k v : Thread W R S _).bind _).Safe E H cls sel m _ K B _
    rw [h]
    exact rfl
  | apply x d =>
    refine Thread.Safe.bind (n' := 0) (fun e he => ?_) (fun y hy => ?_) (applyT_safe hm x d)
    · show Except.error e = ((sel x).mk'.applyTo d).map TAns.dict
      rw [he]; rfl
    · show Except.ok (TAns.dict y) = ((sel x).mk'.applyTo d).map TAns.dict
      rw [hy]; rfl

theorem program_safe (hm : Ready H cls sel m) (ops : List (TOp W R S)) (hop : ∀ op ∈ ops, op.readOnly cls) {K : R → Prop}
    {B : S → Prop} : (program H cls sel ops).Safe E H cls sel m (Answers E H cls sel m ops) K B (ops.map (TOp.cost cls)).sum := by
  induction ops generalizing K B with
  | nil => exact ⟨[], rfl, rfl, nofun⟩
  | cons op ops ih =>
    rw [List.map_cons, List.sum_cons]
    refine Thread.Safe.andThen (fun x hx => ?_) _ (TOp.thread_safe hm op (hop op (by simp)))
    refine Thread.Safe.bind (n' := 0) (fun e he => ?_) (fun xs hxs => ?_) (ih fun o ho => hop o (by simp [ho]))
    · obtain ⟨_, h, _⟩ := he; cases h
    · obtain ⟨ys, h, hl, hys⟩ := hxs
      cases h
      refine ⟨_, rfl, by simp [hl], fun j o ho => ?_⟩
      cases j with
      | zero => cases ho; exact ⟨x, rfl, hx⟩
      | succ j => exact hys j o ho

theorem Ready.good (hm : Ready H cls sel m) : Good H cls sel m m := by
  refine ⟨fun _ => rfl, fun _ => rfl, fun r hf => ?_, fun x b hb => ?_, rfl⟩
  · exact ((hm.record r).cache hf).imp_right fun h => ⟨_, h.1, hf, h.2, rfl⟩
  · have := hm.truth x b hb
    have h' := isEmpty_iff_script (argEdits (sel x))
    cases b <;> cases h : (argEdits (sel x)).isEmpty <;> simp_all

theorem machine_ok (hm : Ready H cls sel m) (progs : List (List (TOp W R S))) (hp : ∀ ops ∈ progs, ∀ op ∈ ops, op.readOnly cls) :
    MOK E H cls sel m (fun i => Answers E H cls sel m (progs.getD i [])) (fun i => ((progs.getD i []).map (TOp.cost cls)).sum)
      ⟨progs.map (program H cls sel), m⟩ := by
  refine ⟨hm.good, fun i t ht => ?_⟩
  simp only [List.getElem?_map, Option.map_eq_some_iff] at ht
  obtain ⟨ops, ho, rfl⟩ := ht
  rw [List.getD_eq_getElem?_getD, ho]
  exact ⟨fun _ => False, fun _ => False, ⟨nofun, nofun⟩, program_safe hm ops (hp ops (List.mem_of_getElem? ho))⟩

end

/-! ### a thread that is not interrupted -/

section
variable {E : Env W}

theorem alone_andThen (k : Except Exc α → Thread W R S β) (t : Thread W R S α) : ∀ q : Shared W R S,
    (t.andThen k).alone E q = (k (t.alone E q).1).alone E (t.alone E q).2 := by
  induction t with
  | done x => intro q; rfl
  | field r n next ih => intro q; exact ih _ q
  | assign r n v next ih => intro q; exact ih _
  | hash r next ih => intro q; exact ih _ q
  | setHash r h next ih => intro q; exact ih _
  | truth x next ih => intro q; exact ih _ q
  | setTruth x b next ih => intro q; exact ih _
  | user f next ih => intro q; exact ih _ _

theorem alone_bind (k : α → Thread W R S β) (t : Thread W R S α) (q : Shared W R S) :
    (t.bind k).alone E q = match t.alone E q with
      | (.error e, q') => (.error e, q')
      | (.ok a, q') => (k a).alone E q' := by
  unfold Thread.bind
  rw [alone_andThen]
  rcases t.alone E q with ⟨_ | _, _⟩ <;> rfl

/-- an interruptible thread that is scheduled often enough without interruption -/
theorem run_alone (E : Env W) (t : Thread W R S α) : ∀ q : Shared W R S, ∃ n,
    (Machine.mk [t] q).run E (List.replicate n 0) = ⟨[.done (t.alone E q).1], (t.alone E q).2⟩ := by
  induction t with
  | done x => intro q; exact ⟨0, rfl⟩
  | field r n next ih => intro q; obtain ⟨n, h⟩ := ih _ q; exact ⟨n + 1, h⟩
  | assign r n v next ih => intro q; obtain ⟨n, h⟩ := ih _; exact ⟨n + 1, h⟩
  | hash r next ih => intro q; obtain ⟨n, h⟩ := ih _ q; exact ⟨n + 1, h⟩
  | setHash r h next ih => intro q; obtain ⟨n, h⟩ := ih _; exact ⟨n + 1, h⟩
  | truth x next ih => intro q; obtain ⟨n, h⟩ := ih _ q; exact ⟨n + 1, h⟩
  | setTruth x b next ih => intro q; obtain ⟨n, h⟩ := ih _; exact ⟨n + 1, h⟩
  | user f next ih => intro q; obtain ⟨n, h⟩ := ih _ _; exact ⟨n + 1, h⟩

theorem tuplesT_alone (r : R) (o : ExportOpts) (mok : List String) (fs : List (XField W)) : ∀ q : Shared W R S,
    (tuplesT r o mok fs : Thread W R S _).alone E q =
      ((exportTuples (.ofInst E (q.mem r)) o mok fs q.st).1, { q with st := (exportTuples (.ofInst E (q.mem r)) o mok fs q.st).2 }) := by
  induction fs with
  | nil => intro q; rfl
  | cons f fs ih =>
    intro q
    unfold tuplesT exportTuples
    cases he : exportField o f with
    | error e => rfl
    | ok b =>
      cases b with
      | false => exact ih q
      | true =>
        have hc : (Carrier.ofInst E (q.mem r)).attr f.name q.st = ((q.mem r).attr E f.name, q.st) := by
          show M.ofExcept ((q.mem r).attr E f.name) q.st = _
          cases (q.mem r).attr E f.name <;> rfl
        simp only [Thread.alone]
        rw [hc]
        cases ha : (q.mem r).attr E f.name with
        | ok v =>
          simp only
          split
          · rw [alone_bind, ih q]
            unfold M.bind
            rcases exportTuples (.ofInst E (q.mem r)) o mok fs q.st with ⟨_ | _, _⟩ <;> rfl
          · exact ih q
        | error e =>
          simp only
          split
          · rfl
          · split
            · rfl
            · cases o.includeDefaults with
              | false => exact ih q
              | true =>
                cases f.default with
                | none => exact ih q
                | some d =>
                  simp only [Thread.alone]
                  unfold M.bind
                  rcases d.make q.st with ⟨_ | v, s1⟩
                  · rfl
                  · simp only
                    rw [alone_bind, ih]
                    simp only
                    rcases exportTuples (.ofInst E (q.mem r)) o mok fs s1 with ⟨_ | _, _⟩ <;> rfl

theorem exportT_alone (C : RecClass W) (r : R) (o : ExportOpts) (q : Shared W R S) :
    (exportT C r o : Thread W R S _).alone E q =
      ((toDict C (.ofInst E (q.mem r)) o Sel.empty q.st).1, { q with st := (toDict C (.ofInst E (q.mem r)) o Sel.empty q.st).2 }) := by
  show ((tuplesT r o (extraction C Sel.empty).1 (extraction C Sel.empty).2.values).andThen _).alone E q = _
  rw [alone_andThen, tuplesT_alone, toDict_run]
  rcases exportTuples (.ofInst E (q.mem r)) o (extraction C Sel.empty).1 (extraction C Sel.empty).2.values q.st with ⟨_ | _, _⟩ <;> rfl

theorem put_same (q : Mem W R) (r : R) : q.put r (q r) = q := by
  funext a
  unfold Mem.put
  split
  · next h => rw [h]
  · rfl

theorem hashT_alone (H : Hasher W) (C : RecClass W) (r : R) (q : Shared W R S) :
    (hashT H C r : Thread W R S _).alone E q = match hashInst E H C (q.mem r) q.st with
      | (x, i, s) => (x, { q with mem := q.mem.put r i, st := s }) := by
  unfold hashT hashInst
  cases C.frozen with
  | false => simp only [Bool.not_false, if_true, put_same]; rfl
  | true =>
    simp only [Bool.not_true, Bool.false_eq_true, if_false, Thread.alone]
    cases h : (q.mem r).hash with
    | none => simp only [Thread.alone, put_same]
    | some h' =>
      cases h' with
      | some n => simp only [returnHash, Thread.alone, h, put_same]
      | none =>
        simp only
        rw [alone_bind, exportT_alone]
        rcases toDict C (.ofInst E (q.mem r)) {} Sel.empty q.st with ⟨e | d, s'⟩
        · simp only [put_same]
        · simp only
          cases hashTuple H d.values with
          | error e => simp only [Thread.alone, put_same]
          | ok n =>
            simp only [Thread.alone, returnHash]
            have : ∀ i : Inst W, (q.mem.put r i) r = i := fun i => if_pos rfl
            rw [this]
            rfl

theorem eqFieldsT_alone (a b : R) (ks : List String) (q : Shared W R S) :
    (eqFieldsT a b ks : Thread W R S _).alone E q = (eqFields E (q.mem a) (q.mem b) ks, q) := by
  induction ks with
  | nil => rfl
  | cons k ks ih =>
    unfold eqFieldsT eqFields
    simp only [Thread.alone]
    cases (q.mem a).attr E k with
    | error e => rfl
    | ok v =>
      simp only [Thread.alone]
      cases (q.mem b).attr E k with
      | error e => rfl
      | ok w =>
        simp only
        split
        · exact ih
        · rfl

theorem hashInst_kept (H : Hasher W) (C : RecClass W) (i : Inst W) (s : LState W) :
    (hashInst E H C i s).2.1.dict = i.dict ∧ (hashInst E H C i s).2.1.cid = i.cid := by
  unfold hashInst
  repeat' split
  all_goals exact ⟨rfl, rfl⟩

theorem eqFields_congr {a a' b b' : Inst W} (h1 : a.dict = a'.dict) (h2 : a.cid = a'.cid) (h3 : b.dict = b'.dict) (h4 : b.cid = b'.cid)
    (ks : List String) : eqFields E a b ks = eqFields E a' b' ks := by
  induction ks with
  | nil => rfl
  | cons k ks ih =>
    unfold eqFields
    rw [attr_congr h1 h2, attr_congr h3 h4, ih]

theorem eqT_alone (H : Hasher W) (cls : R → RecClass W) {a b : R} (hab : a ≠ b) (q : Shared W R S)
    (ha : (q.mem a).cid = (cls a).cid) (hb : (q.mem b).cid = (cls b).cid) :
    (eqT H cls a b : Thread W R S _).alone E q = match eqInst E H (cls a) (q.mem a) (q.mem b) q.st with
      | (x, i, j, s) => (x, { q with mem := (q.mem.put a i).put b j, st := s }) := by
  have hsame : (q.mem.put a (q.mem a)).put b (q.mem b) = q.mem := by rw [put_same, put_same]
  have hne : ∀ i, (q.mem.put a i) b = q.mem b := fun i => if_neg hab.symm
  unfold eqT eqInst
  rw [ha, hb]
  by_cases hc : (cls a).cid = (cls b).cid
  · have hc' : ¬ (cls a).cid ≠ (cls b).cid := fun h => h hc
    simp only [if_neg hc']
    cases (cls a).frozen with
    | false =>
      simp only [Bool.false_eq_true, if_false]
      rw [eqFieldsT_alone, hsame]
    | true =>
      simp only [if_true]
      rw [alone_bind, hashT_alone]
      have k1 := hashInst_kept (E := E) H (cls a) (q.mem a) q.st
      revert k1
      rcases hashInst E H (cls a) (q.mem a) q.st with ⟨e | x, i, s1⟩ <;> intro k1
      · simp only
        have : (q.mem.put a i).put b (q.mem b) = q.mem.put a i := by rw [← hne i]; exact put_same _ _
        rw [this]
      · simp only
        rw [alone_bind, hashT_alone]
        simp only [hne]
        have k2 := hashInst_kept (E := E) H (cls a) (q.mem b) s1
        revert k2
        rcases hashInst E H (cls a) (q.mem b) s1 with ⟨e | y, j, s2⟩ <;> intro k2
        · rfl
        · simp only
          by_cases hxy : x = y
          · rw [if_neg (by simpa using hxy), if_neg (by simpa using hxy), eqFieldsT_alone]
            have h1 : ((q.mem.put a i).put b j) a = i := by
              show (if a = b then j else (if a = a then i else q.mem a)) = i
              rw [if_neg hab, if_pos rfl]
            have h2 : ((q.mem.put a i).put b j) b = j := if_pos rfl
            simp only [h1, h2]
            have e : eqFields E i j (cls a).fields.keys = eqFields E (q.mem a) (q.mem b) (cls a).fields.keys :=
              eqFields_congr k1.1 k1.2 k2.1 k2.2 _
            rw [e]
          · rw [if_pos hxy, if_pos hxy]; rfl
  · rw [if_pos hc, if_pos hc]
    simp only
    rw [hsame]
    rfl

theorem applyT_alone {args : SelectArgs W.Obj} (ha : Reiterable args) (x : S) (d : Dict W.Obj) (q : Shared W R S)
    (hq : ∀ b, q.truth x = some b → b = !(argEdits args).isEmpty) :
    (applyT args x d : Thread W R S _).alone E q =
      (args.mk'.applyTo d, { q with truth := fun y => if y = x then some (!(argEdits args).isEmpty) else q.truth y }) := by
  have ht : (truthT args x : Thread W R S _).alone E q =
      (.ok (!(argEdits args).isEmpty), { q with truth := fun y => if y = x then some (!(argEdits args).isEmpty) else q.truth y }) := by
    unfold truthT
    simp only [Thread.alone]
    cases h : q.truth x with
    | none =>
      simp only [Thread.alone, returnTruth, if_true, (truth_first args).1]
    | some b =>
      simp only [Thread.alone, returnTruth, h]
      have e : (fun y => if y = x then some (!(argEdits args).isEmpty) else q.truth y) = q.truth := by
        funext y
        split
        · next hy => rw [hy, h, hq b h]
        · rfl
      rw [e, hq b h]
  unfold applyT
  rw [alone_bind, ht, applyTo_args ha]
  simp only
  split <;> rfl

end

end Records
