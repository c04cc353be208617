import Verif.Proofs.Threads
import Verif.Spec.ToyHash
/-
C119: records and Selects used by several threads at the same time.
-/
namespace Records
open Spec
variable {W : World} {R S : Type} [DecidableEq R] [DecidableEq S] {E : Env W} {H : Hasher W} {cls : R → RecClass W}
  {sel : S → SelectArgs W.Obj} {m : Shared W R S}

/-- **C119.** Whatever the accesses of the threads are interleaved like: a thread that is finished has performed all its operations, and
each answered as in a single thread. -/
theorem C119_answers (E : Env W) (hm : Ready H cls sel m) (progs : List (List (TOp W R S)))
    (hp : ∀ ops ∈ progs, ∀ op ∈ ops, op.readOnly cls) (sched : List Nat) (i : Nat) (ops : List (TOp W R S)) (hi : progs[i]? = some ops)
    (x : Except Exc (List (Except Exc (TAns W))))
    (hx : ((Machine.mk (progs.map (program H cls sel)) m).run E sched).threads[i]? = some (.done x)) :
    Answers E H cls sel m ops x := by
  obtain ⟨h, _⟩ := (machine_ok (E := E) hm progs hp).run sched
  obtain ⟨K, B, _, hs⟩ := h.fine i _ hx
  have hs : Answers E H cls sel m (progs.getD i []) x := hs
  rwa [List.getD_eq_getElem?_getD, hi] at hs

/-- **C119, nobody waits.** A thread is finished after a number of accesses of its own that depends on its operations only. -/
theorem C119_finishes (E : Env W) (hm : Ready H cls sel m) (progs : List (List (TOp W R S)))
    (hp : ∀ ops ∈ progs, ∀ op ∈ ops, op.readOnly cls) (sched : List Nat) (i : Nat) (ops : List (TOp W R S)) (hi : progs[i]? = some ops)
    (hn : (ops.map (TOp.cost cls)).sum ≤ sched.count i) :
    ∃ x, ((Machine.mk (progs.map (program H cls sel)) m).run E sched).threads[i]? = some (.done x) := by
  obtain ⟨h, hl⟩ := (machine_ok (E := E) hm progs hp).run sched
  have hlt : i < ((Machine.mk (progs.map (program H cls sel)) m).run E sched).threads.length := by
    rw [hl]
    simpa using (List.getElem?_eq_some_iff.1 hi).1
  obtain ⟨K, B, _, hs⟩ := h.fine i _ (List.getElem?_eq_getElem hlt)
  have e : ((progs.getD i []).map (TOp.cost cls)).sum - sched.count i = 0 := by
    rw [List.getD_eq_getElem?_getD, hi]
    exact Nat.sub_eq_zero_of_le hn
  rw [e] at hs
  obtain ⟨x, hx⟩ := Safe_zero hs
  exact ⟨x, by rw [List.getElem?_eq_getElem hlt, hx]⟩

/-- **C119, what the threads see of each other.** At every moment the fields of all records are as before, the cached hashes and truth
values are missing or right, so that the records and Selects can be used further, and no user code has been called. -/
theorem C119_memory (E : Env W) (hm : Ready H cls sel m) (progs : List (List (TOp W R S)))
    (hp : ∀ ops ∈ progs, ∀ op ∈ ops, op.readOnly cls) (sched : List Nat) (q : Shared W R S)
    (hq : q = ((Machine.mk (progs.map (program H cls sel)) m).run E sched).shared) :
    (∀ r, (q.mem r).dict = (m.mem r).dict ∧ (q.mem r).cid = (m.mem r).cid) ∧ Ready H cls sel q ∧ q.st = m.st := by
  subst hq
  have g := ((machine_ok (E := E) hm progs hp).run sched).1.good
  refine ⟨fun r => ⟨g.dict r, g.cid r⟩, ⟨hm.creatable, hm.ident, fun r => ?_, hm.reiterable, fun x b hb => ?_⟩, g.st⟩
  · have hs : shown (cls r) (((Machine.mk (progs.map (program H cls sel)) m).run E sched).shared.mem r) = shown (cls r) (m.mem r) := by
      unfold shown
      rw [g.dict r]
    refine ⟨(g.cid r).trans (hm.record r).cls, fun k hk => ?_, fun hf => ?_⟩
    · rw [g.dict r]
      exact (hm.record r).full k hk
    · refine (g.hash r hf).imp_right fun ⟨v, h, hv⟩ => ?_
      unfold recordHash
      rw [hs, h, hv.value]
      exact ⟨rfl, hv.hashable⟩
  · rw [g.truth x b hb]
    have h' := isEmpty_iff_script (argEdits (sel x))
    cases h : (argEdits (sel x)).isEmpty <;> simp_all

/-- **C119, single threads.** A thread that is not interrupted computes what the operations compute in the model of a single thread. -/
theorem C119_alone (E : Env W) (H : Hasher W) (C : RecClass W) (r : R) (o : ExportOpts) (q : Shared W R S) :
    ((hashT H C r).alone E q = match hashInst E H C (q.mem r) q.st with
      | (x, i, s) => (x, { q with mem := q.mem.put r i, st := s })) ∧
    (exportT C r o).alone E q = (match toDict C (.ofInst E (q.mem r)) o Sel.empty q.st with
      | (x, s) => (x, { q with st := s })) ∧
    ∀ k v, (setT C r k v).alone E q = match setInst C (q.mem r) k v with
      | (x, i) => (x, { q with mem := q.mem.put r i }) := by
  refine ⟨hashT_alone H C r q, exportT_alone C r o q, fun k v => ?_⟩
  unfold setT setInst
  cases C.frozen
  · rfl
  · simp only [if_true, put_same]; rfl

/-- **C119, single threads.** The same for a comparison of different records. -/
theorem C119_alone_eq (E : Env W) (H : Hasher W) (cls : R → RecClass W) {a b : R} (hab : a ≠ b) (q : Shared W R S)
    (ha : (q.mem a).cid = (cls a).cid) (hb : (q.mem b).cid = (cls b).cid) :
    (eqT H cls a b).alone E q = match eqInst E H (cls a) (q.mem a) (q.mem b) q.st with
      | (x, i, j, s) => (x, { q with mem := (q.mem.put a i).put b j, st := s }) := eqT_alone H cls hab q ha hb

/-- **C119, single threads.** The same for the application of a Select. -/
theorem C119_alone_apply (E : Env W) {args : SelectArgs W.Obj} (ha : Reiterable args) (x : S) (d : Dict W.Obj) (q : Shared W R S)
    (hq : ∀ b, q.truth x = some b → (b = true ↔ (argEdits args).script ≠ [])) :
    ((applyT args x d : Thread W R S _).alone E q).1 = args.mk'.applyTo d ∧ ((applyT args x d : Thread W R S _).alone E q).2.mem = q.mem ∧
      (∀ b, ((applyT args x d : Thread W R S _).alone E q).2.truth x = some b ↔ (b = true ↔ (argEdits args).script ≠ [])) := by
  have h' := isEmpty_iff_script (argEdits args)
  rw [applyT_alone ha x d q fun b hb => by
    have := hq b hb
    cases b <;> cases h : (argEdits args).isEmpty <;> simp_all]
  refine ⟨rfl, rfl, fun b => ?_⟩
  simp only [if_true, Option.some.injEq]
  cases b <;> cases h : (argEdits args).isEmpty <;> simp_all

/-- **C119, single threads.** A machine with a single thread runs it without interruption. -/
theorem C119_schedule {α : Type} (E : Env W) (t : Thread W R S α) (q : Shared W R S) : ∃ n,
    (Machine.mk [t] q).run E (List.replicate n 0) = ⟨[.done (t.alone E q).1], (t.alone E q).2⟩ := run_alone E t q

end Records

namespace Records.Toy.Thr
open Records.Spec Toy

/-- three frozen records: 0 and 1 are equal, 2 is not hashable; 3 and 4 are not frozen -/
def mem : Mem W (Fin 5)
  | 0 => mkB (.int 1) (.int 3) "a"
  | 1 => mkB (.int 1) (.int 3) "a"
  | 2 => mkB (list []) (.int 3) "a"
  | 3 => mkA (.int 0) (.int 0)
  | 4 => mkA (.int 0) (.int 1)

def cls : Fin 5 → RecClass W
  | 0 | 1 | 2 => B
  | 3 | 4 => A

/-- `Select(keys_to_remove=['x'], keys_to_maybe_remove=['w'])` and `Select()` -/
def sel : Bool → SelectArgs W.Obj
  | true => { remove := .iterable (.many ["x"]), maybeRemove := .iterable (.many ["w"]) }
  | false => {}

def m : Shared W (Fin 5) Bool := ⟨mem, fun _ => none, s0⟩

theorem shareable {H : Hasher W} {C : RecClass W} {i : Inst W} (h : Proper H C i) : Shareable H C i :=
  ⟨h.cls, h.full, fun hf => (h.cache hf).imp_right fun h' => ⟨h', h.hashable hf⟩⟩

theorem ready : Ready (hasher 0) cls sel m := by
  refine ⟨?_, ?_, ?_, ?_, nofun⟩
  · exact fun | 0 => B_creatable | 1 => B_creatable | 2 => B_creatable | 3 => A_creatable | 4 => A_creatable
  · have h : ∀ r, cls r = A ∨ cls r = B := fun | 0 | 1 | 2 => .inr rfl | 3 | 4 => .inl rfl
    intro a b he
    rcases h a with ha | ha <;> rcases h b with hb | hb <;> rw [ha, hb] at he ⊢
    · nomatch (show TCls.record 0 = TCls.record 1 from he)
    · nomatch (show TCls.record 1 = TCls.record 0 from he)
  · exact fun
      | 0 => shareable (mkB_proper _ 1 3 "a")
      | 1 => shareable (mkB_proper _ 1 3 "a")
      | 2 => ⟨rfl, mkB_full _ _ _ _, fun _ => .inl rfl⟩
      | 3 => shareable (mkA_proper _ _ _)
      | 4 => shareable (mkA_proper _ _ _)
  · exact fun
      | true => ⟨trivial, trivial, trivial, trivial, trivial, trivial⟩
      | false => ⟨trivial, trivial, trivial, trivial, trivial, trivial⟩

/-- three threads -/
def progs : List (List (TOp W (Fin 5) Bool)) :=
  [[.hash 0, .set 0 "x" (.int 9), .eq 0 1], [.eq 1 0, .hash 2, .apply true [("x", .int 1), ("z", .int 2)]],
   [.export 0 {}, .hash 0, .apply false [], .eq 3 4, .apply true []]]

theorem progs_readOnly : ∀ ops ∈ progs, ∀ op ∈ ops, op.readOnly cls := by
  intro ops h op ho
  simp only [progs, List.mem_cons, List.not_mem_nil, or_false] at h
  rcases h with rfl | rfl | rfl <;> simp only [List.mem_cons, List.not_mem_nil, or_false] at ho
  · rcases ho with rfl | rfl | rfl
    · trivial
    · exact rfl
    · trivial
  · rcases ho with rfl | rfl | rfl <;> trivial
  · rcases ho with rfl | rfl | rfl | rfl | rfl <;> trivial

example := C119_answers env ready progs progs_readOnly
example := C119_finishes env ready progs progs_readOnly
example := fun sched => C119_memory env ready progs progs_readOnly sched _ rfl
/-- the threads take turns: all of them find the caches empty, and fill them -/
def turns (n : Nat) : Machine W (Fin 5) Bool (List (Except Exc (TAns W))) :=
  (Machine.mk (progs.map (program (hasher 0) cls sel)) m).run env (List.replicate n [0, 1, 2]).flatten
example : (turns 3).shared.mem 0 = mem 0 := rfl
set_option maxRecDepth 20000 in
example : (turns 30).threads[0]? =
    some (.done (.ok [.ok (.hash (recordHash (hasher 0) B (mem 0))), .error .typeError, .ok (.bool true)])) := rfl
set_option maxRecDepth 20000 in
example : (turns 30).threads[1]? = some (.done (.ok [.ok (.bool true), .error .typeError, .ok (.dict [("z", .int 2)])])) := rfl
set_option maxRecDepth 20000 in
example : (turns 30).threads[2]? = some (.done (.ok [.ok (.dict [("x", .int 1), ("z", .str "a")]),
    .ok (.hash (recordHash (hasher 0) B (mem 0))), .ok (.dict []), .ok (.bool false), .error .keyError])) := rfl

/-- `a == b` in one thread; `a.x = 1; a.y = 1` in another -/
def torn : List (List (TOp W (Fin 5) Bool)) := [[.eq 3 4], [.set 3 "x" (.int 1), .set 3 "y" (.int 1)], [.export 3 {}]]

def tornRun (n : Nat) : Machine W (Fin 5) Bool (List (Except Exc (TAns W))) :=
  (Machine.mk (torn.map (program (hasher 0) cls sel)) m).run env ([0, 0, 2, 1, 1, 0, 0, 2].take n)

end Records.Toy.Thr

namespace Records
open Toy.Thr

/-- **C119, records that are assigned to.** If a thread assigns to the fields of a record while another compares it, the comparison can
answer True although the records are equal at no moment. -/
theorem C119_refuted_compare :
    (∀ n, n ≤ 8 → (eqInst Toy.env (Toy.hasher 0) Toy.A ((tornRun n).shared.mem 3) ((tornRun n).shared.mem 4) Toy.s0).1 = .ok false) ∧
    (tornRun 8).threads[0]? = some (.done (.ok [.ok (.bool true)])) := by
  refine ⟨fun n hn => ?_, rfl⟩
  match n, hn with
  | 0, _ | 1, _ | 2, _ | 3, _ | 4, _ | 5, _ | 6, _ | 7, _ | 8, _ => rfl

/-- **C119, records that are assigned to.** An export can show a state the record was never in. -/
theorem C119_refuted_export :
    (∀ n, n ≤ 8 → ∀ d, (toDict Toy.A (.ofInst Toy.env ((tornRun n).shared.mem 3)) { includeDefaults := true } Sel.empty Toy.s0).1 = .ok d →
      ¬ (d.get? "x" = some (.int 0) ∧ d.get? "y" = some (.int 1))) ∧
    (tornRun 8).threads[2]? = some (.done (.ok [.ok (.dict [("x", .int 0), ("y", .int 1)])])) := by
  refine ⟨fun n hn d hd => ?_, rfl⟩
  match n, hn with
  | 0, _ | 1, _ | 2, _ | 3, _ | 4, _ | 5, _ | 6, _ | 7, _ | 8, _ => cases hd; nofun

end Records
