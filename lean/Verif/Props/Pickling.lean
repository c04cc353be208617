import Verif.Proofs.Pickling
import Verif.Props.Copying
/-
C125: pickled object graphs with records in them.
-/
namespace Records
variable {W : World} {X : CopyEnv W}

namespace Pickling
open Copying

theorem Restored.child {φ : W.Obj → W.Obj → Prop} {nd nd' : Node W} (h : Restored X φ nd nd') {c : W.Obj} (hc : c ∈ nd.children) :
    ∃ c', φ c c' := by
  have key : ∀ {as bs : List W.Obj}, Along φ as bs → c ∈ as → ∃ c', φ c c' := by
    intro as
    induction as with
    | nil => intro bs _ hm; cases hm
    | cons a as ih =>
      intro bs ha hm
      cases bs with
      | nil => exact ha.elim
      | cons b bs =>
        rcases List.mem_cons.1 hm with rfl | hm
        · exact ⟨b, ha.1⟩
        · exact ih ha.2 hm
  cases h with
  | list h => exact key h hc
  | tuple h => exact key h hc
  | dict _ h => exact key h hc
  | record h =>
    obtain ⟨⟨k, v⟩, hkv, e⟩ := List.mem_map.1 hc
    cases e
    obtain ⟨⟨k', w⟩, hw, e⟩ := List.mem_map.1 ((h.keys k).2 (List.mem_map.2 ⟨_, hkv, rfl⟩))
    cases e
    exact ⟨w, h.values _ _ _ hkv hw⟩

theorem Restored.within {φ : W.Obj → W.Obj → Prop} {nd nd' : Node W} (h : Restored X φ nd nd') :
    Restored X (fun a b => a ∈ nd.children ∧ φ a b) nd nd' := by
  cases h with
  | list h => exact .list (along_within h)
  | tuple h => exact .tuple (along_within h)
  | dict h0 h => exact .dict h0 (along_within h)
  | record h => exact .record ⟨h.cls, h.nodup, h.keys, fun k v w h1 h2 => ⟨List.mem_map.2 ⟨_, h1, rfl⟩, h.values k v w h1 h2⟩, h.hash⟩

theorem sync_start {h g : W.Obj → Node W} {next : Nat} {t : LState W} : Sync X h next [] ⟨g, next, [], [], t⟩ :=
  ⟨rfl, .nil, .nil, nofun, nofun, nofun, Nat.le_refl _⟩

/-- from the memos to the relation between the two graphs -/
theorem unpickled_of {h g : W.Obj → Node W} {next : Nat} {x y : W.Obj} {t : LState W} {ms : List W.Obj} {s : LoadState W}
    (hs : PickleSource X h next x) (hi : Img h ms s.memo x y) (hc : Core X h next (Reaches h x) [] ⟨g, next, [], [], t⟩ ms s) :
    Unpickled X h x g next y s.heap (fun a b => Reaches h x a ∧ Img h ms s.memo a b) := by
  have hres : ∀ a b, Img h ms s.memo a b → h a = .atom ∧ b = a ∨ NewObj X next b ∧ Restored X (Img h ms s.memo) (h a) (s.heap b) := by
    rintro a b (⟨k, h1, h2⟩ | hA)
    · exact .inr ⟨hc.sync.new b (List.mem_of_getElem? h2), hc.like k a b (Nat.zero_le _) h1 h2⟩
    · exact .inl hA
  have hno : ∀ {a b}, Reaches h x a → h a = .atom → b = a → b ∉ s.memo := by
    rintro a b hr ha rfl hb
    exact hs.atoms b hr ha (hc.sync.new b hb)
  refine ⟨⟨.refl _, hi⟩, fun a => ⟨fun ⟨b, h1, _⟩ => h1, fun ha => ?_⟩, ?_, ?_, ?_, hc.heap⟩
  · obtain ⟨b, hb⟩ := reaches_in (fun a => ∃ b, Img h ms s.memo a b) (fun a ⟨b, hb⟩ c hcc => by
      rcases hres a b hb with ⟨ha, _⟩ | ⟨_, hr⟩
      · rw [ha] at hcc; cases hcc
      · exact Restored.child hr hcc) ⟨y, hi⟩ ha
    exact ⟨b, ha, hb⟩
  · rintro a b b' ⟨_, ⟨k, h1, h2⟩ | ⟨h1, rfl⟩⟩ ⟨_, ⟨k', h3, h4⟩ | ⟨h3, rfl⟩⟩
    · have := get_inj hc.sync.msnd h1 h3
      subst this
      rw [h2] at h4
      exact Option.some.inj h4
    · exact absurd h3 (hc.sync.notAtom _ (List.mem_of_getElem? h1))
    · exact absurd h1 (hc.sync.notAtom _ (List.mem_of_getElem? h3))
    · rfl
  · rintro a a' b ⟨r1, ⟨k, h1, h2⟩ | ⟨h1, e1⟩⟩ ⟨r2, ⟨k', h3, h4⟩ | ⟨h3, e2⟩⟩
    · have := get_inj hc.sync.lsnd h2 h4
      subst this
      rw [h1] at h3
      exact Option.some.inj h3
    · exact absurd (List.mem_of_getElem? h2) (hno r2 h3 e2)
    · exact absurd (List.mem_of_getElem? h4) (hno r1 h1 e1)
    · rw [← e1, ← e2]
  · rintro a b ⟨ha, hb⟩
    refine (hres a b hb).imp id fun ⟨h1, h2⟩ => ⟨h1, ?_⟩
    exact Restored.mono (fun c d ⟨h3, h4⟩ => ⟨reaches_trans ha (.step h3 (.refl _)), h4⟩) (Restored.within h2)

theorem dumps_ok {h : W.Obj → Node W} {n : Nat} {x : W.Obj} {t : LState W} {ops : List (POp W)} (hd : dumps X h n x t = .ok ops) :
    ∃ σ', dump X h n x ⟨[], t⟩ = (.ok ops, σ') := ⟨_, by rw [← hd]; rfl⟩

theorem dumps_error {h : W.Obj → Node W} {n : Nat} {x : W.Obj} {t : LState W} {e : Exc} (hd : dumps X h n x t = .error e) :
    ∃ σ', dump X h n x ⟨[], t⟩ = (.error e, σ') := ⟨_, by rw [← hd]; rfl⟩

end Pickling
open Copying Pickling

/-- **C125, the restored graph.** What `pickle.loads` makes of `pickle.dumps(x)`, in whatever process: every object reachable from `x` has
exactly one counterpart, different objects have different ones, shared parts are shared and cycles are closed in the same places; the
records have the same class, the same attributes with the counterparts of their values (also those equal to a default), and the same
`_hash`. No object that existed in the process is changed. -/
theorem C125_restored (hX : ∀ j k, X.fresh j = X.fresh k → j = k) {h g : W.Obj → Node W} {n next : Nat} {x y : W.Obj} {t t' : LState W}
    {ops : List (POp W)} {s : LoadState W} (hs : PickleSource X h next x) (hd : dumps X h n x t = .ok ops)
    (hl : loads X ops g next t' = .ok (y, s)) : ∃ φ, Unpickled X h x g next y s.heap φ := by
  obtain ⟨σ', hd'⟩ := dumps_ok hd
  rcases dump_does hX hs (K := False) nofun n x ⟨[], t⟩ ops σ' (.refl _) hd' ⟨g, next, [], [], t'⟩ sync_start with
    ⟨s1, hr, y1, k1, i1, c1⟩ | ⟨⟨e, hr⟩, _⟩
  · unfold loads at hl
    rw [hr] at hl
    simp only [k1] at hl
    cases hl
    exact ⟨_, unpickled_of hs i1 c1⟩
  · unfold loads at hl
    rw [hr] at hl
    cases hl

/-- **C125, loading succeeds** if the fields of the records keep what they get (which can be a list or dict that has not got its elements
yet). -/
theorem C125_loads (hX : ∀ j k, X.fresh j = X.fresh k → j = k) {h g : W.Obj → Node W} {n next : Nat} {x : W.Obj} {t t' : LState W}
    {ops : List (POp W)} (hs : PickleSource X h next x) (hk : ∀ r i, Reaches h x r → h r = .record i → KeepsAll X i)
    (hd : dumps X h n x t = .ok ops) : ∃ y s, loads X ops g next t' = .ok (y, s) := by
  obtain ⟨σ', hd'⟩ := dumps_ok hd
  rcases dump_does hX hs (K := True) (fun _ => hk) n x ⟨[], t⟩ ops σ' (.refl _) hd' ⟨g, next, [], [], t'⟩ sync_start with
    ⟨s1, hr, y1, k1, _⟩ | ⟨_, hr⟩
  · exact ⟨y1, s1, by unfold loads; rw [hr]; simp only [k1]⟩
  · exact absurd trivial hr

/-- **C125, storing succeeds** unless the recursion gets too deep: at most `R + 1` levels for each list or dict (`boxes`) and for the start,
if no chain of references that start in tuples and records is longer than `R`. -/
theorem C125_dumps {h : W.Obj → Node W} {n next : Nat} {x : W.Obj} {t : LState W} (hs : PickleSource X h next x) :
    (∀ e, dumps X h n x t = .error e → e = .recursionError) ∧
    ∀ (boxes : List W.Obj) R, (∀ a, Reaches h x a → ListOrDict h a → a ∈ boxes) → (∀ a k b, Reaches h x a → RefChain h k a b → k ≤ R) →
      R + (R + 1) * boxes.length < n → ∃ ops, dumps X h n x t = .ok ops := by
  rcases hd : dumps X h n x t with e | ops
  · obtain ⟨σ', hd'⟩ := dumps_error hd
    obtain ⟨h1, h2⟩ := dump_error hs n x ⟨[], t⟩ e σ' (.refl _) hd'
    refine ⟨fun e' he' => by cases he'; exact h1, fun boxes R hb hR hn => ?_⟩
    have h3 := h2 boxes R R hb hR (fun k b => hR x k b (.refl _))
    have h4 : left boxes ([] : List W.Obj) = boxes.length := by unfold left; simp
    rw [show (⟨[], t⟩ : DumpState W).memo = [] from rfl, h4] at h3
    omega
  · exact ⟨fun e he => (nomatch he), fun _ _ _ _ _ => ⟨ops, rfl⟩⟩

/-- **C125, cycles that cannot be stored.** If a cycle through tuples and (exported attributes of) records only is reachable from `x`,
`pickle.dumps(x)` raises a `RecursionError`. -/
theorem C125_refuses {h : W.Obj → Node W} {n next : Nat} {x a : W.Obj} {t : LState W} (hs : PickleSource X h next x) {S : W.Obj → Prop}
    (hS : Knotted X h S) (ha : Reaches h x a) (hSa : S a) : dumps X h n x t = .error .recursionError := by
  rcases hd : dumps X h n x t with e | ops
  · rw [(C125_dumps hs).1 e hd]
  · obtain ⟨σ', hd'⟩ := dumps_ok hd
    have hp := dump_post hs n x ⟨[], t⟩ ops σ' (.refl _) hd'
    have hin := reaches_in (h := h) (fun a => a ∈ σ'.memo ∨ h a = .atom) (fun a hm c hc => by
      rcases hm with hm | hm
      · exact hp.closed a hm nofun c hc
      · rw [hm] at hc; cases hc) (hp.stored x List.mem_cons_self) ha
    rcases hin with hm | hm
    · exact absurd hSa (hp.clean S hS nofun a hm)
    · obtain ⟨_, _, ⟨_, e, _⟩ | ⟨_, e, _⟩⟩ := hS a hSa <;> rw [hm] at e <;> cases e

end Records

namespace Records.Toy.Pic
open Toy Copying Pickling
open Toy.Cop (cycle cycle_reach single two twoSet two_closed twoSet_old old copyable inj)

theorem picklable (x y : Int) : Picklable Cop.X (mkA (.int x) (.int y)) :=
  ⟨rfl, A_creatable, fun _ _ => rfl, (copyable x y).free, (copyable x y).full, by
    show ["x", "y"].Nodup
    decide⟩

/-- nothing but atoms -/
def empty : TObj → Node W := fun _ => .atom

theorem cycle_source : PickleSource Cop.X cycle 0 (.int 1) := by
  refine ⟨fun a ha _ => ?_, fun r i ha hi => ?_, fun r m ha hi => ?_⟩
  · rcases cycle_reach a ha with rfl | rfl | rfl <;> exact old (by decide)
  · rcases cycle_reach r ha with rfl | rfl | rfl <;> cases hi
    exact picklable 7 3
  · rcases cycle_reach r ha with rfl | rfl | rfl <;> cases hi

/-- the pickle of a record that is an element of its own list -/
def cycleOps : List (POp W) :=
  [.emptyList, .memoize, .get 0, .newObj A.cid ["x"], .memoize, .get 0, .atom (.int 3), .build ["x", "y"] (mkA (.int 7) (.int 3)).hash,
    .appends 1, .newObj A.cid ["x"], .pop 1, .get 1, .get 0, .atom (.int 3), .build ["x", "y"] (mkA (.int 7) (.int 3)).hash]

set_option maxHeartbeats 4000000 in
theorem cycle_dumps : dumps Cop.X cycle 9 (.int 1) s0 = .ok cycleOps := by with_unfolding_all rfl

/-- what it is loaded to -/
def cycleEnd : LoadState W := match Records.loads Cop.X cycleOps empty 0 s0 with
  | .ok (_, s) => s
  | .error _ => ⟨empty, 0, [], [], s0⟩

set_option maxHeartbeats 4000000 in
theorem cycle_loads : Records.loads Cop.X cycleOps empty 0 s0 = .ok (.int 101, cycleEnd) ∧ cycleEnd.heap (.int 101) = Cop.rec 100 ∧
    cycleEnd.heap (.int 100) = .list [.int 101] := by
  refine ⟨?_, ?_, ?_⟩ <;> with_unfolding_all rfl

example := C125_restored (W := Toy.W) inj cycle_source cycle_dumps cycle_loads.1

theorem cycle_keeps (r : TObj) (i : Inst W) (ha : Reaches (W := W) cycle (.int 1) r) (hi : cycle r = .record i) : KeepsAll Cop.X i := by
  rcases cycle_reach r ha with rfl | rfl | rfl <;> cases hi
  exact (copyable 7 3).keeps

example (g : TObj → Node W) (t : LState W) := C125_loads (W := Toy.W) (g := g) (t' := t) inj cycle_source cycle_keeps cycle_dumps

theorem chain_cases {V : World} {h : V.Obj → Node V} {k : Nat} {x a : V.Obj} (hc : RefChain h k x a) :
    k = 0 ∨ ∃ k' c, k = k' + 1 ∧ RefChain h k' c a ∧ ((∃ xs, h x = .tuple xs ∧ c ∈ xs) ∨ ∃ i, h x = .record i ∧ c ∈ i.dict.values) := by
  cases hc with
  | zero => exact .inl rfl
  | tuple h1 h2 h3 => exact .inr ⟨_, _, rfl, h3, .inl ⟨_, h1, h2⟩⟩
  | record h1 h2 h3 => exact .inr ⟨_, _, rfl, h3, .inr ⟨_, h1, h2⟩⟩

theorem cycle_chain (a : TObj) (k : Nat) (b : TObj) (ha : Reaches (W := W) cycle (.int 1) a) (hc : RefChain (W := W) cycle k a b) : k ≤ 1 := by
  rcases chain_cases (V := Toy.W) hc with rfl | ⟨k, c, rfl, hc1, ⟨xs, h1, h2⟩ | ⟨i, h1, h2⟩⟩
  · decide
  · rcases cycle_reach a ha with rfl | rfl | rfl <;> cases h1
  · rcases cycle_reach a ha with rfl | rfl | rfl <;> cases h1
    have hc' : c = TObj.int 7 ∨ c = TObj.int 3 := by
      rcases h2 with _ | ⟨_, _ | ⟨_, h2⟩⟩
      · exact .inl rfl
      · exact .inr rfl
      · cases h2
    rcases chain_cases (V := Toy.W) hc1 with rfl | ⟨k, c', rfl, _, ⟨xs, h1, _⟩ | ⟨i, h1, _⟩⟩
    · decide
    · rcases hc' with rfl | rfl <;> cases h1
    · rcases hc' with rfl | rfl <;> cases h1

example : ∃ ops, dumps Cop.X cycle 4 (.int 1) s0 = .ok ops :=
  (C125_dumps (W := Toy.W) cycle_source).2 [.int 7] 1 (fun a ha hb => by
    rcases cycle_reach a ha with rfl | rfl | rfl
    · rcases hb with ⟨_, e⟩ | ⟨_, e⟩ <;> cases e
    · exact List.mem_cons_self ..
    · rcases hb with ⟨_, e⟩ | ⟨_, e⟩ <;> cases e) cycle_chain (by decide)

/-- a record that is its own attribute -/
def selfish : TObj → Node W
  | .int 1 => Cop.rec 1
  | _ => .atom

theorem selfish_reach : ∀ a, Reaches (W := W) selfish (.int 1) a → a = .int 1 ∨ a = .int 3 := by
  intro a ha
  refine reaches_in (W := Toy.W) (fun a => a = TObj.int 1 ∨ a = TObj.int 3) ?_ (.inl rfl) ha
  rintro a (rfl | rfl) c hc
  · rcases hc with _ | ⟨_, _ | ⟨_, hc⟩⟩
    · exact .inl rfl
    · exact .inr rfl
    · cases hc
  · cases hc

theorem selfish_source : PickleSource Cop.X selfish 0 (.int 1) := by
  refine ⟨fun a ha _ => ?_, fun r i ha hi => ?_, fun r m ha hi => ?_⟩
  · rcases selfish_reach a ha with rfl | rfl <;> exact old (by decide)
  · rcases selfish_reach r ha with rfl | rfl <;> cases hi
    exact picklable 1 3
  · rcases selfish_reach r ha with rfl | rfl <;> cases hi

theorem selfish_knotted : Knotted Cop.X selfish (fun a => a = TObj.int 1) := by
  rintro a rfl
  exact ⟨TObj.int 1, rfl, .inr ⟨mkA (.int 1) (.int 3), rfl, List.mem_cons_self ..⟩⟩

example (n : Nat) : dumps Cop.X selfish n (.int 1) s0 = .error .recursionError :=
  C125_refuses (W := Toy.W) selfish_source selfish_knotted (.refl _) rfl

/-- two records that share a list: so do the restored ones -/
def twoOps : List (POp W) := match dumps Cop.X two 9 (.int 0) s0 with
  | .ok p => p
  | .error _ => []

def twoEnd : LoadState W := match Records.loads Cop.X twoOps empty 0 s0 with
  | .ok (_, s) => s
  | .error _ => ⟨empty, 0, [], [], s0⟩

set_option maxHeartbeats 4000000 in
example : Records.loads Cop.X twoOps empty 0 s0 = .ok (.int 100, twoEnd) ∧ twoEnd.heap (.int 100) = .list [.int 102, .int 103] ∧
    twoEnd.heap (.int 102) = Cop.rec 101 ∧ twoEnd.heap (.int 103) = Cop.rec 101 ∧ twoEnd.heap (.int 101) = .list [] := by
  refine ⟨?_, ?_, ?_, ?_, ?_⟩ <;> with_unfolding_all rfl

/-- a record whose `y` is its default, a list: the restored record has another list (`copy.deepcopy` keeps the default) -/
def singleOps : List (POp W) := match dumps Cop.X single 9 (.int 1) s0 with
  | .ok p => p
  | .error _ => []

def singleEnd : LoadState W := match Records.loads Cop.X singleOps single 0 s0 with
  | .ok (_, s) => s
  | .error _ => ⟨empty, 0, [], [], s0⟩

set_option maxHeartbeats 4000000 in
example : Records.loads Cop.X singleOps single 0 s0 = .ok (.int 100, singleEnd) ∧ singleEnd.heap (.int 100) = Cop.rec 5 101 ∧
    singleEnd.heap (.int 101) = .list [] := by
  refine ⟨?_, ?_, ?_⟩ <;> with_unfolding_all rfl

end Records.Toy.Pic
