import Verif.Spec.Pickling
import Verif.Proofs.Copying
/-
Lemmas for pickled object graphs.
-/
namespace Records
variable {W : World} {X : CopyEnv W}

namespace Pickling
open Copying

/-! ### running instructions -/

theorem runOps_append (p q : List (POp W)) (s : LoadState W) :
    runOps X (p ++ q) s = match runOps X p s with | .error e => .error e | .ok s1 => runOps X q s1 := by
  induction p generalizing s with
  | nil => rfl
  | cons a p ih =>
    rw [show runOps X (a :: p ++ q) s = (match s.step X a with | .error e => .error e | .ok s1 => runOps X (p ++ q) s1) from rfl]
    rw [show runOps X (a :: p) s = (match s.step X a with | .error e => .error e | .ok s1 => runOps X p s1) from rfl]
    cases s.step X a with
    | error e => rfl
    | ok s1 => exact ih s1

/-- it returns with `P`, or fails although `K` does not hold -/
def Does (K : Prop) (r : Except Exc (LoadState W)) (P : LoadState W → Prop) : Prop := (∃ s, r = .ok s ∧ P s) ∨ (∃ e, r = .error e) ∧ ¬ K

theorem Does.bind {K : Prop} {p q : List (POp W)} {s : LoadState W} {P Q : LoadState W → Prop} (h : Does K (runOps X p s) P)
    (h' : ∀ s1, P s1 → Does K (runOps X q s1) Q) : Does K (runOps X (p ++ q) s) Q := by
  rw [runOps_append]
  rcases h with ⟨s1, e, h⟩ | ⟨⟨e, he⟩, hK⟩
  · rw [e]; exact h' s1 h
  · rw [he]; exact .inr ⟨⟨e, rfl⟩, hK⟩

theorem Does.step {K : Prop} {p : POp W} {q : List (POp W)} {s s1 : LoadState W} {Q : LoadState W → Prop} (h : s.step X p = .ok s1)
    (h' : Does K (runOps X q s1) Q) : Does K (runOps X (p :: q) s) Q := by
  rw [show runOps X (p :: q) s = (match s.step X p with | .error e => .error e | .ok s1 => runOps X q s1) from rfl, h]
  exact h'

theorem Does.done {K : Prop} {s : LoadState W} {Q : LoadState W → Prop} (h : Q s) : Does K (runOps X [] s) Q := .inl ⟨s, rfl, h⟩

theorem Does.fail {K : Prop} {p : POp W} {q : List (POp W)} {s : LoadState W} {e : Exc} {Q : LoadState W → Prop}
    (h : s.step X p = .error e) (hK : ¬ K) : Does K (runOps X (p :: q) s) Q := by
  rw [show runOps X (p :: q) s = (match s.step X p with | .error e => .error e | .ok s1 => runOps X q s1) from rfl, h]
  exact .inr ⟨⟨e, rfl⟩, hK⟩

theorem items_eq {s : LoadState W} {ys base : List W.Obj} (h : s.stack = ys.reverse ++ base) {n : Nat} (hn : n = ys.length) :
    s.items n = ys ∧ (s.dropped n).stack = base := by
  subst hn
  have hl : ys.length = ys.reverse.length := List.length_reverse.symm
  constructor
  · show (s.stack.take ys.length).reverse = ys
    rw [h, hl, List.take_left, List.reverse_reverse]
  · show s.stack.drop ys.length = base
    rw [h, hl, List.drop_left]

/-! ### memos -/

theorem find_some {σ : DumpState W} {x : W.Obj} {k : Nat} (h : σ.find x = some k) : σ.memo[k]? = some x := by
  unfold DumpState.find at h
  obtain ⟨hk, h1, _⟩ := List.findIdx?_eq_some_iff_getElem.1 h
  rw [List.getElem?_eq_getElem hk]
  rw [of_decide_eq_true h1]

theorem find_none {σ : DumpState W} {x : W.Obj} (h : σ.find x = none) : x ∉ σ.memo := by
  unfold DumpState.find at h
  intro hx
  have := List.findIdx?_eq_none_iff.1 h x hx
  simp at this

theorem get_append {α : Type} {l e : List α} {k : Nat} {a : α} (h : l[k]? = some a) : (l ++ e)[k]? = some a := by
  obtain ⟨hk, _⟩ := List.getElem?_eq_some_iff.1 h
  rw [List.getElem?_append_left hk, h]

theorem get_right {α : Type} {l e : List α} {k : Nat} {a : α} (hk : l.length ≤ k) (h : (l ++ e)[k]? = some a) : a ∈ e := by
  rw [List.getElem?_append_right hk] at h
  exact List.mem_of_getElem? h

theorem get_inj {α : Type} {l : List α} (hl : l.Nodup) {j k : Nat} {a : α} (hj : l[j]? = some a) (hk : l[k]? = some a) : j = k := by
  obtain ⟨h1, e1⟩ := List.getElem?_eq_some_iff.1 hj
  obtain ⟨h2, e2⟩ := List.getElem?_eq_some_iff.1 hk
  exact (List.getElem_inj hl).1 (e1.trans e2.symm)

/-- the memos of the two processes fit -/
structure Sync (X : CopyEnv W) (h : W.Obj → Node W) (n0 : Nat) (ms : List W.Obj) (s : LoadState W) : Prop where
  len : s.memo.length = ms.length
  msnd : ms.Nodup
  lsnd : s.memo.Nodup
  new : ∀ b ∈ s.memo, NewObj X n0 b
  known : ∀ b ∈ s.memo, Known X s.next b
  notAtom : ∀ a ∈ ms, h a ≠ .atom
  le : n0 ≤ s.next

/-- the counterpart of `a` -/
def Img (h : W.Obj → Node W) (ms ls : List W.Obj) (a b : W.Obj) : Prop :=
  (∃ k : Nat, ms[k]? = some a ∧ ls[k]? = some b) ∨ h a = .atom ∧ b = a

theorem Img.mono {h : W.Obj → Node W} {ms ls e e' : List W.Obj} {a b : W.Obj} (hi : Img h ms ls a b) : Img h (ms ++ e) (ls ++ e') a b :=
  hi.imp (fun ⟨k, h1, h2⟩ => ⟨k, get_append h1, get_append h2⟩) id

theorem Restored.mono {φ φ' : W.Obj → W.Obj → Prop} (h : ∀ a b, φ a b → φ' a b) {nd nd' : Node W} (hr : Restored X φ nd nd') :
    Restored X φ' nd nd' := by
  cases hr with
  | list h1 => exact .list (along_mono h h1)
  | tuple h1 => exact .tuple (along_mono h h1)
  | dict h0 h1 => exact .dict h0 (along_mono h h1)
  | record h1 => exact .record ⟨h1.cls, h1.nodup, h1.keys, fun k v w h2 h3 => h _ _ (h1.values k v w h2 h3), h1.hash⟩

/-- a part of the program that stores objects with `S` -/
structure Core (X : CopyEnv W) (h : W.Obj → Node W) (n0 : Nat) (S : W.Obj → Prop) (ms : List W.Obj) (s : LoadState W) (ms' : List W.Obj)
    (s' : LoadState W) : Prop where
  sync : Sync X h n0 ms' s'
  le : s.next ≤ s'.next
  heap : ∀ o, Known X s.next o → s'.heap o = s.heap o
  dumped : ∃ e, ms' = ms ++ e ∧ ∀ a ∈ e, S a
  loaded : ∃ e, s'.memo = s.memo ++ e ∧ ∀ b ∈ e, NewObj X s.next b
  like : ∀ (k : Nat) a b, ms.length ≤ k → ms'[k]? = some a → s'.memo[k]? = some b → Restored X (Img h ms' s'.memo) (h a) (s'.heap b)

variable {h : W.Obj → Node W} {n0 : Nat} {S : W.Obj → Prop}

theorem Core.refl {ms : List W.Obj} {s s' : LoadState W} (hs : Sync X h n0 ms s) (hh : s'.heap = s.heap) (hn : s'.next = s.next)
    (hm : s'.memo = s.memo) : Core X h n0 S ms s ms s' := by
  refine ⟨⟨by rw [hm]; exact hs.len, hs.msnd, by rw [hm]; exact hs.lsnd, by rw [hm]; exact hs.new, by rw [hm, hn]; exact hs.known,
    hs.notAtom, by rw [hn]; exact hs.le⟩, by rw [hn]; exact Nat.le_refl _, fun _ _ => by rw [hh], ⟨[], by simp⟩, ⟨[], by simp [hm]⟩, ?_⟩
  intro k a b hk ha _
  rw [List.getElem?_eq_none hk] at ha
  cases ha

theorem Core.img {ms ms' : List W.Obj} {s s' : LoadState W} (hc : Core X h n0 S ms s ms' s') {a b : W.Obj} (hi : Img h ms s.memo a b) :
    Img h ms' s'.memo a b := by
  obtain ⟨e, e1, _⟩ := hc.dumped
  obtain ⟨e', e2, _⟩ := hc.loaded
  rw [e1, e2]
  exact hi.mono

theorem Core.trans {ms ms1 ms2 : List W.Obj} {s s1 s2 : LoadState W} (hc : Core X h n0 S ms s ms1 s1) (hc' : Core X h n0 S ms1 s1 ms2 s2) :
    Core X h n0 S ms s ms2 s2 := by
  have hm2 := hc'.dumped
  have hl2 := hc'.loaded
  obtain ⟨e1, m1, a1⟩ := hc.dumped
  obtain ⟨e2, m2, a2⟩ := hm2
  obtain ⟨f1, l1, b1⟩ := hc.loaded
  obtain ⟨f2, l2, b2⟩ := hl2
  refine ⟨hc'.sync, Nat.le_trans hc.le hc'.le, fun o ho => (hc'.heap o (ho.mono hc.le)).trans (hc.heap o ho),
    ⟨e1 ++ e2, by rw [m2, m1, List.append_assoc], ?_⟩, ⟨f1 ++ f2, by rw [l2, l1, List.append_assoc], ?_⟩, ?_⟩
  · intro a ha
    exact (List.mem_append.1 ha).elim (a1 a) (a2 a)
  · intro b hb
    exact (List.mem_append.1 hb).elim (b1 b) fun h => NewObj.mono hc.le (b2 b h)
  · intro k a b hk ha hb
    by_cases hk1 : ms1.length ≤ k
    · exact hc'.like k a b hk1 ha hb
    · have hk1 : k < ms1.length := Nat.lt_of_not_le hk1
      rw [m2, List.getElem?_append_left hk1] at ha
      have hk2 : k < s1.memo.length := by rw [hc.sync.len]; exact hk1
      rw [l2, List.getElem?_append_left hk2] at hb
      rw [hc'.heap b (hc.sync.known b (List.mem_of_getElem? hb))]
      exact Restored.mono (fun _ _ => hc'.img) (hc.like k a b hk ha hb)

theorem alloc_new {s : LoadState W} {nd : Node W} : (s.alloc X nd).heap (X.fresh s.next) = nd := by
  show (if X.fresh s.next = X.fresh s.next then nd else _) = nd
  rw [if_pos rfl]

theorem alloc_old {s : LoadState W} {nd : Node W} {o : W.Obj} (ho : Known X s.next o) : (s.alloc X nd).heap o = s.heap o := by
  show (if o = X.fresh s.next then nd else _) = _
  rw [if_neg]
  rintro rfl
  exact ho (new_fresh _)

theorem put_at {s : LoadState W} {y : W.Obj} {nd : Node W} : (s.put y nd).heap y = nd := if_pos rfl

theorem put_other {s : LoadState W} {y o : W.Obj} {nd : Node W} (ho : o ≠ y) : (s.put y nd).heap o = s.heap o := if_neg ho

/-- an object is made that is not put into the memo -/
theorem Core.garbage {ms : List W.Obj} {s s1 : LoadState W} (hs : Sync X h n0 ms s) (hn : s1.next = s.next + 1)
    (hm : s1.memo = s.memo) (hh : ∀ o, Known X s.next o → s1.heap o = s.heap o) : Core X h n0 S ms s ms s1 := by
  refine ⟨⟨by rw [hm]; exact hs.len, hs.msnd, by rw [hm]; exact hs.lsnd, by rw [hm]; exact hs.new,
    fun b hb => by rw [hn]; rw [hm] at hb; exact (hs.known b hb).mono (Nat.le_succ _),
    hs.notAtom, by rw [hn]; exact Nat.le_succ_of_le hs.le⟩, by rw [hn]; exact Nat.le_succ _, hh, ⟨[], by simp⟩, ⟨[], by simp [hm]⟩, ?_⟩
  intro k a b hk ha _
  rw [List.getElem?_eq_none hk] at ha
  cases ha

/-- an object is made for `x` and put into the memo -/
theorem Sync.note (hX : ∀ j k, X.fresh j = X.fresh k → j = k) {ms : List W.Obj} {s s1 : LoadState W} (hs : Sync X h n0 ms s) {x : W.Obj}
    (hx : x ∉ ms) (ha : h x ≠ .atom) (hn : s1.next = s.next + 1) (hm : s1.memo = s.memo ++ [X.fresh s.next]) :
    Sync X h n0 (ms ++ [x]) s1 := by
  have hy : X.fresh s.next ∉ s.memo := fun hy => hs.known _ hy (new_fresh _)
  refine ⟨by rw [hm, List.length_append, List.length_append, hs.len]; rfl, ?_, ?_, ?_, ?_, ?_, by rw [hn]; exact Nat.le_succ_of_le hs.le⟩
  · rw [List.nodup_append]
    exact ⟨hs.msnd, by simp, by rintro a h1 b h2 rfl; rw [List.mem_singleton] at h2; subst h2; exact hx h1⟩
  · rw [hm, List.nodup_append]
    exact ⟨hs.lsnd, by simp, by rintro a h1 b h2 rfl; rw [List.mem_singleton] at h2; subst h2; exact hy h1⟩
  · intro b hb
    rw [hm, List.mem_append, List.mem_singleton] at hb
    rcases hb with hb | rfl
    · exact hs.new b hb
    · exact ⟨s.next, hs.le, rfl⟩
  · intro b hb
    rw [hn]
    rw [hm, List.mem_append, List.mem_singleton] at hb
    rcases hb with hb | rfl
    · exact (hs.known b hb).mono (Nat.le_succ _)
    · exact known_fresh hX _
  · intro a h1
    rw [List.mem_append, List.mem_singleton] at h1
    rcases h1 with h1 | rfl
    · exact hs.notAtom a h1
    · exact ha

/-- an object is made for `x`, put into the memo, and filled at the end -/
theorem Core.box (hX : ∀ j k, X.fresh j = X.fresh k → j = k) {ms ms' : List W.Obj} {s s1 s' s'' : LoadState W} (hs : Sync X h n0 ms s) {x : W.Obj}
    {nd : Node W} (hS : S x) (hn : s1.next = s.next + 1) (hm : s1.memo = s.memo ++ [X.fresh s.next])
    (hh : ∀ o, Known X s.next o → s1.heap o = s.heap o) (hc : Core X h n0 S (ms ++ [x]) s1 ms' s') (hn' : s''.next = s'.next)
    (hm' : s''.memo = s'.memo) (hy : s''.heap (X.fresh s.next) = nd) (ho : ∀ o, o ≠ X.fresh s.next → s''.heap o = s'.heap o)
    (hr : Restored X (Img h ms' s'.memo) (h x) nd) : Core X h n0 S ms s ms' s'' := by
  obtain ⟨e, e1, e2⟩ := hc.dumped
  obtain ⟨f, f1, f2⟩ := hc.loaded
  have hs' := hc.sync
  refine ⟨⟨by rw [hm']; exact hs'.len, hs'.msnd, by rw [hm']; exact hs'.lsnd, by rw [hm']; exact hs'.new, by rw [hm', hn']; exact hs'.known,
    hs'.notAtom, by rw [hn']; exact hs'.le⟩, ?_, ?_, ⟨x :: e, by rw [e1, List.append_assoc]; rfl, ?_⟩,
    ⟨X.fresh s.next :: f, by rw [hm', f1, hm, List.append_assoc]; rfl, ?_⟩, ?_⟩
  · rw [hn']
    have := hc.le
    omega
  · intro o hk
    rw [ho o (by rintro rfl; exact hk (new_fresh _)), hc.heap o (by rw [hn]; exact hk.mono (Nat.le_succ _)), hh o hk]
  · intro a ha
    rcases List.mem_cons.1 ha with rfl | ha
    · exact hS
    · exact e2 a ha
  · intro b hb
    rcases List.mem_cons.1 hb with rfl | hb
    · exact new_fresh _
    · exact NewObj.mono (by rw [hn]; exact Nat.le_succ _) (f2 b hb)
  · intro k a b hk ha hb
    rw [hm'] at hb ⊢
    have hlen : s1.memo.length = ms.length + 1 := by rw [hm, List.length_append, hs.len]; rfl
    by_cases hk' : k = ms.length
    · subst hk'
      rw [e1, List.append_assoc, List.getElem?_append_right (Nat.le_refl _)] at ha
      simp only [Nat.sub_self, List.cons_append, List.nil_append, List.getElem?_cons_zero] at ha
      cases ha
      rw [f1, hm, List.append_assoc, List.getElem?_append_right (by rw [hs.len]; exact Nat.le_refl _), hs.len] at hb
      simp only [Nat.sub_self, List.cons_append, List.nil_append, List.getElem?_cons_zero] at hb
      cases hb
      rw [hy]
      exact hr
    · have h1 : ms.length + 1 ≤ k := by omega
      have hb' : b ∈ f := get_right (by rw [hlen]; exact h1) (by rw [← f1]; exact hb)
      rw [ho b ?_]
      · exact hc.like k a b (by rw [List.length_append]; exact h1) ha hb
      · rintro rfl
        have := f2 _ hb'
        rw [hn] at this
        exact known_fresh hX _ this

/-- an object made for `x` since then is filled again -/
theorem Core.refill {ms ms' : List W.Obj} {s s' s'' : LoadState W} (hc : Core X h n0 S ms s ms' s') {x y : W.Obj} {k : Nat}
    (hk : ms.length ≤ k) (hlen : s.memo.length = ms.length) (hx : ms'[k]? = some x) (hy : s'.memo[k]? = some y) {nd : Node W}
    (hn' : s''.next = s'.next) (hm' : s''.memo = s'.memo) (hnd : s''.heap y = nd) (ho : ∀ o, o ≠ y → s''.heap o = s'.heap o) (hr : Restored X (Img h ms' s'.memo) (h x) nd) :
    Core X h n0 S ms s ms' s'' := by
  obtain ⟨f, f1, f2⟩ := hc.loaded
  have hs' := hc.sync
  refine ⟨⟨by rw [hm']; exact hs'.len, hs'.msnd, by rw [hm']; exact hs'.lsnd, by rw [hm']; exact hs'.new, by rw [hm', hn']; exact hs'.known,
    hs'.notAtom, by rw [hn']; exact hs'.le⟩, by rw [hn']; exact hc.le, ?_, hc.dumped, ⟨f, by rw [hm', f1], f2⟩, ?_⟩
  · intro o hko
    rw [ho o ?_, hc.heap o hko]
    rintro rfl
    exact hko (f2 o (get_right (by rw [hlen]; exact hk) (by rw [← f1]; exact hy)))
  · intro k' a b hk' ha hb
    rw [hm'] at hb ⊢
    by_cases hby : b = y
    · subst hby
      have : k' = k := get_inj hs'.lsnd hb hy
      subst this
      rw [hx] at ha
      cases ha
      rw [hnd]
      exact hr
    · rw [ho b hby]
      exact hc.like k' a b hk' ha hb

/-! ### records -/

theorem zip_keys_values : ∀ {ks : List String} {ys : List W.Obj}, ks.length = ys.length → Dict.keys (ks.zip ys) = ks ∧ Dict.values (ks.zip ys) = ys
  | [], [], _ => ⟨rfl, rfl⟩
  | k :: ks, y :: ys, e => by
    obtain ⟨h1, h2⟩ := zip_keys_values (ks := ks) (ys := ys) (Nat.succ.inj e)
    exact ⟨congrArg (k :: ·) h1, congrArg (y :: ·) h2⟩

/-- what `__new__` makes of the exported fields -/
theorem renew {i : Inst W} (hi : Picklable X i) {d' : Dict W.Obj} (hk : d'.keys = (shown (X.cls i.cid) i).keys) {t t' : LState W} {r : Res W}
    (hr : newKw (construct X.env (X.cls i.cid) (parseN X.env (X.cls i.cid) X.depth)) d' t = (.ok r, t')) :
    ∃ j, r = .new j ∧ j.cid = i.cid ∧ (j.dict.map (·.1)).Perm ((X.cls i.cid).fields.map (·.1)) ∧
      j.hash = if (X.cls i.cid).frozen then some none else none := by
  have wf := hi.creatable.wf
  have hsub : ∀ k ∈ d'.map (·.1), k ∈ (X.cls i.cid).fields.map (·.1) := fun k hk' => shown_keys i k (by
    show k ∈ (shown (X.cls i.cid) i).keys
    rw [← hk]
    exact hk')
  have hnd : (d'.map (·.1)).Nodup := by
    show d'.keys.Nodup
    rw [hk]
    exact shown_keys_nodup wf i
  rw [newKw_free hi.free hsub] at hr
  obtain ⟨j, h1, h2, h3, _, _, h6⟩ := C49_keyword_construction (E := X.env) (parse := fun _ => M.throw .parseFailure) hi.creatable hnd hi.post hr
  exact ⟨j, h1, h2.trans hi.cid, h3, h6⟩

/-- it succeeds if the fields keep what they get -/
theorem renew_ok {i : Inst W} (hi : Picklable X i) (hkeep : KeepsAll X i) {d' : Dict W.Obj} (hk : d'.keys = (shown (X.cls i.cid) i).keys)
    (t : LState W) :
    ∃ r t', newKw (construct X.env (X.cls i.cid) (parseN X.env (X.cls i.cid) X.depth)) d' t = (.ok r, t') := by
  have wf := hi.creatable.wf
  have hsub : ∀ k ∈ d'.map (·.1), k ∈ (X.cls i.cid).fields.map (·.1) := fun k hk' => shown_keys i k (by
    show k ∈ (shown (X.cls i.cid) i).keys
    rw [← hk]
    exact hk')
  have hnd : (d'.map (·.1)).Nodup := by
    show d'.keys.Nodup
    rw [hk]
    exact shown_keys_nodup wf i
  rw [newKw_free hi.free hsub]
  obtain ⟨s1, h1⟩ := fillArgs_keeps (fields := (X.cls i.cid).fields) d' (by
    intro k w hkw
    obtain ⟨⟨k', f⟩, hf, e⟩ := List.mem_map.1 (hsub k (List.mem_map.2 ⟨_, hkw, rfl⟩))
    cases e
    exact ⟨f, Dict.mem_get? _ wf.nodup _ _ hf, hkeep _ f hf w⟩) t
  have hun : ∀ k f, (k, f) ∈ (X.cls i.cid).fields → k ∉ d'.map (·.1) → ∃ d, f.default = some (.value d) := by
    intro k f hf hkm
    obtain ⟨v, hv⟩ := hi.full.get (List.mem_map.2 ⟨_, hf, rfl⟩)
    by_cases hp : f.isPlainDefault v
    · obtain ⟨d, hd, _⟩ := hp
      exact ⟨d, hd⟩
    · refine absurd ?_ hkm
      show k ∈ d'.keys
      rw [hk]
      exact List.mem_map.2 ⟨_, (shown_mem wf hf hv).1 hp, rfl⟩
  have hr : ∀ k ∈ (X.cls i.cid).required, k ∈ d'.keys := by
    intro k hk
    obtain ⟨f, hf, hd⟩ := (wf.req k).1 hk
    by_cases hkm : k ∈ d'.map (·.1)
    · exact hkm
    · obtain ⟨d, hd'⟩ := hun k f (Dict.get?_eq_some_mem _ _ _ hf) hkm
      rw [hd] at hd'; cases hd'
  have hu := unsupplied_mem (E := X.env) wf (kw := d')
  obtain ⟨defs, h2, _⟩ := defaultSeq_plain (fields := (X.cls i.cid).fields) ((X.cls i.cid).unsupplied X.env d') (by
    intro k hk
    obtain ⟨ho, hn⟩ := (hu.2 k).1 hk
    obtain ⟨f, d, hf, _⟩ := (wf.opt k).1 ho
    obtain ⟨d', hd'⟩ := hun k f (Dict.get?_eq_some_mem _ _ _ hf) hn
    exact ⟨f, d', hf, hd'⟩) s1
  have hb : Build (X.cls i.cid) d' ((X.cls i.cid).unsupplied X.env d') t (.made (.new ((X.cls i.cid).fresh (d' ++ defs)))) s1 :=
    .made h1 hr h2 (hi.post _ _) .none
  exact ⟨_, _, newFields_spec (E := X.env) wf hnd none hb⟩

/-- `BUILD` with the attributes of the original -/
theorem built {C : RecClass W} {φ : W.Obj → W.Obj → Prop} {i j : Inst W} (hc : j.cid = i.cid) (hn : (i.dict.map (·.1)).Nodup)
    (hjn : (j.dict.map (·.1)).Nodup) (hsub : ∀ k ∈ j.dict.map (·.1), k ∈ i.dict.map (·.1)) {ws : List W.Obj} (hw : Along φ i.dict.values ws)
    (hh : ∀ v, i.hash = none → j.hash = v → v = if C.frozen then some none else none) :
    RecordRestored C φ i { j with
      dict := j.dict.update (i.dict.keys.zip ws)
      hash := match i.hash with | some v => some v | none => j.hash } := by
  have hl : i.dict.keys.length = ws.length := by
    rw [← along_length hw]
    show (i.dict.map _).length = (i.dict.map _).length
    rw [List.length_map, List.length_map]
  obtain ⟨z1, z2⟩ := zip_keys_values hl
  have zwf : Dict.WF (i.dict.keys.zip ws) := by unfold Dict.WF; rw [z1]; exact hn
  have hjw : Dict.WF (j.dict.update (i.dict.keys.zip ws)) := Dict.WF.update hjn _
  refine ⟨hc, hjw, fun k => ?_, fun k v w hv hw' => ?_, ?_⟩
  · show k ∈ Dict.keys _ ↔ _
    rw [Dict.mem_keys_update, z1]
    exact ⟨fun h => h.elim id (hsub k), .inl⟩
  · obtain ⟨w2, h2, hp⟩ := along_dict (d := i.dict) (d' := i.dict.keys.zip ws) z1 (by rw [z2]; exact hw) k v hv
    have h3 := Dict.mem_get? _ hjw k w hw'
    rw [Dict.get?_update _ _ zwf, Dict.mem_get? _ zwf k w2 h2] at h3
    cases h3
    exact hp
  · show (match i.hash with | some v => some v | none => j.hash) = _
    cases e : i.hash with
    | some v => rfl
    | none => exact hh _ e rfl

/-! ### the program -/

/-- loading what was stored for `x` pushes its counterpart -/
def Post (X : CopyEnv W) (h : W.Obj → Node W) (n0 : Nat) (S : W.Obj → Prop) (ms : List W.Obj) (s : LoadState W) (x : W.Obj)
    (ms' : List W.Obj) (s' : LoadState W) : Prop :=
  ∃ y, s'.stack = y :: s.stack ∧ Img h ms' s'.memo x y ∧ Core X h n0 S ms s ms' s'

/-- the same for a list of objects -/
def PostAll (X : CopyEnv W) (h : W.Obj → Node W) (n0 : Nat) (S : W.Obj → Prop) (ms : List W.Obj) (s : LoadState W) (xs : List W.Obj)
    (ms' : List W.Obj) (s' : LoadState W) : Prop :=
  ∃ ys, s'.stack = ys.reverse ++ s.stack ∧ Along (Img h ms' s'.memo) xs ys ∧ Core X h n0 S ms s ms' s'

theorem dumpAll_does {K : Prop} {f : W.Obj → DumpState W → Except Exc (List (POp W)) × DumpState W}
    (hf : ∀ x σ p σ', S x → f x σ = (.ok p, σ') → ∀ s, Sync X h n0 σ.memo s → Does K (runOps X p s) (Post X h n0 S σ.memo s x σ'.memo)) :
    ∀ {xs : List W.Obj} {σ : DumpState W} {p : List (POp W)} {σ' : DumpState W}, (∀ x ∈ xs, S x) → dumpAll f xs σ = (.ok p, σ') →
      ∀ s, Sync X h n0 σ.memo s → Does K (runOps X p s) (PostAll X h n0 S σ.memo s xs σ'.memo)
  | [], σ, p, σ', _, e, s, hs => by
    cases e
    exact .done ⟨[], rfl, trivial, .refl hs rfl rfl rfl⟩
  | x :: xs, σ, p, σ', hx, e, s, hs => by
    unfold dumpAll at e
    rcases h1 : f x σ with ⟨e1 | p1, σ1⟩
    · rw [h1] at e; cases e
    · rw [h1] at e
      rcases h2 : dumpAll f xs σ1 with ⟨e2 | p2, σ2⟩
      · simp only [h2] at e; cases e
      · simp only [h2] at e
        cases e
        refine (hf x σ p1 σ1 (hx x List.mem_cons_self) h1 s hs).bind fun s1 ⟨y, k1, i1, c1⟩ => ?_
        rcases dumpAll_does hf (fun a ha => hx a (List.mem_cons_of_mem _ ha)) h2 s1 c1.sync with ⟨s2, r2, ys, k2, i2, c2⟩ | h3
        · refine .inl ⟨s2, r2, y :: ys, ?_, ⟨c2.img i1, i2⟩, c1.trans c2⟩
          rw [k2, k1, List.reverse_cons, List.append_assoc]
          rfl
        · exact .inr h3

theorem values_length (d : Dict W.Obj) : d.keys.length = d.values.length := by
  show (d.map _).length = (d.map _).length
  rw [List.length_map, List.length_map]

theorem step_append {s : LoadState W} {n : Nat} {y : W.Obj} {ys zs base : List W.Obj} (hk : s.stack = ys.reverse ++ y :: base)
    (hn : n = ys.length) (hy : s.heap y = .list zs) :
    s.step X (.appends n) = .ok ((s.dropped n).put y (.list (zs ++ ys))) := by
  obtain ⟨h1, h2⟩ := items_eq hk hn
  unfold LoadState.step
  simp only [h2, hy, h1]

theorem step_setItems {s : LoadState W} {ks : List String} {y : W.Obj} {ys base : List W.Obj} {m : Dict W.Obj}
    (hk : s.stack = ys.reverse ++ y :: base) (hn : ks.length = ys.length) (hy : s.heap y = .dict m) :
    s.step X (.setItems ks) = .ok ((s.dropped ks.length).put y (.dict (m.update (ks.zip ys)))) := by
  obtain ⟨h1, h2⟩ := items_eq hk hn
  unfold LoadState.step
  simp only [h2, hy, h1]

theorem step_build {s : LoadState W} {ks : List String} {hash : Option (Option Int)} {y : W.Obj} {ys base : List W.Obj} {j : Inst W}
    (hk : s.stack = ys.reverse ++ y :: base) (hn : ks.length = ys.length) (hy : s.heap y = .record j) :
    s.step X (.build ks hash) = .ok ((s.dropped ks.length).put y (.record { j with
      dict := j.dict.update (ks.zip ys)
      hash := match hash with | some v => some v | none => j.hash })) := by
  obtain ⟨h1, h2⟩ := items_eq hk hn
  unfold LoadState.step
  simp only [h2, hy, h1]
  cases hash <;> rfl

theorem update_nil_left {d : Dict W.Obj} (hd : Dict.WF d) : Dict.update [] d = d := by
  have := Dict.update_of_disjoint [] d hd (by intro k _ hk; cases hk)
  simpa using this

/-- what is stored for an object can be loaded -/
theorem dump_does (hX : ∀ j k, X.fresh j = X.fresh k → j = k) {x0 : W.Obj} (hsrc : PickleSource X h n0 x0) {K : Prop}
    (hK : K → ∀ r i, Reaches h x0 r → h r = .record i → KeepsAll X i) : ∀ (n : Nat) x σ p σ', Reaches h x0 x → dump X h n x σ = (.ok p, σ') →
      ∀ s, Sync X h n0 σ.memo s → Does K (runOps X p s) (Post X h n0 (Reaches h x0) σ.memo s x σ'.memo) := by
  intro n
  induction n with
  | zero => intro x σ p σ' _ e; cases e
  | succ n ih =>
    intro x σ p σ' hx e s hs
    have hchild : ∀ c ∈ (h x).children, Reaches h x0 c := fun c hc => reaches_trans hx (.step hc (.refl _))
    unfold dump at e
    cases hfind : σ.find x with
    | some k =>
      rw [hfind] at e
      cases e
      have hk := find_some hfind
      obtain ⟨hlt, _⟩ := List.getElem?_eq_some_iff.1 hk
      have hlt' : k < s.memo.length := by rw [hs.len]; exact hlt
      have hg : s.memo[k]? = some s.memo[k] := List.getElem?_eq_getElem hlt'
      refine .step (s1 := { s with stack := s.memo[k] :: s.stack }) (by
        show (match s.memo[k]? with | none => _ | some y => _) = _
        rw [hg]) (.done ?_)
      exact ⟨s.memo[k], rfl, .inl ⟨k, hk, hg⟩, .refl hs rfl rfl rfl⟩
    | none =>
      have hnx := find_none hfind
      simp only [hfind] at e
      cases hnode : h x with
      | atom =>
        simp only [hnode] at e
        cases e
        exact .step rfl (.done ⟨x, rfl, .inr ⟨hnode, rfl⟩, .refl hs rfl rfl rfl⟩)
      | list xs =>
        simp only [hnode] at e
        rcases h1 : dumpAll (dump X h n) xs (σ.note x) with ⟨e1 | p1, σ1⟩
        · simp only [h1] at e; cases e
        simp only [h1] at e
        cases e
        let s1 : LoadState W := { s.alloc X (.list []) with memo := s.memo ++ [X.fresh s.next] }
        have hs1 : Sync X h n0 (σ.note x).memo s1 := Sync.note hX hs hnx (by rw [hnode]; exact nofun) rfl rfl
        refine .step (s1 := s.alloc X (.list [])) rfl (.step (s1 := s1) rfl ?_)
        refine (dumpAll_does ih (fun c hc => hchild c (by rw [hnode]; exact hc)) h1 s1 hs1).bind fun s2 ⟨ys, k2, i2, c2⟩ => ?_
        have hy : s2.heap (X.fresh s.next) = .list [] := (c2.heap _ (known_fresh hX _)).trans alloc_new
        refine .step (step_append (base := s.stack) k2 (along_length i2) hy) (.done ?_)
        refine ⟨X.fresh s.next, (items_eq k2 (along_length i2)).2, c2.img (.inl ⟨σ.memo.length, by
          show (σ.memo ++ [x])[σ.memo.length]? = _; simp, by
          show (s.memo ++ [X.fresh s.next])[σ.memo.length]? = _; rw [← hs.len]; simp⟩), ?_⟩
        exact Core.box hX (s1 := s1) (s' := s2) hs hx (nd := .list ([] ++ ys)) rfl rfl (fun o ho => alloc_old (s := s) ho) c2 rfl rfl put_at
          (fun o ho => put_other (s := s2.dropped xs.length) ho)
          (by rw [hnode]; exact .list i2)
      | dict m =>
        simp only [hnode] at e
        rcases h1 : dumpAll (dump X h n) m.values (σ.note x) with ⟨e1 | p1, σ1⟩
        · simp only [h1] at e; cases e
        simp only [h1] at e
        cases e
        let s1 : LoadState W := { s.alloc X (.dict []) with memo := s.memo ++ [X.fresh s.next] }
        have hs1 : Sync X h n0 (σ.note x).memo s1 := Sync.note hX hs hnx (by rw [hnode]; exact nofun) rfl rfl
        refine .step (s1 := s.alloc X (.dict [])) rfl (.step (s1 := s1) rfl ?_)
        refine (dumpAll_does ih (fun c hc => hchild c (by rw [hnode]; exact hc)) h1 s1 hs1).bind fun s2 ⟨ys, k2, i2, c2⟩ => ?_
        have hy : s2.heap (X.fresh s.next) = .dict [] := (c2.heap _ (known_fresh hX _)).trans alloc_new
        have hl : m.keys.length = ys.length := (values_length m).trans (along_length i2)
        refine .step (step_setItems (base := s.stack) k2 hl hy) (.done ?_)
        refine ⟨X.fresh s.next, (items_eq k2 hl).2, c2.img (.inl ⟨σ.memo.length, by
          show (σ.memo ++ [x])[σ.memo.length]? = _; simp, by
          show (s.memo ++ [X.fresh s.next])[σ.memo.length]? = _; rw [← hs.len]; simp⟩), ?_⟩
        obtain ⟨z1, z2⟩ := zip_keys_values hl
        refine Core.box hX (s1 := s1) (s' := s2) hs hx (nd := .dict (Dict.update [] (m.keys.zip ys))) rfl rfl (fun o ho => alloc_old (s := s) ho) c2
          rfl rfl put_at (fun o ho => put_other (s := s2.dropped m.keys.length) ho) ?_
        rw [hnode, update_nil_left (by unfold Dict.WF; rw [z1]; exact hsrc.dicts x m hx hnode)]
        exact .dict z1 (by rw [z2]; exact i2)
      | tuple xs =>
        simp only [hnode] at e
        rcases h1 : dumpAll (dump X h n) xs σ with ⟨e1 | p1, σ1⟩
        · simp only [h1] at e; cases e
        simp only [h1] at e
        have key := dumpAll_does ih (fun c hc => hchild c (by rw [hnode]; exact hc)) h1 s hs
        cases hf1 : σ1.find x with
        | some k =>
          simp only [hf1] at e
          cases e
          refine key.bind fun s2 ⟨ys, k2, i2, c2⟩ => ?_
          have hk := find_some hf1
          obtain ⟨hlt, _⟩ := List.getElem?_eq_some_iff.1 hk
          have hlt' : k < s2.memo.length := by rw [c2.sync.len]; exact hlt
          have hg : s2.memo[k]? = some s2.memo[k] := List.getElem?_eq_getElem hlt'
          refine .step (s1 := s2.dropped xs.length) rfl (.step (s1 := { s2.dropped xs.length with
            stack := s2.memo[k] :: (s2.dropped xs.length).stack }) ?_ (.done ?_))
          · show (match s2.memo[k]? with | none => _ | some y => _) = _
            rw [hg]
          · refine ⟨s2.memo[k], ?_, .inl ⟨k, hk, hg⟩, c2.trans (.refl c2.sync rfl rfl rfl)⟩
            show s2.memo[k] :: (s2.dropped xs.length).stack = _
            rw [(items_eq k2 (along_length i2)).2]
        | none =>
          simp only [hf1] at e
          cases e
          refine key.bind fun s2 ⟨ys, k2, i2, c2⟩ => ?_
          obtain ⟨hit, hdr⟩ := items_eq k2 (along_length i2)
          let s3 : LoadState W := (s2.dropped xs.length).alloc X (.tuple (s2.items xs.length))
          let s4 : LoadState W := { s3 with memo := s3.memo ++ [X.fresh s2.next] }
          refine .step (s1 := s3) rfl (.step (s1 := s4) rfl (.done ?_))
          have hs4 : Sync X h n0 (σ1.note x).memo s4 := Sync.note hX c2.sync (find_none hf1) (by rw [hnode]; exact nofun) rfl rfl
          have hcr : Core X h n0 (Reaches h x0) (σ1.note x).memo s4 (σ1.note x).memo s4 := .refl hs4 rfl rfl rfl
          refine ⟨X.fresh s2.next, ?_, .inl ⟨σ1.memo.length, by
            show (σ1.memo ++ [x])[σ1.memo.length]? = _; simp, by
            show (s2.memo ++ [X.fresh s2.next])[σ1.memo.length]? = _; rw [← c2.sync.len]; simp⟩, c2.trans ?_⟩
          · show X.fresh s2.next :: (s2.dropped xs.length).stack = _
            rw [hdr]
          · refine Core.box hX (s1 := s4) (s' := s4) c2.sync hx (nd := .tuple (s2.items xs.length)) rfl rfl ?_ hcr rfl rfl ?_ (fun _ _ => rfl) ?_
            · intro o ho; exact alloc_old (s := s2.dropped xs.length) ho
            · exact alloc_new (s := s2.dropped xs.length)
            · rw [hnode, hit]
              exact .tuple (along_mono (fun _ _ hi => Img.mono hi) i2)
      | record i =>
        have hok := hsrc.records x i hx hnode
        simp only [hnode, toDict_shown hok.creatable.wf hok.full] at e
        have hshown : ∀ c ∈ (shown (X.cls i.cid) i).values, Reaches h x0 c := by
          intro c hc
          obtain ⟨⟨k, v⟩, hkv, e1⟩ := List.mem_map.1 hc
          cases e1
          exact hchild _ (by rw [hnode]; exact List.mem_map.2 ⟨(k, v), shown_own hkv, rfl⟩)
        have hattr : ∀ c ∈ i.dict.values, Reaches h x0 c := fun c hc => hchild c (by rw [hnode]; exact hc)
        rcases h1 : dumpAll (dump X h n) (shown (X.cls i.cid) i).values { σ with st := σ.st } with ⟨e1 | p1, σ1⟩
        · simp only [h1] at e; cases e
        simp only [h1] at e
        have key := dumpAll_does ih hshown h1 s hs
        -- the instance that is made
        have make : ∀ (q : List (POp W)) (s2 : LoadState W), PostAll X h n0 (Reaches h x0) σ.memo s (shown (X.cls i.cid) i).values σ1.memo s2 →
            ∀ Q, (∀ j t, j.cid = i.cid → (j.dict.map (·.1)).Perm ((X.cls i.cid).fields.map (·.1)) →
              (j.hash = if (X.cls i.cid).frozen then some none else none) →
              ∀ s3 : LoadState W, s3 = ({ s2 with st := t, stack := s.stack } : LoadState W).alloc X (.record j) → Does K (runOps X q s3) Q) →
            Does K (runOps X (.newObj i.cid (shown (X.cls i.cid) i).keys :: q) s2) Q := by
          rintro q s2 ⟨ys, k2, i2, c2⟩ Q hq
          have hl : (shown (X.cls i.cid) i).keys.length = ys.length := (values_length _).trans (along_length i2)
          obtain ⟨hit, hdr⟩ := items_eq k2 hl
          obtain ⟨z1, z2⟩ := zip_keys_values hl
          have hstep : ∀ {r t}, newKw (construct X.env (X.cls i.cid) (parseN X.env (X.cls i.cid) X.depth))
              ((shown (X.cls i.cid) i).keys.zip ys) s2.st = (r, t) → s2.step X (.newObj i.cid (shown (X.cls i.cid) i).keys) =
                match r with
                | .error e => .error e
                | .ok (.new j) => .ok ({ s2 with st := t, stack := s.stack }.alloc X (.record j))
                | .ok (.old v) => .ok { s2 with st := t, stack := v :: s.stack } := by
            intro r t hr
            unfold LoadState.step
            simp only [hit, hr]
            have hd : ∀ t, ({ s2.dropped (shown (X.cls i.cid) i).keys.length with st := t } : LoadState W) =
                { s2 with st := t, stack := s.stack } := by
              intro t
              rw [← hdr]
              rfl
            rcases r with e | ⟨v | j⟩
            · rfl
            · show Except.ok _ = Except.ok _
              rw [hdr]
              rfl
            · show Except.ok (LoadState.alloc _ _ _) = Except.ok (LoadState.alloc _ _ _)
              rw [hd]
          rcases hr : newKw (construct X.env (X.cls i.cid) (parseN X.env (X.cls i.cid) X.depth)) ((shown (X.cls i.cid) i).keys.zip ys) s2.st
            with ⟨e | r, t⟩
          · refine .fail (hstep hr) fun hk => ?_
            obtain ⟨r, t', hr'⟩ := renew_ok hok (hK hk x i hx hnode) z1 s2.st
            rw [hr] at hr'
            cases hr'
          · obtain ⟨j, rfl, j1, j2, j3⟩ := renew hok z1 hr
            exact .step (hstep hr) (hq j t j1 j2 j3 _ rfl)
        have hsub : ∀ {j : Inst W}, (j.dict.map (·.1)).Perm ((X.cls i.cid).fields.map (·.1)) → ∀ k ∈ j.dict.map (·.1), k ∈ i.dict.map (·.1) :=
          fun hp k hk => hok.full k (hp.mem_iff.1 hk)
        cases hf1 : σ1.find x with
        | some k =>
          simp only [hf1] at e
          rcases h3 : dumpAll (dump X h n) i.dict.values σ1 with ⟨e3 | p3, σ3⟩
          · simp only [h3] at e; cases e
          simp only [h3] at e
          cases e
          refine key.bind fun s2 hpost => make _ s2 hpost _ ?_
          obtain ⟨ys, k2, i2, c2⟩ := hpost
          rintro j t j1 j2 j3 s3 rfl
          have hk := find_some hf1
          obtain ⟨hlt, _⟩ := List.getElem?_eq_some_iff.1 hk
          have hlt' : k < s2.memo.length := by rw [c2.sync.len]; exact hlt
          have hg : s2.memo[k]? = some s2.memo[k] := List.getElem?_eq_getElem hlt'
          have hkl : σ.memo.length ≤ k := by
            refine Nat.le_of_not_lt fun hlt2 => hnx ?_
            obtain ⟨e, m1, _⟩ := c2.dumped
            have hk' := hk
            rw [m1, List.getElem?_append_left hlt2] at hk'
            exact List.mem_of_getElem? hk'
          let s3 : LoadState W := ({ s2 with st := t, stack := s.stack } : LoadState W).alloc X (.record j)
          let s4 : LoadState W := { s3 with stack := s2.memo[k] :: s.stack }
          refine .step (s1 := s3.dropped 1) rfl (.step (s1 := s4) ?_ ?_)
          · show (match s2.memo[k]? with | none => _ | some y => _) = _
            rw [hg]
            rfl
          have c4 : Core X h n0 (Reaches h x0) σ.memo s σ1.memo s4 :=
            c2.trans (.garbage c2.sync rfl rfl fun o ho => alloc_old (s := { s2 with st := t, stack := s.stack }) ho)
          refine (dumpAll_does ih hattr h3 s4 c4.sync).bind fun s5 ⟨ws, k5, i5, c5⟩ => ?_
          have hk5 : σ'.memo[k]? = some x := by obtain ⟨e, m1, _⟩ := c5.dumped; rw [m1]; exact get_append hk
          have hg5 : s5.memo[k]? = some s2.memo[k] := by obtain ⟨e, m1, _⟩ := c5.loaded; rw [m1]; exact get_append hg
          have c45 := c4.trans c5
          have hlike := c45.like k x _ hkl hk5 hg5
          rw [hnode] at hlike
          have hrec : ∃ j', s5.heap s2.memo[k] = .record j' ∧ RecordRestored (X.cls i.cid) (Img h σ'.memo s5.memo) i j' := by
            generalize s5.heap s2.memo[k] = nd at hlike
            cases hlike with
            | record hr => exact ⟨_, rfl, hr⟩
          obtain ⟨j', hj', hr'⟩ := hrec
          have hl : i.dict.keys.length = ws.length := (values_length _).trans (along_length i5)
          refine .step (step_build (base := s.stack) k5 hl hj') (.done ?_)
          refine ⟨s2.memo[k], (items_eq k5 hl).2, .inl ⟨k, hk5, hg5⟩, ?_⟩
          refine Core.refill c45 hkl hs.len hk5 hg5 rfl rfl put_at (fun o ho => put_other (s := s5.dropped i.dict.keys.length) ho) ?_
          rw [hnode]
          refine .record (built hr'.cls hok.nodup hr'.nodup (fun k hk => (hr'.keys k).1 hk) i5 ?_)
          intro v hv hv'
          have := hr'.hash
          rw [hv] at this
          rw [← hv', this]
        | none =>
          simp only [hf1] at e
          rcases h3 : dumpAll (dump X h n) i.dict.values (σ1.note x) with ⟨e3 | p3, σ3⟩
          · simp only [h3] at e; cases e
          simp only [h3] at e
          cases e
          refine key.bind fun s2 hpost => make _ s2 hpost _ ?_
          obtain ⟨ys, k2, i2, c2⟩ := hpost
          rintro j t j1 j2 j3 s3 rfl
          let s3 : LoadState W := ({ s2 with st := t, stack := s.stack } : LoadState W).alloc X (.record j)
          let s4 : LoadState W := { s3 with memo := s2.memo ++ [X.fresh s2.next] }
          have hs4 : Sync X h n0 (σ1.note x).memo s4 := Sync.note hX c2.sync (find_none hf1) (by rw [hnode]; exact nofun) rfl rfl
          refine .step (s1 := s4) rfl ?_
          refine (dumpAll_does ih hattr h3 s4 hs4).bind fun s5 ⟨ws, k5, i5, c5⟩ => ?_
          have hy : s5.heap (X.fresh s2.next) = .record j :=
            (c5.heap _ (known_fresh hX _)).trans (alloc_new (s := { s2 with st := t, stack := s.stack }))
          have hl : i.dict.keys.length = ws.length := (values_length _).trans (along_length i5)
          refine .step (step_build (base := s.stack) k5 hl hy) (.done ?_)
          refine ⟨X.fresh s2.next, (items_eq k5 hl).2, c5.img (.inl ⟨σ1.memo.length, by
            show (σ1.memo ++ [x])[σ1.memo.length]? = _; simp, by
            show (s2.memo ++ [X.fresh s2.next])[σ1.memo.length]? = _; rw [← c2.sync.len]; simp⟩), c2.trans ?_⟩
          refine Core.box hX (s1 := s4) c2.sync hx rfl rfl (fun o ho => alloc_old (s := { s2 with st := t, stack := s.stack }) ho) c5
            rfl rfl put_at (fun o ho => put_other (s := s5.dropped i.dict.keys.length) ho) ?_
          rw [hnode]
          exact .record (built j1 hok.nodup (j2.nodup_iff.2 hok.creatable.wf.nodup) (hsub j2) i5 fun v _ hv => by rw [← hv, j3])

/-! ### storing -/

/-- what holds after `x` has been stored -/
structure DumpPost (X : CopyEnv W) (h : W.Obj → Node W) (ms : List W.Obj) (xs : List W.Obj) (ms' : List W.Obj) : Prop where
  grow : ∃ e, ms' = ms ++ e
  stored : ∀ x ∈ xs, x ∈ ms' ∨ h x = .atom
  closed : ∀ a ∈ ms', a ∉ ms → ∀ c ∈ (h a).children, c ∈ ms' ∨ h c = .atom
  clean : ∀ S, Knotted X h S → (∀ a ∈ ms, ¬ S a) → ∀ a ∈ ms', ¬ S a

theorem DumpPost.mem {ms xs ms' : List W.Obj} (hp : DumpPost X h ms xs ms') {a : W.Obj} (ha : a ∈ ms) : a ∈ ms' := by
  obtain ⟨e, rfl⟩ := hp.grow
  exact List.mem_append_left _ ha

theorem dumpAll_post {P : W.Obj → Prop} {f : W.Obj → DumpState W → Except Exc (List (POp W)) × DumpState W}
    (hf : ∀ x σ p σ', P x → f x σ = (.ok p, σ') → DumpPost X h σ.memo [x] σ'.memo) :
    ∀ {xs : List W.Obj} {σ : DumpState W} {p : List (POp W)} {σ' : DumpState W}, (∀ x ∈ xs, P x) → dumpAll f xs σ = (.ok p, σ') →
      DumpPost X h σ.memo xs σ'.memo
  | [], σ, p, σ', _, e => by
    cases e
    exact ⟨⟨[], by simp⟩, nofun, fun a h1 h2 => absurd h1 h2, fun _ _ h => h⟩
  | x :: xs, σ, p, σ', hx, e => by
    unfold dumpAll at e
    rcases h1 : f x σ with ⟨e1 | p1, σ1⟩
    · rw [h1] at e; cases e
    · rw [h1] at e
      rcases h2 : dumpAll f xs σ1 with ⟨e2 | p2, σ2⟩
      · simp only [h2] at e; cases e
      · simp only [h2] at e
        cases e
        have d1 := hf x σ p1 σ1 (hx x List.mem_cons_self) h1
        have d2 := dumpAll_post hf (fun a ha => hx a (List.mem_cons_of_mem _ ha)) h2
        refine ⟨?_, ?_, ?_, fun S hS h0 => d2.clean S hS (d1.clean S hS h0)⟩
        · obtain ⟨f1, g1⟩ := d1.grow
          obtain ⟨f2, g2⟩ := d2.grow
          exact ⟨f1 ++ f2, by rw [g2, g1, List.append_assoc]⟩
        · intro a ha
          rcases List.mem_cons.1 ha with rfl | ha
          · exact (d1.stored a List.mem_cons_self).imp d2.mem id
          · exact d2.stored a ha
        · intro a ha hna c hc
          by_cases h3 : a ∈ σ1.memo
          · exact (d1.closed a h3 hna c hc).imp d2.mem id
          · exact d2.closed a ha h3 c hc

/-- an object is put into the memo before or after what it contains is stored -/
theorem DumpPost.note {ms ms1 ms' xs ys : List W.Obj} {x : W.Obj} (hp : DumpPost X h ms xs ms1) (hq : DumpPost X h (ms1 ++ [x]) ys ms')
    (hc : ∀ c ∈ (h x).children, c ∈ xs ∨ c ∈ ys)
    (hk : ∀ S, Knotted X h S → S x → ∃ c ∈ xs, S c) : DumpPost X h ms [x] ms' := by
  have hm1 : ∀ a ∈ ms1, a ∈ ms' := fun a ha => hq.mem (List.mem_append_left _ ha)
  refine ⟨?_, ?_, ?_, ?_⟩
  · obtain ⟨e1, g1⟩ := hp.grow
    obtain ⟨e2, g2⟩ := hq.grow
    exact ⟨e1 ++ ([x] ++ e2), by rw [g2, g1]; simp only [List.append_assoc]⟩
  · intro a ha
    rw [List.mem_singleton] at ha
    subst ha
    exact .inl (hq.mem (by simp))
  · intro a ha hna c hcc
    by_cases h3 : a ∈ ms1
    · exact (hp.closed a h3 hna c hcc).imp (hm1 c) id
    · by_cases h4 : a = x
      · subst h4
        rcases hc c hcc with h5 | h5
        · exact (hp.stored c h5).imp (hm1 c) id
        · exact hq.stored c h5
      · exact hq.closed a ha (by rw [List.mem_append, List.mem_singleton]; exact fun h => h.elim h3 h4) c hcc
  · intro S hS h0
    refine hq.clean S hS fun a ha hSa => ?_
    rw [List.mem_append, List.mem_singleton] at ha
    rcases ha with ha | rfl
    · exact hp.clean S hS h0 a ha hSa
    · obtain ⟨c, hcx, hSc⟩ := hk S hS hSa
      rcases hp.stored c hcx with h5 | h5
      · exact hp.clean S hS h0 c h5 hSc
      · obtain ⟨_, _, ⟨_, e, _⟩ | ⟨_, e, _⟩⟩ := hS c hSc <;> rw [h5] at e <;> cases e

theorem DumpPost.nil (ms : List W.Obj) : DumpPost X h ms [] ms :=
  ⟨⟨[], by simp⟩, nofun, fun _ h1 h2 => absurd h1 h2, fun _ _ h => h⟩

theorem dump_post {x0 : W.Obj} (hsrc : PickleSource X h n0 x0) : ∀ (n : Nat) x σ p σ', Reaches h x0 x → dump X h n x σ = (.ok p, σ') →
    DumpPost X h σ.memo [x] σ'.memo := by
  intro n
  induction n with
  | zero => intro x σ p σ' _ e; cases e
  | succ n ih =>
    intro x σ p σ' hx e
    have hchild : ∀ c ∈ (h x).children, Reaches h x0 c := fun c hc => reaches_trans hx (.step hc (.refl _))
    unfold dump at e
    cases hfind : σ.find x with
    | some k =>
      rw [hfind] at e
      cases e
      exact ⟨⟨[], by simp⟩, fun a ha => .inl (by rw [List.mem_singleton] at ha; subst ha; exact List.mem_of_getElem? (find_some hfind)),
        fun _ h1 h2 => absurd h1 h2, fun _ _ h => h⟩
    | none =>
      have hnx := find_none hfind
      simp only [hfind] at e
      cases hnode : h x with
      | atom =>
        simp only [hnode] at e
        cases e
        exact ⟨⟨[], by simp⟩, fun a ha => .inr (by rw [List.mem_singleton] at ha; subst ha; exact hnode),
          fun _ h1 h2 => absurd h1 h2, fun _ _ h => h⟩
      | list xs =>
        simp only [hnode] at e
        rcases h1 : dumpAll (dump X h n) xs (σ.note x) with ⟨e1 | p1, σ1⟩
        · simp only [h1] at e; cases e
        simp only [h1] at e
        cases e
        have d := dumpAll_post ih (fun c hc => hchild c (by rw [hnode]; exact hc)) h1
        refine (DumpPost.nil σ.memo).note d (fun c hc => .inr (by rw [hnode] at hc; exact hc)) fun S hS hSx => ?_
        obtain ⟨_, _, ⟨_, e, _⟩ | ⟨_, e, _⟩⟩ := hS x hSx <;> rw [hnode] at e <;> cases e
      | dict m =>
        simp only [hnode] at e
        rcases h1 : dumpAll (dump X h n) m.values (σ.note x) with ⟨e1 | p1, σ1⟩
        · simp only [h1] at e; cases e
        simp only [h1] at e
        cases e
        have d := dumpAll_post ih (fun c hc => hchild c (by rw [hnode]; exact hc)) h1
        refine (DumpPost.nil σ.memo).note d (fun c hc => .inr (by rw [hnode] at hc; exact hc)) fun S hS hSx => ?_
        obtain ⟨_, _, ⟨_, e, _⟩ | ⟨_, e, _⟩⟩ := hS x hSx <;> rw [hnode] at e <;> cases e
      | tuple xs =>
        simp only [hnode] at e
        rcases h1 : dumpAll (dump X h n) xs σ with ⟨e1 | p1, σ1⟩
        · simp only [h1] at e; cases e
        simp only [h1] at e
        have d := dumpAll_post ih (fun c hc => hchild c (by rw [hnode]; exact hc)) h1
        cases hf1 : σ1.find x with
        | some k =>
          simp only [hf1] at e
          cases e
          exact ⟨d.grow, fun a ha => .inl (by rw [List.mem_singleton] at ha; subst ha; exact List.mem_of_getElem? (find_some hf1)),
            d.closed, d.clean⟩
        | none =>
          simp only [hf1] at e
          cases e
          refine d.note (.nil _) (fun c hc => .inl (by rw [hnode] at hc; exact hc)) fun S hS hSx => ?_
          obtain ⟨c, hc, ⟨_, e, h2⟩ | ⟨_, e, _⟩⟩ := hS x hSx <;> rw [hnode] at e <;> cases e
          exact ⟨c, h2, hc⟩
      | record i =>
        have hok := hsrc.records x i hx hnode
        simp only [hnode, toDict_shown hok.creatable.wf hok.full] at e
        have hshown : ∀ c ∈ (shown (X.cls i.cid) i).values, Reaches h x0 c := by
          intro c hc
          obtain ⟨⟨k, v⟩, hkv, e1⟩ := List.mem_map.1 hc
          cases e1
          exact hchild _ (by rw [hnode]; exact List.mem_map.2 ⟨(k, v), shown_own hkv, rfl⟩)
        have hattr : ∀ c ∈ i.dict.values, Reaches h x0 c := fun c hc => hchild c (by rw [hnode]; exact hc)
        rcases h1 : dumpAll (dump X h n) (shown (X.cls i.cid) i).values { σ with st := σ.st } with ⟨e1 | p1, σ1⟩
        · simp only [h1] at e; cases e
        simp only [h1] at e
        have d := dumpAll_post ih hshown h1
        cases hf1 : σ1.find x with
        | some k =>
          simp only [hf1] at e
          rcases h3 : dumpAll (dump X h n) i.dict.values σ1 with ⟨e3 | p3, σ3⟩
          · simp only [h3] at e; cases e
          simp only [h3] at e
          cases e
          have d' := dumpAll_post ih hattr h3
          refine ⟨?_, ?_, ?_, fun S hS h0 => d'.clean S hS (d.clean S hS h0)⟩
          · obtain ⟨e1, g1⟩ := d.grow
            obtain ⟨e2, g2⟩ := d'.grow
            exact ⟨e1 ++ e2, by rw [g2, g1, List.append_assoc]⟩
          · intro a ha
            rw [List.mem_singleton] at ha
            subst ha
            exact .inl (d'.mem (List.mem_of_getElem? (find_some hf1)))
          · intro a ha hna c hc
            by_cases h3 : a ∈ σ1.memo
            · exact (d.closed a h3 hna c hc).imp d'.mem id
            · exact d'.closed a ha h3 c hc
        | none =>
          simp only [hf1] at e
          rcases h3 : dumpAll (dump X h n) i.dict.values (σ1.note x) with ⟨e3 | p3, σ3⟩
          · simp only [h3] at e; cases e
          simp only [h3] at e
          cases e
          have d' := dumpAll_post ih hattr h3
          refine d.note d' (fun c hc => .inr (by rw [hnode] at hc; exact hc)) fun S hS hSx => ?_
          obtain ⟨c, hc, ⟨_, e, _⟩ | ⟨_, e, h2⟩⟩ := hS x hSx <;> rw [hnode] at e <;> cases e
          exact ⟨c, h2, hc⟩

/-! ### recursion -/

theorem dumpAll_error {P : W.Obj → Prop} {f : W.Obj → DumpState W → Except Exc (List (POp W)) × DumpState W}
    (hf : ∀ x σ p σ', P x → f x σ = (.ok p, σ') → DumpPost X h σ.memo [x] σ'.memo) :
    ∀ {xs : List W.Obj} {σ : DumpState W} {e : Exc} {σ' : DumpState W}, (∀ x ∈ xs, P x) → dumpAll f xs σ = (.error e, σ') →
      ∃ x ∈ xs, ∃ σ1 σ2, (∀ a ∈ σ.memo, a ∈ σ1.memo) ∧ f x σ1 = (.error e, σ2)
  | [], _, _, _, _, e => by cases e
  | x :: xs, σ, ex, σ', hx, e => by
    unfold dumpAll at e
    rcases h1 : f x σ with ⟨e1 | p1, σ1⟩
    · rw [h1] at e
      cases e
      exact ⟨x, List.mem_cons_self, σ, _, fun _ h => h, h1⟩
    · rw [h1] at e
      rcases h2 : dumpAll f xs σ1 with ⟨e2 | p2, σ2⟩
      · simp only [h2] at e
        cases e
        obtain ⟨c, hc, σ3, σ4, h3, h4⟩ := dumpAll_error hf (fun a ha => hx a (List.mem_cons_of_mem _ ha)) h2
        have d1 := hf x σ p1 σ1 (hx x List.mem_cons_self) h1
        exact ⟨c, List.mem_cons_of_mem _ hc, σ3, σ4, fun a ha => h3 a (d1.mem ha), h4⟩
      · simp only [h2] at e; cases e

/-- the number of containers that are not yet in the memo -/
def left (boxes ms : List W.Obj) : Nat := (boxes.filter fun a => decide (a ∉ ms)).length

theorem left_mono {boxes ms ms' : List W.Obj} (h : ∀ a ∈ ms, a ∈ ms') : left boxes ms' ≤ left boxes ms := by
  unfold left
  rw [← List.countP_eq_length_filter, ← List.countP_eq_length_filter]
  refine List.countP_mono_left fun a _ ha => ?_
  rw [decide_eq_true_eq] at ha ⊢
  exact fun h1 => ha (h a h1)

theorem left_note {boxes ms : List W.Obj} {x : W.Obj} (hx : x ∈ boxes) (hn : x ∉ ms) : left boxes (ms ++ [x]) + 1 ≤ left boxes ms := by
  induction boxes with
  | nil => cases hx
  | cons b bs ih =>
    have hm : left bs (ms ++ [x]) ≤ left bs ms := left_mono fun a ha => List.mem_append_left _ ha
    have c1 : ∀ ms, left (b :: bs) ms = left bs ms + if b ∈ ms then 0 else 1 := by
      intro ms
      unfold left
      rw [List.filter_cons]
      by_cases hb : b ∈ ms
      · simp [hb]
      · simp [hb]
    rw [c1, c1]
    by_cases hb : b = x
    · subst hb
      rw [if_pos (by simp), if_neg hn]
      omega
    · have : x ∈ bs := (List.mem_cons.1 hx).resolve_left fun e => hb e.symm
      have h2 := ih this
      have h3 : (b ∈ ms ++ [x]) ↔ b ∈ ms := by
        rw [List.mem_append, List.mem_singleton]
        exact ⟨fun h => h.resolve_right hb, .inl⟩
      by_cases hb' : b ∈ ms
      · rw [if_pos (h3.2 hb'), if_pos hb']; omega
      · rw [if_neg (fun h => hb' (h3.1 h)), if_neg hb']; omega

/-- storing fails only for lack of recursion depth -/
theorem dump_error {x0 : W.Obj} (hsrc : PickleSource X h n0 x0) : ∀ (n : Nat) x σ e σ', Reaches h x0 x → dump X h n x σ = (.error e, σ') →
    e = .recursionError ∧ ∀ boxes R r, (∀ a, Reaches h x0 a → ListOrDict h a → a ∈ boxes) →
      (∀ a k b, Reaches h x0 a → RefChain h k a b → k ≤ R) → (∀ k b, RefChain h k x b → k ≤ r) → n ≤ r + (R + 1) * left boxes σ.memo := by
  intro n
  induction n with
  | zero => intro x σ p σ' _ e; cases e; exact ⟨rfl, fun _ _ _ _ _ _ => Nat.zero_le _⟩
  | succ n ih =>
    intro x σ ex σ' hx e
    have hpost := fun x σ p σ' => dump_post hsrc n x σ p σ'
    have hchild : ∀ c ∈ (h x).children, Reaches h x0 c := fun c hc => reaches_trans hx (.step hc (.refl _))
    -- an element of a container
    have inBox : ∀ {c σ1 σ2}, ListOrDict h x → x ∉ σ.memo → Reaches h x0 c → (∀ a ∈ σ.memo ++ [x], a ∈ σ1.memo) →
        dump X h n c σ1 = (.error ex, σ2) → ex = .recursionError ∧ ∀ boxes R r, (∀ a, Reaches h x0 a → ListOrDict h a → a ∈ boxes) →
          (∀ a k b, Reaches h x0 a → RefChain h k a b → k ≤ R) → (∀ k b, RefChain h k x b → k ≤ r) → n + 1 ≤ r + (R + 1) * left boxes σ.memo := by
      intro c σ1 σ2 hbox hnx hc hm h2
      obtain ⟨e1, h3⟩ := ih c σ1 ex σ2 hc h2
      refine ⟨e1, fun boxes R r hb hR _ => ?_⟩
      have h4 := h3 boxes R R hb hR (fun k b => hR c k b hc)
      have h5 : left boxes σ1.memo ≤ left boxes (σ.memo ++ [x]) := left_mono hm
      have h6 := left_note (hb x hx hbox) hnx
      have h7 : (R + 1) * (left boxes σ1.memo + 1) ≤ (R + 1) * left boxes σ.memo := Nat.mul_le_mul_left _ (by omega)
      rw [Nat.mul_succ] at h7
      omega
    -- an element of a tuple or record
    have inRec : ∀ {c σ1 σ2}, (∀ k b, RefChain h k c b → RefChain h (k + 1) x b) → Reaches h x0 c → (∀ a ∈ σ.memo, a ∈ σ1.memo) →
        dump X h n c σ1 = (.error ex, σ2) → ex = .recursionError ∧ ∀ boxes R r, (∀ a, Reaches h x0 a → ListOrDict h a → a ∈ boxes) →
          (∀ a k b, Reaches h x0 a → RefChain h k a b → k ≤ R) → (∀ k b, RefChain h k x b → k ≤ r) → n + 1 ≤ r + (R + 1) * left boxes σ.memo := by
      intro c σ1 σ2 hch hc hm h2
      obtain ⟨e1, h3⟩ := ih c σ1 ex σ2 hc h2
      refine ⟨e1, fun boxes R r hb hR hr => ?_⟩
      have h0 : 1 ≤ r := hr 1 c (hch 0 c (.zero c))
      have h4 := h3 boxes R (r - 1) hb hR (fun k b hk => by have := hr (k + 1) b (hch k b hk); omega)
      have h5 : left boxes σ1.memo ≤ left boxes σ.memo := left_mono hm
      have h7 : (R + 1) * left boxes σ1.memo ≤ (R + 1) * left boxes σ.memo := Nat.mul_le_mul_left _ h5
      omega
    unfold dump at e
    cases hfind : σ.find x with
    | some k => rw [hfind] at e; cases e
    | none =>
      have hnx := find_none hfind
      simp only [hfind] at e
      cases hnode : h x with
      | atom => simp only [hnode] at e; cases e
      | list xs =>
        simp only [hnode] at e
        have hch : ∀ c ∈ xs, Reaches h x0 c := fun c hc => hchild c (by rw [hnode]; exact hc)
        rcases h1 : dumpAll (dump X h n) xs (σ.note x) with ⟨e1 | p1, σ1⟩
        · simp only [h1] at e
          cases e
          obtain ⟨c, hc, σ2, σ3, h2, h3⟩ := dumpAll_error hpost hch h1
          exact inBox (.inl ⟨xs, hnode⟩) hnx (hch c hc) h2 h3
        · simp only [h1] at e; cases e
      | dict m =>
        simp only [hnode] at e
        have hch : ∀ c ∈ m.values, Reaches h x0 c := fun c hc => hchild c (by rw [hnode]; exact hc)
        rcases h1 : dumpAll (dump X h n) m.values (σ.note x) with ⟨e1 | p1, σ1⟩
        · simp only [h1] at e
          cases e
          obtain ⟨c, hc, σ2, σ3, h2, h3⟩ := dumpAll_error hpost hch h1
          exact inBox (.inr ⟨m, hnode⟩) hnx (hch c hc) h2 h3
        · simp only [h1] at e; cases e
      | tuple xs =>
        simp only [hnode] at e
        have hch : ∀ c ∈ xs, Reaches h x0 c := fun c hc => hchild c (by rw [hnode]; exact hc)
        rcases h1 : dumpAll (dump X h n) xs σ with ⟨e1 | p1, σ1⟩
        · simp only [h1] at e
          cases e
          obtain ⟨c, hc, σ2, σ3, h2, h3⟩ := dumpAll_error hpost hch h1
          exact inRec (fun k b hk => .tuple hnode hc hk) (hch c hc) h2 h3
        · simp only [h1] at e
          cases hf1 : σ1.find x <;> simp only [hf1] at e <;> cases e
      | record i =>
        have hok := hsrc.records x i hx hnode
        simp only [hnode, toDict_shown hok.creatable.wf hok.full] at e
        have hown : ∀ c ∈ (shown (X.cls i.cid) i).values, c ∈ i.dict.values := by
          intro c hc
          obtain ⟨⟨k, v⟩, hkv, e1⟩ := List.mem_map.1 hc
          cases e1
          exact List.mem_map.2 ⟨(k, v), shown_own hkv, rfl⟩
        have hattr : ∀ c ∈ i.dict.values, Reaches h x0 c := fun c hc => hchild c (by rw [hnode]; exact hc)
        rcases h1 : dumpAll (dump X h n) (shown (X.cls i.cid) i).values { σ with st := σ.st } with ⟨e1 | p1, σ1⟩
        · simp only [h1] at e
          cases e
          obtain ⟨c, hc, σ2, σ3, h2, h3⟩ := dumpAll_error hpost (fun c hc => hattr c (hown c hc)) h1
          exact inRec (fun k b hk => .record hnode (hown c hc) hk) (hattr c (hown c hc)) h2 h3
        simp only [h1] at e
        have d := dumpAll_post hpost (fun c hc => hattr c (hown c hc)) h1
        cases hf1 : σ1.find x with
        | some k =>
          simp only [hf1] at e
          rcases h3 : dumpAll (dump X h n) i.dict.values σ1 with ⟨e3 | p3, σ3⟩
          · simp only [h3] at e
            cases e
            obtain ⟨c, hc, σ4, σ5, h4, h5⟩ := dumpAll_error hpost hattr h3
            exact inRec (fun k b hk => .record hnode hc hk) (hattr c hc) (fun a ha => h4 a (d.mem ha)) h5
          · simp only [h3] at e; cases e
        | none =>
          simp only [hf1] at e
          rcases h3 : dumpAll (dump X h n) i.dict.values (σ1.note x) with ⟨e3 | p3, σ3⟩
          · simp only [h3] at e
            cases e
            obtain ⟨c, hc, σ4, σ5, h4, h5⟩ := dumpAll_error hpost hattr h3
            exact inRec (fun k b hk => .record hnode hc hk) (hattr c hc) (fun a ha => h4 a (List.mem_append_left _ (d.mem ha))) h5
          · simp only [h3] at e; cases e

end Pickling
end Records
