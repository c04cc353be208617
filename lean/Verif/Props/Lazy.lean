import Verif.Proofs.Lazy
import Verif.Props.Container
/-
C118: the iterator that a container class gets when elements changed.
-/
set_option linter.unusedSimpArgs false
namespace Records
variable {W : World}

/-- C118: exact behaviour for any constructor, sliceable or not.  If all elements come out identical the container is kept, and if
one fails before any changed its exception is raised.  At the first element that changes, the class is called with an iterator over the elements
before it (the same objects, not filled again), the changed one, and the rest, each filled when the constructor asks for it. -/
theorem C118_serves (ctor : W.Obj → Ctor W) (sl : W.Obj → Bool) (f : W.Obj → M W W.Obj) (x : W.Obj) (s : LState W) :
    (∀ s', FillSeq ((W.elems x).map fun o => (o, f)) s (W.elems x) s' → lazyValidator ctor sl f x s = (.ok x, s')) ∧
    (∀ ws er s', FillSeqFails ((W.elems x).map fun o => (o, f)) s ws er s' → ws <+: W.elems x →
      lazyValidator ctor sl f x s = (.error er, s')) ∧
    (∀ pre e post s1 w s2, W.elems x = pre ++ e :: post → FillSeq (pre.map fun o => (o, f)) s pre s1 → f e s1 = (.ok w, s2) → w ≠ e →
      lazyValidator ctor sl f x s =
        serveAll (ctor x) (pre.map M.pure ++ M.pure w :: post.map fun o => M.generator (f o)) s2) := by
  have hfst : ∀ l : List W.Obj, ((l.map fun o => (o, f)).map Prod.fst) = l := fun l => by
    rw [List.map_map]; exact (List.map_congr_left (fun _ _ => rfl)).trans (List.map_id _)
  refine ⟨fun s' h => lazyLoop_same h (hfst _).symm 0, fun ws er s' h hp => lazyLoop_fails h (by rw [hfst]; exact hp) 0, ?_⟩
  intro pre e post s1 w s2 hx hs hf hne
  have := lazyLoop_changes (k := ctor x) (sl := sl x) (v := x) [] (post := post.map fun o => (o, f)) hs (hfst pre).symm hf hne
  simp only [List.nil_append, List.length_nil] at this
  rw [lazyValidator, hx, List.map_append, List.map_cons, this, List.map_map, List.map_map]
  rfl

/-- the same for the positions of a fixed-length tuple -/
theorem C118_tuple (ctor : W.Obj → Ctor W) (fs : List (W.Obj → M W W.Obj)) (x : W.Obj) (s : LState W) (pre post : List (Slot W)) (e : W.Obj)
    (f : W.Obj → M W W.Obj) (hx : (W.elems x).zip fs = pre ++ (e, f) :: post) (s1 : LState W) (hs : FillSeq pre s (pre.map Prod.fst) s1)
    (w : W.Obj) (s2 : LState W) (hf : f e s1 = (.ok w, s2)) (hne : w ≠ e) :
    lazyTuple ctor fs x s =
      serveAll (ctor x) (pre.map (fun p => M.pure p.1) ++ M.pure w :: post.map fun p => M.generator (p.2 p.1)) s2 := by
  have := lazyLoop_changes (k := ctor x) (sl := true) (v := x) [] (post := post) hs rfl hf hne
  simp only [List.nil_append, List.length_nil] at this
  rw [lazyTuple, hx, this]
  rfl

/-- C118: it does not matter whether the container can be sliced. -/
theorem C118_slicing (ctor : W.Obj → Ctor W) (sl sl' : W.Obj → Bool) (f : W.Obj → M W W.Obj) (x : W.Obj) (s : LState W) :
    lazyValidator ctor sl f x s = lazyValidator ctor sl' f x s := by
  have hfst : ∀ l : List W.Obj, ((l.map fun o => (o, f)).map Prod.fst) = l := fun l => by
    rw [List.map_map]; exact (List.map_congr_left (fun _ _ => rfl)).trans (List.map_id _)
  have key : ∀ (es : List (Slot W)) (done : List (Slot W)) (b b' : Bool),
      lazyLoop (ctor x) b x (done ++ es) es done.length = lazyLoop (ctor x) b' x (done ++ es) es done.length := by
    intro es
    induction es with
    | nil => intros; rfl
    | cons p es ih =>
      intro done b b'
      obtain ⟨e, g⟩ := p
      simp only [lazyLoop]
      congr 1; funext w
      by_cases hw : w = e
      · simp only [if_pos hw]
        have := ih (done ++ [(e, g)]) b b'
        simpa using this
      · simp only [if_neg hw]
        rw [Ctor.call_serve _ (by rw [splitAt_todo]; simp), Ctor.call_serve _ (by rw [splitAt_todo]; simp), splitAt_todo, splitAt_todo]
  have := key ((W.elems x).map fun o => (o, f)) [] (sl x) (sl' x)
  exact congrFun this s

/-- the constructor calls of `type(x)` as the rest of the model has them: all elements first, or no iteration at all -/
def plainCtor (dq : Bool) (x : W.Obj) : Ctor W :=
  if W.drains (W.typeOf x) then
    Ctor.collect fun l => if dq then W.mkDeque (W.typeOf x) l (W.maxlen x) else W.mkIter (W.typeOf x) l
  else Ctor.ignore (if dq then W.mkDeque (W.typeOf x) [] (W.maxlen x) else W.mkIter (W.typeOf x) [])

/-- C118: for constructors that take all their elements before doing anything else, and for those that do not iterate, the field behaves as in
C34 and C41. -/
theorem C118_plain {d : Style} {pre : List (Option Int × Tok W)} {h he : Hint W} {c : W.Cls} {dq tu : Bool}
    {args : List (Tok W)} {f : F W} (hw : ElementWise h c he dq tu) (hf : makeFiller d pre (.annotated h args) = .ok f) (sl : W.Obj → Bool) :
    ∃ a e, Ann.make d (classKind c) (ownTokens pre) args = .ok a ∧ memberFiller d (partTokens tu 1 0 pre) he = .ok e ∧
      (e.isHollow = false → ∀ v s, f.call v s = M.bind ((F.ann a).call v) (lazyValidator (plainCtor dq) sl e.call) s) := by
  obtain ⟨a, e, ha, hee, -, hcall⟩ := elementWise_make hw hf
  refine ⟨a, e, ha, hee, fun hh v s => ?_⟩
  rw [(hcall hh).2 v]
  congr 2; funext x
  unfold iterValidator lazyValidator plainCtor
  by_cases hd : W.drains (W.typeOf x) = true
  · rw [if_pos hd, hd]
    exact (lazyLoop_collect (sl := sl x) (v := x) ((W.elems x).map fun o => (o, e.call)) []).symm ▸ by cases dq <;> rfl
  · rw [if_neg hd, show W.drains (W.typeOf x) = false by simpa using hd]
    have h1 := lazyLoop_ignore (mk := if dq then W.mkDeque (W.typeOf x) [] (W.maxlen x) else W.mkIter (W.typeOf x) []) (sl := sl x) (v := x)
      ((W.elems x).map fun o => (o, e.call)) []
    simp only [List.nil_append, List.length_nil] at h1
    rw [h1]
    have h2 : ∀ (g g' : List W.Obj → M W W.Obj) (es : List (Slot W)) (p : List W.Obj), g [] = g' [] →
        elemLoop false g x es p = elemLoop false g' x es p := by
      intro g g' es
      induction es with
      | nil => intros; rfl
      | cons q es ih =>
        intro p hg
        obtain ⟨o, fo⟩ := q
        simp only [elemLoop]
        congr 1; funext w
        by_cases hw : w = o
        · simp only [if_pos hw]; exact ih _ hg
        · simp only [if_neg hw, Bool.false_eq_true, if_false, hg]
    exact h2 _ _ _ _ (by cases dq <;> rfl)

/-- C118: what the constructor does not ask for is not filled: once the construction is over, the rest does not matter. -/
theorem C118_demand (k : Ctor W) {st : k.σ} {xs : List (M W W.Obj)} {s : LState W} {r : Except Exc W.Obj} {s' : LState W}
    (h : Over k st xs s r s') (ys : List (M W W.Obj)) : serve k st (xs ++ ys) s = (r, s') := by
  induction h with
  | raised h => simp only [List.cons_append, serve]; rw [M.bind_error h]
  | refused h he =>
    simp only [List.cons_append, serve]; rw [M.bind_ok h]
    simp only [M.bind, M.lift, he]
  | enough h he =>
    simp only [List.cons_append, serve]; rw [M.bind_ok h]
    simp only [M.bind, M.lift, he]; rfl
  | goes h he _ ih =>
    simp only [List.cons_append, serve]; rw [M.bind_ok h]
    simp only [M.bind, M.lift, he]
    exact ih

/-- C118: a construction that is not over has asked for everything; then the constructor finishes. -/
theorem C118_through (k : Ctor W) {xs : List (M W W.Obj)} {st st' : k.σ} {s s' : LState W} (h : Through k st xs s st' s') :
    serve k st xs s = M.lift (k.finish st') s' := by
  induction h with
  | nil => rfl
  | cons h he _ ih =>
    rw [serve, M.bind_ok h]
    simp only [M.bind, M.lift, he]
    exact ih

/-- one of the two cases always applies -/
theorem C118_total (k : Ctor W) : ∀ (xs : List (M W W.Obj)) (st : k.σ) (s : LState W),
    (∃ r s', Over k st xs s r s') ∨ ∃ st' s', Through k st xs s st' s' := by
  intro xs
  induction xs with
  | nil => intro st s; exact .inr ⟨st, s, .nil _ _⟩
  | cons x xs ih =>
    intro st s
    rcases hx : x s with ⟨e | w, s1⟩
    · exact .inl ⟨_, _, .raised hx⟩
    · rcases hk : k.each st w s1.user with ⟨e | o | st', u⟩
      · exact .inl ⟨_, _, .refused hx hk⟩
      · exact .inl ⟨_, _, .enough hx hk⟩
      · rcases ih st' { s1 with user := u } with ⟨r, s', h⟩ | ⟨st'', s', h⟩
        · exact .inl ⟨r, s', .goes hx hk h⟩
        · exact .inr ⟨st'', s', .cons hx hk h⟩

/-- a set class as the rest of the model has it: all elements are taken, then hashed -/
def setOf (mk : List W.Obj → W.St → Except Exc W.Obj × W.St) (l : List W.Obj) (s : W.St) : Except Exc W.Obj × W.St :=
  if l.all W.hashable then mk l s else (.error .typeError, s)

theorem serve_setOf_bad (mk : List W.Obj → W.St → Except Exc W.Obj × W.St) (xs : List (M W W.Obj)) (acc : List W.Obj)
    (h : acc.all W.hashable = false) (s : LState W) (o : W.Obj) (s' : LState W) : serve (Ctor.collect (setOf mk)) acc xs s ≠ (.ok o, s') := by
  rw [serve_collect]
  intro he
  obtain ⟨ws, s1, -, h2⟩ := M.bind_eq_ok he
  simp [M.lift, setOf, h] at h2

theorem serve_hashing (mk : List W.Obj → W.St → Except Exc W.Obj × W.St) (xs : List (M W W.Obj)) (o : W.Obj) (s' : LState W) :
    ∀ (acc : List W.Obj) (s : LState W), acc.all W.hashable = true →
    (serve (Ctor.hashing mk) acc xs s = (.ok o, s') ↔ serve (Ctor.collect (setOf mk)) acc xs s = (.ok o, s')) := by
  induction xs with
  | nil =>
    intro acc s h
    show M.lift (mk acc) s = _ ↔ M.lift (setOf mk acc) s = _
    rw [show setOf mk acc = mk acc from funext fun u => if_pos h]
  | cons x xs ih =>
    intro acc s h
    simp only [serve]
    rcases hx : x s with ⟨e | w, s1⟩
    · rw [M.bind_error hx, M.bind_error hx]
    · rw [M.bind_ok hx, M.bind_ok hx]
      by_cases hw : W.hashable w = true
      · have := ih (acc ++ [w]) s1 (by simp [h, hw])
        simp only [M.bind, M.lift, Ctor.hashing, Ctor.collect, hw, if_true]
        exact this
      · have hw' : W.hashable w = false := by simpa using hw
        refine ⟨fun he => ?_, fun he => ?_⟩
        · simp [M.bind, M.lift, Ctor.hashing, hw'] at he
        · exact absurd he (serve_setOf_bad mk xs (acc ++ [w]) (by simp [hw']) s1 o s')

/-- C118: a set is hashed while it is filled; which set is stored, and the state afterwards, are those of a constructor that takes all
elements first.  Only the exception of a failure, and what was done until then, can differ. -/
theorem C118_sets (mk : W.Obj → List W.Obj → W.St → Except Exc W.Obj × W.St) (sl : W.Obj → Bool) (f : W.Obj → M W W.Obj) (x : W.Obj)
    (s : LState W) (o : W.Obj) (s' : LState W) :
    lazyValidator (fun x => Ctor.hashing (mk x)) sl f x s = (.ok o, s') ↔
      lazyValidator (fun x => Ctor.collect (setOf (mk x))) sl f x s = (.ok o, s') := by
  have key : ∀ (es : List (Slot W)) (done : List (Slot W)) (s : LState W),
      lazyLoop (Ctor.hashing (mk x)) (sl x) x (done ++ es) es done.length s = (.ok o, s') ↔
      lazyLoop (Ctor.collect (setOf (mk x))) (sl x) x (done ++ es) es done.length s = (.ok o, s') := by
    intro es
    induction es with
    | nil => intros; rfl
    | cons p es ih =>
      intro done s
      obtain ⟨e, g⟩ := p
      simp only [lazyLoop]
      rcases hg : g e s with ⟨er | w, s1⟩
      · rw [M.bind_error hg, M.bind_error hg]
      · rw [M.bind_ok hg, M.bind_ok hg]
        by_cases hw : w = e
        · simp only [if_pos hw]
          have := ih (done ++ [(e, g)]) s1
          simpa using this
        · simp only [if_neg hw]
          rw [Ctor.call_serve _ (by rw [splitAt_todo]; simp), Ctor.call_serve _ (by rw [splitAt_todo]; simp), splitAt_todo]
          exact serve_hashing (mk x) _ o s' [] s1 rfl
  exact key ((W.elems x).map fun o => (o, f)) [] s

/-- C118: if a filled element of a set cannot be hashed, TypeError is raised there, and no later element is filled. -/
theorem C118_unhashable (mk : W.Obj → List W.Obj → W.St → Except Exc W.Obj × W.St) (sl : W.Obj → Bool) (f : W.Obj → M W W.Obj) (x : W.Obj)
    (s : LState W) {pre : List W.Obj} {e : W.Obj} {mid : List W.Obj} {u : W.Obj} {post : List W.Obj}
    (hx : W.elems x = pre ++ e :: mid ++ u :: post) {s1 s2 s3 s4 : LState W} {w z : W.Obj} {ws : List W.Obj}
    (h1 : FillSeq (pre.map fun o => (o, f)) s pre s1) (h2 : f e s1 = (.ok w, s2)) (hne : w ≠ e)
    (h3 : FillSeq (mid.map fun o => (o, f)) s2 ws s3) (h4 : f u s3 = (.ok z, s4)) (hz : W.hashable z = false)
    (hh : ∀ o ∈ pre ++ w :: ws, W.hashable o = true) :
    lazyValidator (fun x => Ctor.hashing (mk x)) sl f x s = (.error .typeError, s4) := by
  have := (C118_serves (fun x => Ctor.hashing (mk x)) sl f x s).2.2 pre e (mid ++ u :: post) s1 w s2 (by simpa using hx) h1 h2 hne
  rw [this]
  show serve (Ctor.hashing (mk x)) ([] : List W.Obj) _ s2 = _
  have hpre : ∀ (l : List W.Obj) (acc : List W.Obj) (ys : List (M W W.Obj)) (s : LState W), (∀ o ∈ l, W.hashable o = true) →
      serve (Ctor.hashing (mk x)) acc (l.map M.pure ++ ys) s = serve (Ctor.hashing (mk x)) (acc ++ l : List W.Obj) ys s := by
    intro l
    induction l with
    | nil => intro acc ys s _; simp
    | cons a l ih =>
      intro acc ys s hl
      have ha := hl a (by simp)
      simp only [List.map_cons, List.cons_append, serve, M.pure_bind]
      simp only [M.bind, M.lift, Ctor.hashing, ha, if_true]
      have := ih (acc ++ [a]) ys s (fun o ho => hl o (by simp [ho]))
      rw [List.append_assoc] at this
      exact this
  rw [hpre pre [] _ s2 (fun o ho => hh o (by simp [ho]))]
  have hw := hh w (by simp)
  have hone := hpre [w] pre ((mid ++ u :: post).map fun o => M.generator (f o)) s2 (by simpa using hw)
  simp only [List.map_cons, List.map_nil, List.nil_append, List.cons_append, List.nil_append] at hone ⊢
  rw [hone]
  have hws : ∀ o ∈ ws, W.hashable o = true := fun o ho => hh o (by simp [ho])
  clear hone hpre this hx h2 hne hh h1
  generalize hacc : (pre ++ [w] : List W.Obj) = acc
  clear hacc
  induction mid generalizing ws s2 acc with
  | nil =>
    cases h3
    simp only [List.nil_append, List.map_cons, serve]
    rw [M.bind_ok (M.generator_ok h4)]
    simp [M.bind, M.lift, Ctor.hashing, hz]
  | cons m mid ih =>
    cases h3 with
    | @cons _ _ _ _ w' s1' ws' _ hm hrest =>
      simp only [List.cons_append, List.map_cons, serve]
      rw [M.bind_ok (M.generator_ok hm)]
      have hw' := hws w' (by simp)
      simp only [M.bind, M.lift, Ctor.hashing, hw', if_true]
      exact ih hrest (fun o ho => hws o (by simp [ho])) (acc ++ [w'])

/-! ### cases -/

namespace Toy.Lazy

/-- `"5"` becomes 5, `"x"` an (unhashable) list, `None` is refused, everything else is kept; logs 1, 2, 3, 0 -/
def fill (v : TObj) : M Toy.W TObj := match v with
  | .str "5" => M.bind (Toy.log 1) fun _ => M.pure (.int 5)
  | .str "x" => M.bind (Toy.log 2) fun _ => M.pure (Toy.list [])
  | .none => M.bind (Toy.log 3) fun _ => M.throw .valueError
  | v => M.bind (Toy.log 0) fun _ => M.pure v

def set (l : List TObj) : TObj := .seq .set (spine l)

/-- `set(iterator)` -/
def setCtor (x : TObj) : Ctor Toy.W := Ctor.hashing (W := Toy.W) fun l s => Toy.W.mkIter (typeOf x) l s

/-- a class that takes two elements and returns a tuple of them -/
def two : Ctor Toy.W where
  σ := List TObj
  start s := (.ok (.inr []), s)
  each l (o : TObj) s := (.ok (if l.length = 1 then .inl (tuple (l ++ [o])) else .inr (l ++ [o])), s)
  finish l s := (.ok (tuple l), s)

end Toy.Lazy

open Toy.Lazy in
/-- a set: the elements before the change are not filled again; the rest is filled in order.  Cut or sliced, the same. -/
example : lazyValidator (W := Toy.W) setCtor (fun _ => false) fill (set [.int 1, .str "5", .int 2]) Toy.s0 =
      (.ok (set [.int 1, .int 5, .int 2]), { Toy.s0 with user := [0, 1, 0] }) ∧
    lazyValidator (W := Toy.W) setCtor (fun _ => true) fill (set [.int 1, .str "5", .int 2]) Toy.s0 =
      (.ok (set [.int 1, .int 5, .int 2]), { Toy.s0 with user := [0, 1, 0] }) := ⟨rfl, rfl⟩

open Toy.Lazy in
/-- a class that wants two elements: the third is not filled -/
example : lazyValidator (W := Toy.W) (fun _ => two) (fun _ => false) fill (Toy.list [.int 1, .str "5", .none]) Toy.s0 =
      (.ok (Toy.tuple [.int 1, .int 5]), { Toy.s0 with user := [0, 1] }) := rfl

open Toy.Lazy in
/-- the hypotheses of `C118_unhashable`, with a refused element after the unhashable one -/
example : lazyValidator (W := Toy.W) setCtor (fun _ => false) fill (set [.int 1, .str "5", .int 2, .str "x", .none]) Toy.s0 =
      (.error .typeError, { Toy.s0 with user := [0, 1, 0, 2] }) :=
  C118_unhashable (W := Toy.W) (fun x l s => Toy.W.mkIter (Toy.typeOf x) l s) _ fill _ _ (pre := [.int 1]) (e := .str "5") (mid := [.int 2])
    (u := .str "x") (post := [.none]) rfl (.cons rfl (.nil _)) rfl nofun (.cons rfl (.nil _)) rfl rfl (by
      intro o ho
      rcases ho with _ | ⟨_, _ | ⟨_, _ | ⟨_, ho⟩⟩⟩
      · rfl
      · rfl
      · rfl
      · cases ho)

open Toy.Lazy in
/-- the claim that a set with a refused element raises the exception of that element is refuted: a filled element that cannot be hashed comes
first. The constructor that takes all elements first raises it. -/
theorem C118_refuted : ¬ ∀ (x : Toy.TObj) (er : Exc) (s' : LState Toy.W) (ws : List Toy.TObj),
    FillSeqFails (W := Toy.W) ((Toy.W.elems x).map fun o => (o, fill)) Toy.s0 ws er s' →
    (lazyValidator (W := Toy.W) setCtor (fun _ => false) fill x Toy.s0).1 = .error er := by
  intro h
  have := h (set [.str "5", .str "x", .none]) .valueError { Toy.s0 with user := [1, 2, 3] } [.int 5, Toy.list []]
    (.later rfl (.later rfl (.here rfl)))
  exact absurd this (by
    intro e
    have e' : (Except.error Exc.typeError : Except Exc Toy.TObj) = .error .valueError := e
    cases e')

end Records
