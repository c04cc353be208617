import Verif.Spec.Lazy
import Verif.Proofs.Container
/-
Helper lemmas for C118.
-/
namespace Records
variable {W : World}

/-- what the first iterable still produces -/
def Parts.pre : Parts W → List (Slot W)
  | .slices pre _ => pre
  | .shared it n _ => it.take n

/-- what the second iterable produces once the first is exhausted -/
def Parts.post : Parts W → List (Slot W)
  | .slices _ post => post
  | .shared it n skip => if skip then (it.drop n).drop 1 else it.drop n

/-- what the second iterable produces now -/
def Parts.rest : Parts W → List (Slot W)
  | .slices _ post => post
  | .shared it _ skip => if skip then it.drop 1 else it

theorem Parts.nextPre_some {p p' : Parts W} {x : Slot W} (h : p.nextPre = (some x, p')) : p.pre = x :: p'.pre ∧ p'.post = p.post := by
  rcases p with ⟨_ | ⟨y, pre⟩, post⟩ | ⟨_ | ⟨y, it⟩, _ | n, skip⟩ <;> simp [Parts.nextPre] at h
  · obtain ⟨rfl, rfl⟩ := h; exact ⟨rfl, rfl⟩
  · obtain ⟨rfl, rfl⟩ := h; exact ⟨rfl, rfl⟩

theorem Parts.nextPre_none {p p' : Parts W} (h : p.nextPre = (none, p')) : p.pre = [] ∧ p'.rest = p.post := by
  rcases p with ⟨_ | ⟨y, pre⟩, post⟩ | ⟨_ | ⟨y, it⟩, _ | n, skip⟩ <;> simp [Parts.nextPre] at h <;> subst h <;>
    simp [Parts.pre, Parts.rest, Parts.post]

theorem Parts.nextPost_some {p p' : Parts W} {x : Slot W} (h : p.nextPost = (some x, p')) : p.rest = x :: p'.rest := by
  rcases p with ⟨pre, _ | ⟨y, post⟩⟩ | ⟨it, n, skip⟩
  · simp [Parts.nextPost] at h
  · simp [Parts.nextPost] at h; obtain ⟨rfl, rfl⟩ := h; rfl
  · simp only [Parts.nextPost] at h
    simp only [Parts.rest]
    split at h
    · rename_i y it' e
      simp only [Prod.mk.injEq, Option.some.injEq] at h
      obtain ⟨rfl, rfl⟩ := h
      rw [e]; rfl
    · simp at h

theorem Parts.nextPost_none {p p' : Parts W} (h : p.nextPost = (none, p')) : p.rest = [] := by
  rcases p with ⟨pre, _ | ⟨y, post⟩⟩ | ⟨it, n, skip⟩
  · rfl
  · simp [Parts.nextPost] at h
  · simp only [Parts.nextPost] at h
    simp only [Parts.rest]
    split at h
    · simp at h
    · assumption

/-- what the chain still produces -/
def Chain.todo (c : Chain W) : List (M W W.Obj) :=
  match c.phase with
  | .pre => c.parts.pre.map (fun p => M.pure p.1) ++ M.pure c.filled :: c.parts.post.map Slot.later
  | .mid => M.pure c.filled :: c.parts.rest.map Slot.later
  | .post => c.parts.rest.map Slot.later
  | .over => []

/-- what the constructor makes of an answer of the chain -/
def Ctor.onNext (k : Ctor W) (st : k.σ) (go : k.σ → Chain W → M W W.Obj) (r : Except Exc (Option W.Obj) × Chain W × LState W) :
    Except Exc W.Obj × LState W :=
  match r with
  | (.error e, _, s') => (.error e, s')
  | (.ok none, _, s') => M.lift (k.finish st) s'
  | (.ok (some w), c', s') =>
    match M.lift (k.each st w) s' with
    | (.error e, s'') => (.error e, s'')
    | (.ok (.inl o), s'') => (.ok o, s'')
    | (.ok (.inr st'), s'') => go st' c' s''

theorem Ctor.pull_succ (k : Ctor W) (n : Nat) (st : k.σ) (c : Chain W) (s : LState W) :
    k.pull (n + 1) st c s = k.onNext st (k.pull n) (c.next s) := rfl

theorem Ctor.onNext_some {k : Ctor W} {st : k.σ} {go : k.σ → Chain W → M W W.Obj} {w : W.Obj} {c' : Chain W} {s s1 : LState W}
    {x : M W W.Obj} {xs : List (M W W.Obj)} (hx : x s = (.ok w, s1)) (hgo : ∀ st', go st' c' = serve k st' xs) :
    k.onNext st go (.ok (some w), c', s1) = serve k st (x :: xs) s := by
  rw [serve, M.bind_ok hx]
  simp only [Ctor.onNext, M.bind]
  rcases M.lift (k.each st w) s1 with ⟨_ | _ | st', s2⟩
  · rfl
  · rfl
  · simp only [hgo]

theorem Chain.late {k : Ctor W} {st : k.σ} {n : Nat} {c : Chain W} {s : LState W} (hc : c.phase ≠ .pre) (hn : c.todo.length < n + 1)
    (ih : ∀ (st : k.σ) (c : Chain W), c.todo.length < n → k.pull n st c = serve k st c.todo) :
    k.onNext st (k.pull n) (c.nextLate s) = serve k st c.todo s := by
  obtain ⟨phase, parts, filled⟩ := c
  cases phase with
  | pre => exact absurd rfl hc
  | mid =>
    simp only [Chain.todo, List.length_cons] at hn
    exact Ctor.onNext_some (x := M.pure filled) rfl fun st' => ih st' ⟨.post, parts, filled⟩ (by simp only [Chain.todo]; omega)
  | over => rfl
  | post =>
    simp only [Chain.todo] at hn ⊢
    unfold Chain.nextLate
    simp only
    cases hp : parts.nextPost with
    | mk o p =>
      cases o with
      | none => rw [Parts.nextPost_none hp]; rfl
      | some x =>
        rw [Parts.nextPost_some hp] at hn ⊢
        simp only [List.map_cons, List.length_cons, List.length_map] at hn ⊢
        cases hg : M.generator (x.2 x.1) s with
        | mk r s1 =>
          cases r with
          | error e =>
            simp only [Ctor.onNext, serve]
            rw [M.bind_error (show Slot.later x s = _ from hg)]
          | ok w =>
            exact Ctor.onNext_some hg fun st' => ih st' ⟨.post, p, filled⟩ (by simp only [Chain.todo, List.length_map]; omega)

theorem Ctor.pull_serve (k : Ctor W) : ∀ (n : Nat) (st : k.σ) (c : Chain W), c.todo.length < n → k.pull n st c = serve k st c.todo := by
  intro n
  induction n with
  | zero => intro st c h; exact absurd h (Nat.not_lt_zero _)
  | succ n ih =>
    intro st c hn
    funext s
    rw [Ctor.pull_succ]
    obtain ⟨phase, parts, filled⟩ := c
    cases phase with
    | pre =>
      simp only [Chain.next]
      cases hp : parts.nextPre with
      | mk o p =>
        cases o with
        | some x =>
          obtain ⟨h1, h2⟩ := Parts.nextPre_some hp
          have ht : (⟨.pre, parts, filled⟩ : Chain W).todo = M.pure x.1 :: (⟨.pre, p, filled⟩ : Chain W).todo := by
            simp [Chain.todo, h1, h2]
          rw [ht] at hn ⊢
          exact Ctor.onNext_some rfl fun st' => ih st' _ (by simpa using hn)
        | none =>
          obtain ⟨h1, h2⟩ := Parts.nextPre_none hp
          have ht : (⟨.pre, parts, filled⟩ : Chain W).todo = (⟨.mid, p, filled⟩ : Chain W).todo := by
            simp [Chain.todo, h1, h2]
          rw [ht] at hn ⊢
          exact Chain.late (by simp) hn ih
    | mid => exact Chain.late (by simp) hn ih
    | post => exact Chain.late (by simp) hn ih
    | over => exact Chain.late (by simp) hn ih

theorem Ctor.call_serve (k : Ctor W) {n : Nat} {c : Chain W} (h : c.todo.length < n) : k.call n c = serveAll k c.todo := by
  funext s
  simp only [Ctor.call, serveAll, M.bind]
  rcases M.lift k.start s with ⟨_ | _ | st, s1⟩
  · rfl
  · rfl
  · simp only [k.pull_serve n st c h]

theorem splitAt_todo (sl : Bool) (pre post : List (Slot W)) (x : Slot W) (w : W.Obj) :
    (⟨.pre, splitAt sl (pre ++ x :: post) pre.length, w⟩ : Chain W).todo =
      pre.map (fun p => M.pure p.1) ++ M.pure w :: post.map Slot.later := by
  have hd : (pre ++ x :: post).drop (pre.length + 1) = post := by
    rw [← List.drop_drop, List.drop_left]; rfl
  cases sl with
  | true => simp [Chain.todo, splitAt, Parts.pre, Parts.post, hd]
  | false => simp [Chain.todo, splitAt, Parts.pre, Parts.post]

theorem lazyLoop_same {k : Ctor W} {sl : Bool} {v : W.Obj} {seq : List (Slot W)} {es : List (Slot W)} {s : LState W} {ws : List W.Obj}
    {s' : LState W} (h : FillSeq es s ws s') (hw : ws = es.map Prod.fst) (n : Nat) : lazyLoop k sl v seq es n s = (.ok v, s') := by
  induction h generalizing n with
  | nil s => rfl
  | @cons e f es s w s1 ws s2 h _ ih =>
    simp only [List.map_cons, List.cons.injEq] at hw
    simp only [lazyLoop]
    rw [M.bind_ok h, if_pos hw.1]
    exact ih hw.2 _

theorem lazyLoop_fails {k : Ctor W} {sl : Bool} {v : W.Obj} {seq : List (Slot W)} {es : List (Slot W)} {s : LState W} {ws : List W.Obj}
    {x : Exc} {s' : LState W} (h : FillSeqFails es s ws x s') (hw : ws <+: es.map Prod.fst) (n : Nat) :
    lazyLoop k sl v seq es n s = (.error x, s') := by
  induction h generalizing n with
  | here h => simp only [lazyLoop]; rw [M.bind_error h]
  | @later e f es s w s1 ws x s2 h ht ih =>
    obtain ⟨hw1, hw'⟩ := List.cons_prefix_cons.1 hw
    simp only [lazyLoop]
    rw [M.bind_ok h, if_pos hw1]
    exact ih hw' _

theorem lazyLoop_changes {k : Ctor W} {sl : Bool} {v : W.Obj} (done : List (Slot W)) {pre post : List (Slot W)} {e w : W.Obj}
    {f : W.Obj → M W W.Obj} {s : LState W} {ws : List W.Obj} {s1 s2 : LState W} (h : FillSeq pre s ws s1) (hw : ws = pre.map Prod.fst)
    (hf : Returns (f e) s1 w s2) (hne : w ≠ e) :
    lazyLoop k sl v (done ++ (pre ++ (e, f) :: post)) (pre ++ (e, f) :: post) done.length s =
      serveAll k ((done ++ pre).map (fun p => M.pure p.1) ++ M.pure w :: post.map Slot.later) s2 := by
  induction h generalizing done with
  | nil s =>
    simp only [List.nil_append, lazyLoop, List.append_nil]
    rw [M.bind_ok hf, if_neg hne, Ctor.call_serve]
    · rw [splitAt_todo]
    · rw [splitAt_todo]; simp
  | @cons e' f' es s w' s1 ws s2 h _ ih =>
    simp only [List.map_cons, List.cons.injEq] at hw
    simp only [List.cons_append, lazyLoop]
    rw [M.bind_ok h, if_pos hw.1]
    have := ih (done ++ [(e', f')]) hw.2 hf
    simpa using this

/-- a constructor that collects gets all results -/
theorem serve_collect (mk : List W.Obj → W.St → Except Exc W.Obj × W.St) (xs : List (M W W.Obj)) :
    ∀ acc : List W.Obj, serve (Ctor.collect mk) acc xs = M.bind (M.mapM id xs) fun ws => M.lift (mk (acc ++ ws)) := by
  induction xs with
  | nil => intro acc; simp only [M.mapM, M.pure_bind, List.append_nil]; rfl
  | cons x xs ih =>
    intro acc
    simp only [serve, M.mapM, M.bind_assoc, id]
    congr 1; funext w
    show serve (Ctor.collect mk) (acc ++ [w] : List W.Obj) xs = _
    rw [ih]
    simp [M.pure_bind, List.append_assoc]

theorem serveAll_collect (mk : List W.Obj → W.St → Except Exc W.Obj × W.St) (xs : List (M W W.Obj)) :
    serveAll (Ctor.collect mk) xs = M.bind (M.mapM id xs) fun ws => M.lift (mk ws) := by
  show serve (Ctor.collect mk) ([] : List W.Obj) xs = _
  rw [serve_collect]; simp

theorem mapM_appends (f : β → M W α) (l₁ l₂ : List β) :
    M.mapM f (l₁ ++ l₂) = M.bind (M.mapM f l₁) fun as => M.bind (M.mapM f l₂) fun bs => M.pure (as ++ bs) := by
  induction l₁ with
  | nil => simp [M.mapM, M.pure_bind, M.bind_pure]
  | cons b l ih => simp [M.mapM, ih, M.bind_assoc, M.pure_bind]

theorem mapM_pures (l : List W.Obj) : M.mapM id (l.map fun o => (M.pure o : M W W.Obj)) = M.pure l := by
  induction l with
  | nil => rfl
  | cons o l ih => simp [M.mapM, ih, M.pure_bind]

theorem generator_mapM (es : List (Slot W)) : M.generator (M.mapM (fun p => p.2 p.1) es) = M.mapM id (es.map Slot.later) := by
  induction es with
  | nil => rfl
  | cons p es ih =>
    funext s
    simp only [M.mapM, List.map_cons, id, M.generator, M.bind]
    rw [← ih]
    simp only [Slot.later, M.generator]
    cases p.2 p.1 s with
    | mk r s1 =>
      cases r with
      | error e => rfl
      | ok w =>
        simp only
        cases M.mapM (fun p : Slot W => p.2 p.1) es s1 with
        | mk r s2 => cases r <;> rfl

theorem lazyLoop_collect {mk : List W.Obj → W.St → Except Exc W.Obj × W.St} {sl : Bool} {v : W.Obj} (es : List (Slot W)) :
    ∀ done : List (Slot W), lazyLoop (Ctor.collect mk) sl v (done ++ es) es done.length =
      elemLoop true (fun l => M.lift (mk l)) v es (done.map Prod.fst) := by
  induction es with
  | nil => intro done; rfl
  | cons p es ih =>
    intro done
    obtain ⟨e, f⟩ := p
    simp only [lazyLoop, elemLoop]
    congr 1; funext w
    by_cases hw : w = e
    · simp only [if_pos hw]
      have := ih (done ++ [(e, f)])
      simpa using this
    · simp only [if_neg hw, if_true]
      rw [Ctor.call_serve _ (by rw [splitAt_todo]; simp), splitAt_todo, serveAll_collect, generator_mapM, mapM_appends]
      rw [show done.map (fun p => (M.pure p.1 : M W W.Obj)) = (done.map Prod.fst).map fun o => M.pure o by simp, mapM_pures]
      simp [M.mapM, M.pure_bind, M.bind_assoc]

theorem lazyLoop_ignore {mk : W.St → Except Exc W.Obj × W.St} {sl : Bool} {v : W.Obj} (es : List (Slot W)) :
    ∀ done : List (Slot W), lazyLoop (Ctor.ignore mk) sl v (done ++ es) es done.length =
      elemLoop false (fun _ => M.lift mk) v es (done.map Prod.fst) := by
  induction es with
  | nil => intro done; rfl
  | cons p es ih =>
    intro done
    obtain ⟨e, f⟩ := p
    simp only [lazyLoop, elemLoop]
    congr 1; funext w
    by_cases hw : w = e
    · simp only [if_pos hw]
      have := ih (done ++ [(e, f)])
      simpa using this
    · simp only [if_neg hw]
      rw [Ctor.call_serve _ (by rw [splitAt_todo]; simp)]
      funext s
      simp only [serveAll, M.bind, M.lift, Ctor.ignore, Bool.false_eq_true, if_false]
      cases (mk s.user).1 <;> rfl

end Records
