import Verif.Model.Lazy
import Verif.Spec.Container
/-
Specification for C118: a constructor that is served one element after the other, each made when it is asked for.
-/
namespace Records
variable {W : World}

/-- the constructor gets the results of these computations, each run when it is asked for -/
def serve (k : Ctor W) : k.σ → List (M W W.Obj) → M W W.Obj
  | st, [] => M.lift (k.finish st)
  | st, x :: xs => M.bind x fun w => M.bind (M.lift (k.each st w)) fun r =>
    match r with
    | .inl o => M.pure o
    | .inr st' => serve k st' xs

/-- the class is called with such an iterator -/
def serveAll (k : Ctor W) (xs : List (M W W.Obj)) : M W W.Obj :=
  M.bind (M.lift k.start) fun r =>
    match r with
    | .inl o => M.pure o
    | .inr st => serve k st xs

/-- the filling of a slot, inside a generator -/
def Slot.later (p : Slot W) : M W W.Obj := M.generator (p.2 p.1)

/-- the construction is over by the time these computations were asked for: one of them raised, or the constructor returned or raised -/
inductive Over (k : Ctor W) : k.σ → List (M W W.Obj) → LState W → Except Exc W.Obj → LState W → Prop
  | raised {st x xs s e s1} : Raises x s e s1 → Over k st (x :: xs) s (.error e) s1
  | refused {st x xs s w s1 e u} : Returns x s w s1 → k.each st w s1.user = (.error e, u) → Over k st (x :: xs) s (.error e) { s1 with user := u }
  | enough {st x xs s w s1 o u} : Returns x s w s1 → k.each st w s1.user = (.ok (.inl o), u) → Over k st (x :: xs) s (.ok o) { s1 with user := u }
  | goes {st x xs s w s1 st' u r s2} : Returns x s w s1 → k.each st w s1.user = (.ok (.inr st'), u) →
      Over k st' xs { s1 with user := u } r s2 → Over k st (x :: xs) s r s2

/-- all these computations were asked for, and the constructor wants to go on -/
inductive Through (k : Ctor W) : k.σ → List (M W W.Obj) → LState W → k.σ → LState W → Prop
  | nil (st s) : Through k st [] s st s
  | cons {st x xs s w s1 st' u st'' s2} : Returns x s w s1 → k.each st w s1.user = (.ok (.inr st'), u) →
      Through k st' xs { s1 with user := u } st'' s2 → Through k st (x :: xs) s st'' s2

end Records
