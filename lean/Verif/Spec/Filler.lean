import Verif.Model.World
/-
Specification vocabulary for fillers; independent of the model of the filler code.
-/
namespace Records
variable {W : World}

/-- A callback run from a state: it returned a value. -/
def Returns {α : Type} (x : M W α) (s : LState W) (a : α) (s' : LState W) : Prop := x s = (.ok a, s')

/-- A callback run from a state: it raised. -/
def Raises {α : Type} (x : M W α) (s : LState W) (e : Exc) (s' : LState W) : Prop := x s = (.error e, s')

/-- The callbacks are run left to right, each on the value returned by the previous one, and all return. -/
inductive Pipeline : List (W.Obj → M W W.Obj) → W.Obj → LState W → W.Obj → LState W → Prop
  | nil (v s) : Pipeline [] v s v s
  | cons {f fs v s w s1 x s2} : Returns (f v) s w s1 → Pipeline fs w s1 x s2 → Pipeline (f :: fs) v s x s2

/-- The callbacks are run left to right until one raises. -/
inductive PipelineFails : List (W.Obj → M W W.Obj) → W.Obj → LState W → Exc → LState W → Prop
  | here {f fs v s e s1} : Raises (f v) s e s1 → PipelineFails (f :: fs) v s e s1
  | later {f fs v s w s1 e s2} : Returns (f v) s w s1 → PipelineFails fs w s1 e s2 → PipelineFails (f :: fs) v s e s2

/-- All these coercers were tried and failed: by raising an `Exception` (then the next one gets the same argument), or
by returning an unacceptable value (then the next one gets that value). `good w s`: value `w` is acceptable. -/
inductive Attempts (good : W.Obj → LState W → Prop) :
    List (W.Obj → M W W.Obj) → W.Obj → LState W → W.Obj → LState W → Prop
  | nil (v s) : Attempts good [] v s v s
  | raised {c cs v s e s1 v' s'} : Raises (c v) s e s1 → e.isException = true → Attempts good cs v s1 v' s' →
      Attempts good (c :: cs) v s v' s'
  | wrong {c cs v s w s1 v' s'} : Returns (c v) s w s1 → ¬ good w s1 → Attempts good cs w s1 v' s' →
      Attempts good (c :: cs) v s v' s'

end Records
