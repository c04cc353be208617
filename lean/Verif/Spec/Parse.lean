import Verif.Model.New
/-
Specification of `parse`: the runs of a list of parsers.
-/
namespace Records
variable {W : World}

/-- every parser is called once, in order; `rs` are the results of those that succeed, the others raise an `Exception` -/
inductive RunAll {P : Type} (run : P → M W (Res W)) : List P → LState W → List (Res W) → LState W → Prop
  | nil (s) : RunAll run [] s [] s
  | ok {p ps s r s1 rs s2} : run p s = (.ok r, s1) → RunAll run ps s1 rs s2 → RunAll run (p :: ps) s (r :: rs) s2
  | fail {p ps s e s1 rs s2} : run p s = (.error e, s1) → e.isException = true → RunAll run ps s1 rs s2 →
      RunAll run (p :: ps) s rs s2

/-- the parsers are called in order until one of them raises `e`, which is no `Exception` -/
inductive RunStop {P : Type} (run : P → M W (Res W)) : List P → LState W → Exc → LState W → Prop
  | here {p ps s e s1} : run p s = (.error e, s1) → e.isException = false → RunStop run (p :: ps) s e s1
  | ok {p ps s r s1 e s2} : run p s = (.ok r, s1) → RunStop run ps s1 e s2 → RunStop run (p :: ps) s e s2
  | fail {p ps s e' s1 e s2} : run p s = (.error e', s1) → e'.isException = true → RunStop run ps s1 e s2 →
      RunStop run (p :: ps) s e s2

/-- the computation always ends with the same result and changes nothing -/
def Silent {α : Type} (x : M W α) (r : Except Exc α) : Prop := ∀ s, x s = (r, s)

/-- no `KeyboardInterrupt` or the like -/
def Ordinary {α : Type} : Except Exc α → Prop
  | .ok _ => True
  | .error e => e.isException = true

/-- the class with the parsers in another order -/
def RecClass.withParsers (C : RecClass W) (ps : List (Parser W)) : RecClass W := { C with parsers := ps }

/-- the foreign object `v` has no attribute `k` -/
def Lacks (E : Env W) (v : W.Obj) (k : String) : Prop := ∃ e : Exc, e.kind = .attributeError ∧ ∀ s, E.getattr v k s = (.error e, s)

end Records
