import Verif.Model.New
/-
How deep constructions can be nested: `parse` calls the class again, and that call parses again only if the mapping it is
given has an entry `arg`.
-/
namespace Records
variable {W : World}

/-- One of the built-in parsers of `C`, given `v`, calls the class with `arg=a`: `v` is a mapping with that entry, or a JSON text
of one, or an object with that attribute and `arg` is a field. -/
inductive ArgOf (E : Env W) (C : RecClass W) (v : W.Obj) : W.Obj → Prop
  | mapping {s m s' a} : .fromMapping ∈ C.parsers → E.chainView v s = (.ok m, s') → ("arg", a) ∈ m → ArgOf E C v a
  | json {s j s1 m s2 a} : .fromJson ∈ C.parsers → E.jsonLoads v [] s = (.ok j, s1) → E.starView j s1 = (.ok m, s2) →
      ("arg", a) ∈ m → ArgOf E C v a
  | inst {s s' a} : .fromInstance ∈ C.parsers → "arg" ∈ C.fields.map (·.1) → E.getattr v "arg" s = (.ok a, s') → ArgOf E C v a

/-- following entries `arg` from `v` ends after at most `n` steps -/
def ArgDepth (E : Env W) (C : RecClass W) : Nat → W.Obj → Prop
  | 0, v => ∀ a, ¬ ArgOf E C v a
  | n + 1, v => ∀ a, ArgOf E C v a → ArgDepth E C n a

end Records
