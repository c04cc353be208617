import Verif.Spec.Roundtrip
import Verif.Spec.Parse
/-
Specification for calling a class on one of its own instances.
-/
namespace Records
variable {W : World}

/-- the object `v` is the record `i`: it has the attributes of `i` and its class -/
structure IsRec (E : Env W) (v : W.Obj) (i : Inst W) : Prop where
  attr : ∀ k, E.getattr v k = M.ofExcept (i.attr E k)
  inst : W.isInstance v = W.isSub i.cid
  some : W.isNone v = false

/-- reading the object as JSON text fails, and so does using it as a mapping (an `Exception`, without effects) -/
structure NoData (E : Env W) (v : W.Obj) : Prop where
  text : ∃ e : Exc, e.isException = true ∧ ∀ s, E.jsonLoads v [] s = (.error e, s)
  mapping : ∃ e : Exc, e.isException = true ∧ ∀ s, E.chainView v s = (.error e, s)

/-- a parser of the program that refuses the object -/
def Parser.Refuses (v : W.Obj) : Parser W → Prop
  | .user f => ∃ e : Exc, e.isException = true ∧ ∀ s, f v s = (.error e, s)
  | _ => True

/-- the class has `from_instance` among its parsers (once), and its own parsers refuse the object -/
def FromOwn (C : RecClass W) (v : W.Obj) : Prop :=
  ∃ l1 l2, C.parsers = l1 ++ .fromInstance :: l2 ∧ .fromInstance ∉ l1 ++ l2 ∧ ∀ p ∈ l1 ++ l2, p.Refuses v

end Records
