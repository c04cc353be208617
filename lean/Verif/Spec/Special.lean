import Verif.Spec.Program
import Verif.Model.Special
/-
Specification of `__init__`, `__setattr__` and `__hash__` of record classes.
-/
namespace Records.Spec
variable {W : World}

/-- the last definition of the name in a class body -/
def lastDef (body : List (String × Meth W)) (n : String) : Option (Meth W) :=
  match body.reverse.find? fun d => decide (d.1 = n) with
  | some d => some d.2
  | none => none

/-- does the body define the name? -/
def Defines (body : List (String × Meth W)) (n : String) : Prop := ∃ m, (n, m) ∈ body

/-- the initializer a class has itself -/
def ownInit (E : PyEnv W) (B : Bodies W) (c : PyClass W) : Option (Meth W) :=
  if c.cid = E.object then some .object else if c.cid = E.recordBase then some .library else lastDef (B c.cid) "__init__"

/-- `m` is the `__init__` of the class: that of the nearest class of the resolution order that has one -/
def HasInit (E : PyEnv W) (B : Bodies W) (tbl : List (PyClass W)) (c : PyClass W) (m : Meth W) : Prop :=
  Nearest tbl (ownInit E B) c.mro m

/-- class bodies do not assign the initializers of `object` and `RecordBase` themselves -/
def OwnInits (B : Bodies W) : Prop := ∀ c m, ("__init__", m) ∈ B c → ∃ run, m = .user run

end Records.Spec
