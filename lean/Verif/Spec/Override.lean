import Verif.Model.Override
import Verif.Spec.Roundtrip
/-
Specification for classes that override `to_dict`.
-/
namespace Records
variable {W : World}

/-- a frozen record of class `C` with all its fields, hashed before: its hash is `n` -/
structure Hashed (C : RecClass W) (n : Int) (i : Inst W) : Prop where
  cls : i.cid = C.cid
  full : Full C i
  hash : i.hash = some (some n)

/-- `a == b` returns `True` in the state `s` -/
def EqualD (E : Env W) (H : Hasher W) (D : ToDict W) (C : RecClass W) (s : LState W) (a b : Inst W) : Prop :=
  (eqD E H D C a b s).1 = .ok true

/-- the lists are equal element by element, with hashable elements -/
def PairwiseEqual (W : World) : List W.Obj → List W.Obj → Prop
  | [], [] => True
  | v :: vs, w :: ws => (W.eq v w = true ∧ W.hashable v = true ∧ W.hashable w = true) ∧ PairwiseEqual W vs ws
  | _, _ => False

/-- the names are no parameters of `__new__` and `__init__` -/
def FreeKeys (d : Dict W.Obj) : Prop := ∀ k ∈ d.map (·.1), k ∉ ["self", "cls", "arg"]

end Records
