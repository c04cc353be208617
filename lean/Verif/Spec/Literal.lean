import Verif.Spec.Hints
import Verif.Spec.Filler
/-
Specification vocabulary for Literal fields with coercers: what a field remembers.
-/
namespace Records
variable {W : World}

/-- the types a `Literal` field knows: those of its literals, and those it remembers from earlier attempts -/
def KnownType (id : Nat) (vals : List W.Obj) (s : LState W) (c : W.Cls) : Prop := (∃ p ∈ vals, W.typeOf p = c) ∨ c ∈ s.lit id

/-- the argument passes the type check: its type is known, or (outside `check_strict`) it is an instance of a known type -/
def LitFits (st : Style) (id : Nat) (vals : List W.Obj) (v : W.Obj) (s : LState W) : Prop :=
  KnownType id vals s (W.typeOf v) ∨ (st = .check ∧ ∃ c, KnownType id vals s c ∧ W.isInstance v c = true)

/-- `s'` is `s` except that the field also knows the type `c` -/
def Remembers (id : Nat) (vals : List W.Obj) (s s' : LState W) (c : W.Cls) : Prop :=
  s'.user = s.user ∧ (∀ i, i ≠ id → s'.lit i = s.lit i) ∧
    ∀ c', KnownType id vals s' c' ↔ (KnownType id vals s c' ∨ c' = c)

/-- The final test of a value: one of the literals; or not, and then its type is remembered. -/
inductive LitCheck (id : Nat) (vals : List W.Obj) (w : W.Obj) (s : LState W) : Except Exc W.Obj → LState W → Prop
  | listed : W.hashable w = true → IsLiteral vals w → LitCheck id vals w s (.ok w) s
  | unhashable {s'} : W.hashable w = false → Remembers id vals s s' (W.typeOf w) → LitCheck id vals w s (.error .typeError) s'
  | foreign {s'} : W.hashable w = true → ¬ IsLiteral vals w → Remembers id vals s s' (W.typeOf w) →
      LitCheck id vals w s (.error .valueError) s'

/-- What a coercer may return: under `check_strict` not an instance of a proper subclass of a known type; anything else,
also values of unknown types. -/
def LitGood (st : Style) (id : Nat) (vals : List W.Obj) (w : W.Obj) (s : LState W) : Prop :=
  st = .check ∨ KnownType id vals s (W.typeOf w) ∨ ¬ ∃ c, KnownType id vals s c ∧ W.isInstance w c = true

end Records
