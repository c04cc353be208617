import Verif.Model.World
/-
Model of records/fillers/validators.py and records/fillers/builtin_validators.py.
-/
namespace Records

/-- The rich comparisons of a Python type, as used by the bound validators. -/
structure Cmp (α : Type) where
  lt : α → α → Bool
  le : α → α → Bool
  gt : α → α → Bool
  ge : α → α → Bool
  eq : α → α → Bool

/-- A bound: a value, or one of the module constants `least`, `greatest` (builtin_validators.py:7-43). -/
inductive Bound (α : Type)
  | least
  | val (a : α)
  | greatest
  deriving DecidableEq, Repr

namespace Bound
variable {α : Type} (C : Cmp α)

/-- `a > b` with `_Least.__gt__`/`_Greatest.__gt__` (builtin_validators.py:18-19, 36-37); a plain value does not know
the sentinels, so Python tries the reflected `b < a` (`__lt__`, builtin_validators.py:12-13, 30-31). -/
def gt : Bound α → Bound α → Bool
  | .least, _ => false
  | .greatest, _ => true
  | .val _, .least => true
  | .val _, .greatest => false
  | .val a, .val b => C.gt a b

/-- `a < b` (builtin_validators.py:12-13, 30-31; reflected `__gt__`: 18-19, 36-37) -/
def lt : Bound α → Bound α → Bool
  | .least, _ => true
  | .greatest, _ => false
  | .val _, .least => false
  | .val _, .greatest => true
  | .val a, .val b => C.lt a b

/-- `a <= b` (builtin_validators.py:15-16, 33-34; reflected `__ge__`: 21-22, 39-40) -/
def le : Bound α → Bound α → Bool
  | .least, _ => true
  | .greatest, .greatest => true
  | .greatest, _ => false
  | .val _, .least => false
  | .val _, .greatest => true
  | .val a, .val b => C.le a b

/-- `a >= b` (builtin_validators.py:21-22, 39-40; reflected `__le__`: 15-16, 33-34) -/
def ge : Bound α → Bound α → Bool
  | .least, .least => true
  | .least, _ => false
  | .greatest, _ => true
  | .val _, .least => true
  | .val _, .greatest => false
  | .val a, .val b => C.ge a b

/-- `a == b`: the sentinels compare by identity -/
def eq : Bound α → Bound α → Bool
  | .least, .least => true
  | .greatest, .greatest => true
  | .val a, .val b => C.eq a b
  | _, _ => false

/-- `max(a, b)`: the first argument unless the second is greater (CPython `max` tests `item > best`) -/
def max (a b : Bound α) : Bound α := if gt C b a then b else a

/-- `min(a, b)`: the first argument unless the second is smaller (CPython `min` tests `item < best`) -/
def min (a b : Bound α) : Bound α := if lt C b a then b else a

end Bound

variable {α : Type}

/-- A constructed `Clamp` (builtin_validators.py:47-68). -/
structure Clamp (α : Type) where
  ge : Bound α
  le : Bound α

/-- `Clamp.__init__` (builtin_validators.py:53-62) -/
def Clamp.init (C : Cmp α) (ge : Bound α := .least) (le : Bound α := .greatest) : Except Exc (Clamp α) :=
  if ge.gt C le then .error .valueError else .ok ⟨ge, le⟩

/-- `Clamp.inner` (builtin_validators.py:64-65) -/
def Clamp.inner (C : Cmp α) (c : Clamp α) (v : Bound α) : Bound α := (v.max C c.ge).min C c.le

/-- `Cyclic.inner` on Python integers (builtin_validators.py:86-91); Python's `%` is floor modulo, zero divisor raises
ZeroDivisionError. The constructor (78-85) accepts any bounds. -/
def cyclicInner (minimum maximum v : Int) : Except Exc Int :=
  if minimum ≤ v ∧ v < maximum then .ok v
  else
    let d := v - minimum
    if maximum - minimum = 0 then .error .zeroDivision
    else .ok (minimum + d.fmod (maximum - minimum))

/-- A constructed `Within` (builtin_validators.py:97-133). -/
structure Within (α : Type) where
  ge : Bound α
  lt : Bound α
  gEq : Bool
  lEq : Bool

/-- `Within.__init__` (builtin_validators.py:102-116) -/
def Within.init (C : Cmp α) (ge : Bound α := .least) (lt : Bound α := .greatest) (gEq : Bool := true)
    (lEq : Bool := false) : Except Exc (Within α) :=
  if ge.gt C lt || ((!gEq || !lEq) && ge.eq C lt) then .error .valueError else .ok ⟨ge, lt, gEq, lEq⟩

/-- `Within.assert_` (builtin_validators.py:118-133) -/
def Within.assert (C : Cmp α) (w : Within α) (v : Bound α) : Bool :=
  if w.gEq then
    if !(w.ge.le C v) then false
    else if w.lEq then (if !(w.lt.ge C v) then false else true)
    else (if !(w.lt.gt C v) then false else true)
  else
    if !(w.ge.lt C v) then false
    else if w.lEq then (if !(w.lt.ge C v) then false else true)
    else (if !(w.lt.gt C v) then false else true)

/-! ### Assertion validators (validators.py:32-102) -/

/-- `warn`: `False`, `True` or a logger -/
inductive WarnMode
  | off
  | on
  | logger
  deriving DecidableEq

/-- an `AssertValidation` instance (validators.py:37-44) -/
structure AssertCfg where
  /-- `err`: `some e` if it is an exception instance, `none` if it is a message -/
  err : Option Exc
  warn : WarnMode

variable {W : World}

/-- `AssertValidation._raise` with `_exc` (validators.py:46-67).  `emit` is the effect of `warnings.warn(exc)`
(first argument `false`) or `logger.warning(exc)` (`true`); it is user-configurable and may itself raise. -/
def AssertCfg.raise (c : AssertCfg) (emit : Bool → M W Unit) : M W Unit :=
  match c.warn with
  | .on => emit false
  | .logger => emit true
  | .off => match c.err with
    | some e => M.throw e
    | none => M.throw .valueError

/-- `AssertValidation.inner` (validators.py:77-83); `assert_` is the condition: for `AssertCallValidation` the truth
value of the user function (validators.py:101-102), for `Truth` `bool(v)`, for `Within` the interval test, for `FullMatch`
the regex match. -/
def AssertCfg.inner (c : AssertCfg) (emit : Bool → M W Unit) (assert_ : W.Obj → M W Bool) (v : W.Obj) : M W W.Obj :=
  M.bind (assert_ v) fun b =>
    if !b then M.bind (c.raise emit) fun _ => M.pure v else M.pure v

/-- `AssertCallValidation.assert_` (validators.py:101-102): the truth value of what the user function returns -/
def assertCall (func : W.Obj → M W W.Obj) (v : W.Obj) : M W Bool :=
  M.bind (func v) fun r => M.pure (W.truthy r)

/-- `Truth.assert_` (builtin_validators.py:161-162) -/
def truthAssert (v : W.Obj) : M W Bool := M.pure (W.truthy v)

end Records
