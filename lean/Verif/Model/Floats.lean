import Verif.Model.Base
/-
Python floats.  A finite float is the rational number it denotes; every float operation is the exact operation followed by
the rounding of IEEE 754 binary64 (round to nearest, ties to even, gradual underflow).  Not modelled: overflow to infinity (the
magnitudes of all results are taken to stay below 2^1024), infinities, NaN, and the sign of zero.

With `Cyclic` (records/fillers/builtin_validators.py:71-94) on floats.
-/
namespace Records

/-- absolute value -/
def ratAbs (x : Rat) : Rat := if x < 0 then -x else x

/-- a power of two -/
def pow2 (e : Int) : Rat := if 0 ≤ e then ((2 ^ e.toNat : Nat) : Rat) else 1 / ((2 ^ (-e).toNat : Nat) : Rat)

/-- the exponent of the leading bit of `x` (-1 for zero) -/
def leadExp (x : Rat) : Int :=
  let e : Int := (x.num.natAbs.log2 : Int) - (x.den.log2 : Int)
  if pow2 e ≤ ratAbs x then e else e - 1

/-- the exponent of the last of the 53 significant bits of a number of the magnitude of `x` (at least -1074) -/
def ulpExp (x : Rat) : Int := if leadExp x - 52 < -1074 then -1074 else leadExp x - 52

/-- the nearest integer, the even one of two equally near -/
def rint (x : Rat) : Int :=
  if x - x.floor < 1 / 2 then x.floor
  else if 1 / 2 < x - x.floor then x.floor + 1
  else if x.floor % 2 = 0 then x.floor else x.floor + 1

/-- the float nearest to `x` (IEEE 754 binary64, ties to even) -/
def f64 (x : Rat) : Rat := rint (x / pow2 (ulpExp x)) * pow2 (ulpExp x)

/-- the integer part, towards zero -/
def truncRat (x : Rat) : Int := if 0 ≤ x then x.floor else x.ceil

/-- C `fmod(x, y)` for `y ≠ 0`, which is exact and has the sign of `x` -/
def fmod (x y : Rat) : Rat := x - truncRat (x / y) * y

/-- float `x % y` (CPython `float_rem`): `fmod`, to which `y` is added if it is not zero and has the other sign -/
def floatMod (x y : Rat) : Except Exc Rat :=
  if y = 0 then .error .zeroDivision
  else
    let m := fmod x y
    if m = 0 then .ok 0
    else if decide (y < 0) != decide (m < 0) then .ok (f64 (m + y)) else .ok m

/-- `math.isclose(a, b)` with default tolerances (`rel_tol=1e-09, abs_tol=0.0`), as CPython computes it on floats -/
def isclose (a b : Rat) : Bool :=
  let relTol := f64 (1 / 1000000000)
  let diff := ratAbs (f64 (b - a))
  decide (a = b) || decide (diff ≤ ratAbs (f64 (relTol * b))) || decide (diff ≤ ratAbs (f64 (relTol * a))) ||
    decide (diff ≤ 0)

/-- `Cyclic.inner` on floats (builtin_validators.py:86-91); the constructor (77-84) stores the bounds as they are, and the
token is its own callback (93-94) -/
def cyclicFloat (minimum maximum v : Rat) : Except Exc Rat :=
  if minimum ≤ v ∧ v < maximum then .ok v
  else
    match floatMod (f64 (v - minimum)) (f64 (maximum - minimum)) with
    | .error e => .error e
    | .ok d => .ok (f64 (minimum + d))

end Records
