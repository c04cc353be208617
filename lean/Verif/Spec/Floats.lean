import Mathlib.Data.Rat.Floor
import Mathlib.Algebra.Order.Field.Rat
/-
Which rational numbers are floats (IEEE 754 binary64 without its upper limit), stated without reference to rounding.
-/
namespace Records.Spec

/-- `x` is a float: an integer of at most 53 bits times a power of two that is at least 2^-1074 -/
def IsFloat (x : Rat) : Prop := ∃ m e : Int, |m| < 2 ^ 53 ∧ -1074 ≤ e ∧ x = m * (2 : Rat) ^ e

/-- `r` is the float nearest to `x` -/
def Nearest (x r : Rat) : Prop := IsFloat r ∧ ∀ y, IsFloat y → |x - r| ≤ |x - y|

end Records.Spec
