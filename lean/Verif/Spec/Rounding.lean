import Mathlib.Algebra.Order.Floor.Ring
import Mathlib.Data.Int.Log

/-!
# Rounding of floating point numbers
-/

set_option linter.unusedSectionVars false

namespace Geometrix.Spec

variable {K : Type*} [Field K] [LinearOrder K]

/-- What is used of a rounding function: it keeps the order, `-x` is rounded like `x`, and the relative error is at most
`u`. -/
structure RoundsWithin (u : K) (fl : K → K) : Prop where
  mono : Monotone fl
  odd : ∀ x, fl (-x) = -fl x
  near : ∀ x, |fl x - x| ≤ u * |x|

variable [FloorRing K]

/-- The nearest integer; of two that are equally near, the even one. -/
def roundEven (y : K) : ℤ :=
  if Int.fract y < 1 / 2 then ⌊y⌋
  else if 1 / 2 < Int.fract y then ⌊y⌋ + 1
  else if Even ⌊y⌋ then ⌊y⌋ else ⌊y⌋ + 1

/-- Binary floating point numbers with `p` bits, rounded to nearest as in IEEE 754, without bounds for the exponent. The
type `double` has 53 bits. -/
def roundBits (p : Nat) (x : K) : K :=
  if x = 0 then 0
  else (roundEven (x / 2 ^ (Int.log 2 |x| - (p - 1))) : K) * 2 ^ (Int.log 2 |x| - (p - 1))

end Geometrix.Spec
