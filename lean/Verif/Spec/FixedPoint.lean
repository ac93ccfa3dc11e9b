import Verif.Model.FixedPoint
import Mathlib.Algebra.Order.Ring.Abs
import Mathlib.Algebra.Ring.Parity
import Mathlib.Algebra.Order.Field.Rat
import Mathlib.Data.Rat.Cast.Order

/-!
# Fixed point numbers and rounding
-/

namespace Geometrix

/-- The denominator of a scale. -/
def Scale.denom : Scale → Nat
  | .generic r e => r ^ e
  | .genericRun r e => r ^ e
  | .binary e => 2 ^ e
  | .binaryRun e => 2 ^ e

/-- The preconditions on a scale used with a format: the shift is less than the width, the power fits. -/
def ScaleFits (s : Scale) (F : IntTy) : Prop :=
  match s with
  | .generic r e => 0 < r ∧ IntTy.i64.Has (r ^ e)
  | .genericRun r e => 0 < r ∧ IntTy.i32.Has (r ^ e)
  | .binary e => e < F.promote.bits
  | .binaryRun e => e < F.promote.bits

end Geometrix

namespace Geometrix.Spec

/-- The number that a raw value with denominator `d` stands for. -/
def fixVal (d : Nat) (a : Int) : ℚ := (a : ℚ) / (d : ℚ)

/-- `n` is the integer nearest to `x`; of two that are equally near, the even one. -/
def IsNearestEven {K : Type*} [Field K] [LinearOrder K] (x : K) (n : Int) : Prop :=
  (∀ m : Int, |x - n| ≤ |x - m|) ∧ (∀ m : Int, m ≠ n → |x - m| = |x - n| → Even n)

/-- `n` is the largest integer not above `x`. -/
def IsFloor {K : Type*} [Field K] [LinearOrder K] (x : K) (n : Int) : Prop := (n : K) ≤ x ∧ x < n + 1

/-- `n` is the least integer not below `x`. -/
def IsCeil {K : Type*} [Field K] [LinearOrder K] (x : K) (n : Int) : Prop := (n : K) - 1 < x ∧ x ≤ n

/-- `n` is `x` without its fraction. -/
def IsTrunc {K : Type*} [Field K] [LinearOrder K] (x : K) (n : Int) : Prop :=
  (0 ≤ x → IsFloor x n) ∧ (x ≤ 0 → IsCeil x n)

end Geometrix.Spec
