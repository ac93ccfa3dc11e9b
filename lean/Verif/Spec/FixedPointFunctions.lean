import Verif.Spec.FixedPoint

/-!
# Limits of a number type
-/

namespace Geometrix.Spec

/-- The numbers of the fixed point type with the format `F` and the denominator `d`. -/
def fixNumbers (F : IntTy) (d : Nat) : Set ℚ := {x | ∃ a, F.Has a ∧ x = fixVal d a}

/-- `x` is the next larger number of the set after 1, less 1: what `std::numeric_limits::epsilon` stands for. -/
def IsEpsilon (S : Set ℚ) (x : ℚ) : Prop := 1 ∈ S ∧ 1 + x ∈ S ∧ 0 < x ∧ ∀ y ∈ S, 1 < y → 1 + x ≤ y

/-- `x` is the smallest positive number of the set: what `std::numeric_limits::min` and `denorm_min` stand for if the type is not an integer
type. -/
def IsSmallestPositive (S : Set ℚ) (x : ℚ) : Prop := x ∈ S ∧ 0 < x ∧ ∀ y ∈ S, 0 < y → x ≤ y

/-- `x` is the largest number of the set. -/
def IsLargest (S : Set ℚ) (x : ℚ) : Prop := x ∈ S ∧ ∀ y ∈ S, y ≤ x

/-- `x` is the least number of the set: what `std::numeric_limits::lowest` stands for. -/
def IsLowest (S : Set ℚ) (x : ℚ) : Prop := x ∈ S ∧ ∀ y ∈ S, x ≤ y

end Geometrix.Spec
