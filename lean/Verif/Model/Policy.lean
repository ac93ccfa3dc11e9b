import Verif.Model.Basic

/-!
# Number comparison policies

`geometrix/numeric/number_comparison_policy.hpp`.
-/

set_option linter.unusedSectionVars false

namespace Geometrix

/-- The interface of a number comparison policy: the five member functions of the policy classes in
`geometrix/numeric/number_comparison_policy.hpp:300-551`. -/
structure Cmp (K : Type*) where
  equals : K → K → Bool
  lt : K → K → Bool
  le : K → K → Bool
  gt : K → K → Bool
  ge : K → K → Bool

variable {K : Type*} [Field K] [LinearOrder K]

/-- `absolute_value`: `geometrix/utility/floating_point_comparison.hpp:23-26`. -/
def absoluteValue (v : K) : K := if v < 0 then -v else v

/-- `direct_comparison_policy`: `number_comparison_policy.hpp:449-486`. -/
def Cmp.direct : Cmp K where
  equals u v := decide (u = v)
  lt u v := decide (u < v)
  le u v := decide (u ≤ v)
  gt u v := decide (u > v)
  ge u v := decide (u ≥ v)

/-- `absolute_tolerance_comparison_policy`: `number_comparison_policy.hpp:390-434`. The tolerance
is any number; the code does not check its sign. -/
def Cmp.absolute (e : K) : Cmp K where
  equals u v := decide (absoluteValue (u - v) ≤ e)
  lt u v := decide (u - v < -e)
  le u v := decide (u - v ≤ e)
  gt u v := decide (u - v > e)
  ge u v := decide (u - v ≥ -e)

/-- `relative_tolerance_comparison_policy`: `number_comparison_policy.hpp:502-551`. -/
def Cmp.relative (e : K) : Cmp K where
  equals u v := decide (absoluteValue (u - v) ≤ e * (absoluteValue u + absoluteValue v + 1))
  lt u v := decide (u - v < -e * (absoluteValue u + absoluteValue v + 1))
  le u v := decide (u - v ≤ e * (absoluteValue u + absoluteValue v + 1))
  gt u v := decide (u - v > e * (absoluteValue u + absoluteValue v + 1))
  ge u v := decide (u - v ≥ -e * (absoluteValue u + absoluteValue v + 1))

/-- `equals_zero`: `geometrix/utility/floating_point_comparison.hpp:66-69`. -/
def equalsZero (v tol : K) : Bool := decide (absoluteValue v ≤ absoluteValue tol)

/-- `equals_within_tolerance` with the strong comparison type:
`geometrix/utility/floating_point_comparison.hpp:83-119`. Simplification: `safe_division`
(lines 39-62) only differs from a division when the quotient over- or underflows, which does not
happen in exact arithmetic; the callers below only reach it with both operands non zero. -/
def equalsWithinTolerance (u v tol : K) : Bool :=
  decide (absoluteValue (u - v) / absoluteValue v ≤ absoluteValue tol) &&
  decide (absoluteValue (u - v) / absoluteValue u ≤ absoluteValue tol)

/-- The tolerance test shared by all members of `fraction_tolerance_comparison_policy`:
`number_comparison_policy.hpp:314-324`. -/
def fractionEquals (e a u v : K) : Bool :=
  if u = 0 then equalsZero v a
  else if v = 0 then equalsZero u a
  else equalsWithinTolerance u v e

/-- `fraction_tolerance_comparison_policy`: `number_comparison_policy.hpp:300-375`, with fraction
tolerance `e` and absolute tolerance factor `a`. In the code each member repeats the case split of
`equals`; here they share `fractionEquals`. -/
def Cmp.fraction (e a : K) : Cmp K where
  equals u v := fractionEquals e a u v
  lt u v := decide (u < v) && !fractionEquals e a u v
  le u v := decide (u ≤ v) || fractionEquals e a u v
  gt u v := decide (u > v) && !fractionEquals e a u v
  ge u v := decide (u ≥ v) || fractionEquals e a u v

@[simp] theorem direct_equals (u v : K) : (Cmp.direct.equals u v = true) ↔ u = v := by
  simp [Cmp.direct]
@[simp] theorem direct_lt (u v : K) : (Cmp.direct.lt u v = true) ↔ u < v := by simp [Cmp.direct]
@[simp] theorem direct_le (u v : K) : (Cmp.direct.le u v = true) ↔ u ≤ v := by simp [Cmp.direct]
@[simp] theorem direct_gt (u v : K) : (Cmp.direct.gt u v = true) ↔ v < u := by simp [Cmp.direct]
@[simp] theorem direct_ge (u v : K) : (Cmp.direct.ge u v = true) ↔ v ≤ u := by simp [Cmp.direct]
@[simp] theorem direct_equals_f (u v : K) : (Cmp.direct.equals u v = false) ↔ u ≠ v := by
  simp [Cmp.direct]
@[simp] theorem direct_lt_f (u v : K) : (Cmp.direct.lt u v = false) ↔ v ≤ u := by
  simp [Cmp.direct]
@[simp] theorem direct_le_f (u v : K) : (Cmp.direct.le u v = false) ↔ v < u := by
  simp [Cmp.direct]
@[simp] theorem direct_gt_f (u v : K) : (Cmp.direct.gt u v = false) ↔ u ≤ v := by
  simp [Cmp.direct]
@[simp] theorem direct_ge_f (u v : K) : (Cmp.direct.ge u v = false) ↔ u < v := by
  simp [Cmp.direct]

end Geometrix
