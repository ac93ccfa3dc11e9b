import Verif.Spec.FixedPoint
import Verif.Model.FixedPointMixed

/-!
# Comparing a fixed point number with a plain number
-/

namespace Geometrix.Spec

/-- The twelve comparisons of the fixed point number with raw value `a` with the plain number that was converted
to `c` answer what the numbers `x` (fixed point) and `v` (plain) say. -/
def ComparesAs (a : Int) (c : Res Int) (x v : ℚ) : Prop :=
  (mixLess a c = .ok (decide (x < v)) ∧ mixGreater a c = .ok (decide (x > v)) ∧ mixEq a c = .ok (decide (x = v)) ∧
    mixLe a c = .ok (decide (x ≤ v)) ∧ mixGe a c = .ok (decide (x ≥ v)) ∧ mixNe a c = .ok (decide (x ≠ v))) ∧
  (numLess c a = .ok (decide (v < x)) ∧ numGreater c a = .ok (decide (v > x)) ∧ numEq c a = .ok (decide (v = x)) ∧
    numLe c a = .ok (decide (v ≤ x)) ∧ numGe c a = .ok (decide (v ≥ x)) ∧ numNe c a = .ok (decide (v ≠ x)))

end Geometrix.Spec
