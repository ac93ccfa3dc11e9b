import Verif.Spec.Angle
import Verif.Model.Basic3

/-!
# Unit vectors and bisectors
-/

namespace Geometrix.Spec

/-- A vector of length one. -/
def IsUnitVec (v : P2 ℝ) : Prop := v.x ^ 2 + v.y ^ 2 = 1

/-- A vector of length one in space. -/
def IsUnitVec3 (v : P3 ℝ) : Prop := v.x ^ 2 + v.y ^ 2 + v.z ^ 2 = 1

/-- `b` is the unit vector that halves the counter-clockwise angle from `lo` to `hi`. -/
def HalvesCcw (lo hi b : P2 ℝ) : Prop :=
  IsUnitVec b ∧ ∃ θ r : ℝ, IsCcwAngle lo hi θ ∧ 0 < r ∧ b = r • turn (θ / 2) lo

/-- The square of the area `‖a‖ ‖b‖ sin` of the parallelogram spanned by two vectors of space. -/
def parallelogramAreaSq (a b : P3 ℝ) : ℝ :=
  (a.x ^ 2 + a.y ^ 2 + a.z ^ 2) * (b.x ^ 2 + b.y ^ 2 + b.z ^ 2) -
    (a.x * b.x + a.y * b.y + a.z * b.z) ^ 2

end Geometrix.Spec
