import Verif.Spec.Geometry

/-!
# Cones
-/

namespace Geometrix.Spec

variable {K : Type*} [Field K] [LinearOrder K]

/-- A point of the cone with the apex `O` between the rays in the directions `lo` and `hi`. -/
def InConeOf (O lo hi P : P2 K) : Prop := ∃ a b : K, 0 ≤ a ∧ 0 ≤ b ∧ P = O + a • lo + b • hi

end Geometrix.Spec
