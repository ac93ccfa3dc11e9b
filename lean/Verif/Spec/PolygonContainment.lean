import Verif.Spec.PointInPolygon
import Verif.Spec.PolygonSimple

/-!
# Points of a closed polygon
-/

namespace Geometrix.Spec

variable {K : Type*} [Field K] [LinearOrder K]

/-- `X` is on the border of the polygon, or inside it by the parity rule. -/
def InClosed (poly : List (P2 K)) (X : P2 K) : Prop := OnBoundary poly X ∨ Odd (sideCount poly (CrossesRay X))

end Geometrix.Spec
