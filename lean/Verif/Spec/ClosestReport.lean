import Verif.Spec.Polyline
import Verif.Model.PolylineDistance

/-!
# What a report of closest points means
-/

namespace Geometrix.Spec

variable {K : Type*} [Field K] [LinearOrder K]

/-- What the closest point functions should report about two polylines or boundaries with the given
edges: indices of edges, parameters and points on them, and their squared distance. -/
def IsClosestReport (Edge1 Edge2 : Nat → P2 K → P2 K → Prop) (r : PolyPolyClosest K) : Prop :=
  ∃ A B C D, Edge1 r.i1 A B ∧ Edge2 r.i2 C D ∧
    (0 ≤ r.pair.s ∧ r.pair.s ≤ 1 ∧ r.pair.c1 = A + r.pair.s • (B - A)) ∧
    (0 ≤ r.pair.t ∧ r.pair.t ≤ 1 ∧ r.pair.c2 = C + r.pair.t • (D - C)) ∧
    r.pair.d2 = sqDist r.pair.c1 r.pair.c2

end Geometrix.Spec
