import Verif.Spec.Box

/-!
# Polylines and polygons as sets of points
-/

namespace Geometrix.Spec

variable {K : Type*} [Field K] [LinearOrder K]

/-- Edge number `i` of a polyline goes from vertex `i` to vertex `i + 1`. -/
def IsEdge (pts : List (P2 K)) (i : Nat) (A B : P2 K) : Prop :=
  pts[i]? = some A ∧ pts[i + 1]? = some B

/-- Edge number `i` of a polygon goes from vertex `i` to vertex `i + 1`, and the last edge back to
the first vertex. -/
def IsPolygonEdge (pts : List (P2 K)) (i : Nat) (A B : P2 K) : Prop :=
  pts[i]? = some A ∧ pts[(i + 1) % pts.length]? = some B

/-- `P` is a point of the polyline. -/
def OnPolyline (pts : List (P2 K)) (P : P2 K) : Prop :=
  ∃ i A B, IsEdge pts i A B ∧ OnSegment A B P

/-- `P` is a point of the boundary of the polygon. -/
def OnBoundary (pts : List (P2 K)) (P : P2 K) : Prop :=
  ∃ i A B, IsPolygonEdge pts i A B ∧ OnSegment A B P

/-- The squared distances between the points of two sets have the minimum `m`. -/
def IsMinDist (S T : P2 K → Prop) (m : K) : Prop :=
  IsMinOver (fun PQ : P2 K × P2 K => S PQ.1 ∧ T PQ.2) (fun PQ => sqDist PQ.1 PQ.2) m

/-- `c` is a point of the set, and no point of the set is closer to `p`. -/
def IsClosest (S : P2 K → Prop) (p c : P2 K) : Prop :=
  S c ∧ ∀ Q, S Q → sqDist p c ≤ sqDist p Q

end Geometrix.Spec
