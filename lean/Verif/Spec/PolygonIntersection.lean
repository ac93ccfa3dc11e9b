import Verif.Spec.PolylineIntersection

/-!
# Sides of a polygon that a segment meets
-/

namespace Geometrix.Spec

variable {K : Type*} [Field K] [LinearOrder K]

/-- The segment meets side number `i` of the polygon. -/
def MeetsSide (A B : P2 K) (poly : List (P2 K)) (i : Nat) : Prop :=
  ∃ C D P, IsPolygonEdge poly i C D ∧ Common A B C D P

end Geometrix.Spec
