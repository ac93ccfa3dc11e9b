import Verif.Spec.PolylineIntersection

/-!
# Simple polylines
-/

namespace Geometrix.Spec

variable {K : Type*} [Field K] [LinearOrder K]

/-- Two different edges have a point in common only if one follows the other, and then only the vertex between them. -/
def SimplePolyline (poly : List (P2 K)) : Prop :=
  ∀ i j A B C D X, i < j → IsEdge poly i A B → IsEdge poly j C D → Common A B C D X → j = i + 1 ∧ X = B

/-- The edge `i` and the later edge `j` have a point in common other than the vertex between them. -/
def SelfMeet (poly : List (P2 K)) (i j : Nat) : Prop :=
  ∃ A B C D X, i < j ∧ IsEdge poly i A B ∧ IsEdge poly j C D ∧ Common A B C D X ∧ ¬ (j = i + 1 ∧ X = B)

/-- The polyline goes straight on at no vertex. -/
def NoStraightVertex (poly : List (P2 K)) : Prop :=
  ∀ i A B C, IsEdge poly i A B → IsEdge poly (i + 1) B C → ¬ OnSegment A C B

end Geometrix.Spec
