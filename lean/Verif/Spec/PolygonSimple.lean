import Verif.Spec.PolylineIntersection

/-!
# Simple polygons
-/

namespace Geometrix.Spec

variable {K : Type*} [Field K] [LinearOrder K]

/-- No edge of the polygon has length zero. -/
def ProperPolygon (P : List (P2 K)) : Prop := ∀ i A B, IsPolygonEdge P i A B → A ≠ B

/-- Two different edges have a point in common only if one follows the other, and then only the vertex
between them. -/
def SimplePolygon (P : List (P2 K)) : Prop :=
  ∀ i j A B C D X, i ≠ j → IsPolygonEdge P i A B → IsPolygonEdge P j C D → Common A B C D X →
    (j = (i + 1) % P.length ∧ X = B) ∨ (i = (j + 1) % P.length ∧ X = D)

end Geometrix.Spec
