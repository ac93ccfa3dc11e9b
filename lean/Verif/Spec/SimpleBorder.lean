import Verif.Spec.PolygonSimple

/-!
# The orientation of a simple polygon
-/

namespace Geometrix.Spec

variable {K : Type*} [Field K] [LinearOrder K]

/-- `v` is the lowest vertex, and the leftmost of these if there are several, and `u` and `w` are the vertices before and
after it. -/
def Bottom (poly : List (P2 K)) (u v w : P2 K) : Prop :=
  (∃ i, IsPolygonEdge poly i u v ∧ IsPolygonEdge poly ((i + 1) % poly.length) v w) ∧
    ∀ x ∈ poly, v.y < x.y ∨ v.y = x.y ∧ v.x ≤ x.x

/-- The polygon turns to the left at its lowest vertex. -/
def BottomLeftTurn (poly : List (P2 K)) : Prop := ∃ u v w, Bottom poly u v w ∧ 0 < area2 u v w

/-- The polygon turns to the right at its lowest vertex. -/
def BottomRightTurn (poly : List (P2 K)) : Prop := ∃ u v w, Bottom poly u v w ∧ area2 u v w < 0

end Geometrix.Spec
