import Verif.Spec.Polyline
import Verif.Spec.PolylineSplit

/-!
# Positions along the border of a polygon
-/

namespace Geometrix.Spec

/-- The first side of the polygon that contains the point has the number `i`. -/
def FirstSide {K : Type*} [Field K] [LinearOrder K] (P : List (P2 K)) (p : P2 K) (i : Nat) : Prop :=
  (∃ A B, IsPolygonEdge P i A B ∧ OnSegment A B p) ∧
    ∀ j < i, ∀ A B, IsPolygonEdge P j A B → ¬ OnSegment A B p

/-- Side number `i` is the first of the sides that are closest to the point. -/
def FirstClosestSide {K : Type*} [Field K] [LinearOrder K] (P : List (P2 K)) (p : P2 K) (i : Nat) : Prop :=
  ∃ A B Q, IsPolygonEdge P i A B ∧ OnSegment A B Q ∧
    ∀ j C D X, IsPolygonEdge P j C D → OnSegment C D X →
      sqDist p Q ≤ sqDist p X ∧ (j < i → sqDist p Q < sqDist p X)

/-- Who goes from `cur` towards vertex number `j` of the polygon and from there to the vertices `next j`,
`next (next j)` and so on, each time straight, is at `X` after the length `d`. -/
inductive Ahead (P : List (P2 ℝ)) (next : Nat → Nat) : Nat → P2 ℝ → ℝ → P2 ℝ → Prop
  | stop {j cur B X} : P[j]? = some B → OnSegment cur B X → Ahead P next j cur (dist cur X) X
  | pass {j cur B d X} : P[j]? = some B → Ahead P next (next j) B d X → Ahead P next j cur (dist cur B + d) X

end Geometrix.Spec
