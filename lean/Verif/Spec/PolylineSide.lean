import Verif.Spec.Polyline
import Verif.Spec.SegmentRange

/-!
# The sides of a polyline
-/

namespace Geometrix.Spec

variable {K : Type*} [Field K] [LinearOrder K] [IsStrictOrderedRing K]

/-- The polyline goes through its point `Q`, or ends there: `back` is the direction in which it comes from, seen from
`Q`, and `out` the direction in which it goes on. At the two ends of the polyline it is thought to go straight on. -/
def PassesThrough (pts : List (P2 K)) (Q back out : P2 K) : Prop :=
  ∃ i A B, IsEdge pts i A B ∧
    ((InsideSegment A B Q ∧ back = A - B ∧ out = B - A) ∨
      (Q = B ∧ back = A - B ∧ ∃ C, pts[i + 2]? = some C ∧ out = C - B) ∨
      (Q = B ∧ back = A - B ∧ pts[i + 2]? = none ∧ out = B - A) ∨
      (Q = A ∧ back = A - B ∧ i = 0 ∧ out = B - A))

/-- `v` points strictly into the sector that goes counterclockwise from `a` to `b`. -/
def InSector (a b v : P2 K) : Prop :=
  (0 < cross a b ∧ InCone a b v) ∨ (cross a b < 0 ∧ ¬ InConeOf 0 b a v) ∨ (cross a b = 0 ∧ 0 < cross a v)

end Geometrix.Spec
