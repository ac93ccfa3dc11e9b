import Verif.Spec.Geometry
import Verif.Spec.Renumber

/-!
# Additional vertices on the sides
-/

namespace Geometrix.Spec

variable {K : Type*} [Field K] [LinearOrder K]

/-- The polygon `m` is the polygon `l` with a point of one of its sides, which may be an end of it, as an additional vertex. -/
def SplitSide (l m : List (P2 K)) : Prop :=
  ∃ (A B M : P2 K) (r : List (P2 K)), OnSegment A B M ∧ SameCycle (A :: B :: r) l ∧ SameCycle (A :: M :: B :: r) m

/-- The polyline `m` is the polyline `l` with a point of one of its edges, which may be an end of it, as an additional point. -/
def SplitEdge (l m : List (P2 K)) : Prop :=
  ∃ (a : List (P2 K)) (A B M : P2 K) (r : List (P2 K)), OnSegment A B M ∧ l = a ++ A :: B :: r ∧ m = a ++ A :: M :: B :: r

end Geometrix.Spec
