import Verif.Spec.PointSequence
import Verif.Spec.Geometry

/-!
# Cutting a polyline at a position
-/

namespace Geometrix.Spec

/-- The polylines `a` and `b` are what remains when `poly` is cut in two: the last point of `a` is the
first of `b`, and it is either a vertex of `poly` or lies inside the edge where the two parts meet. -/
def IsCut (poly a b : List (P2 ℝ)) : Prop :=
  ∃ before after S, a = before ++ [S] ∧ b = S :: after ∧
    (poly = before ++ S :: after ∨
      ∃ A B, before.getLast? = some A ∧ after.head? = some B ∧ poly = before ++ after ∧
        InsideSegment A B S)

/-- `S` is the point of edge `i` of `poly` at the length `before` from the start and `after` from the
end of the polyline. -/
def AtLength (poly : List (P2 ℝ)) (i : Nat) (S : P2 ℝ) (before after : ℝ) : Prop :=
  ∃ l A B r, poly = l ++ A :: B :: r ∧ l.length = i ∧ OnSegment A B S ∧
    chainSum dist (l ++ [A, S]) = before ∧ chainSum dist (S :: B :: r) = after

end Geometrix.Spec
