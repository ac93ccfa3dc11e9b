import Verif.Spec.PointSequence
import Mathlib.Algebra.BigOperators.Group.Finset.Basic

/-!
# Curvature of a polyline
-/

namespace Geometrix.Spec

/-- The curvature of the circle through three points, positive for a left turn: four times the area of the triangle
divided by the product of the sides. -/
noncomputable def bend (a b c : P2 ℝ) : ℝ := 2 * triangleArea2 a b c / (dist a b * dist b c * dist a c)

/-- Half of the length of the two edges at `b`. -/
noncomputable def halfEdges (a b c : P2 ℝ) : ℝ := (dist a b + dist b c) / 2

/-- The value of `f` for the vertex `j` of a polyline and its neighbours; zero for the ends and for indices beyond. -/
def atVertex (f : P2 ℝ → P2 ℝ → P2 ℝ → ℝ) (poly : List (P2 ℝ)) : Nat → ℝ
  | 0 => 0
  | j + 1 =>
    match poly[j]?, poly[j + 1]?, poly[j + 2]? with
    | some a, some b, some c => f a b c
    | _, _, _ => 0

/-- Three consecutive vertices of the polyline are always distinct. -/
def NoFolds (poly : List (P2 ℝ)) : Prop :=
  ∀ (j : Nat) (a b c : P2 ℝ), poly[j]? = some a → poly[j + 1]? = some b → poly[j + 2]? = some c →
    a ≠ b ∧ b ≠ c ∧ a ≠ c

/-- The pieces are what remains when the polyline is cut at some of its inner vertices: they have at least two points,
each ends with the first point of the next, and joined together they are the polyline. -/
def IsVertexSplit {α : Type*} (poly : List α) (pieces : List (List α)) : Prop :=
  (∀ p ∈ pieces, 2 ≤ p.length) ∧ pieces.IsChain (fun p q => p.getLast? = q.head?) ∧
    pieces.headD [] ++ (pieces.tail.map List.tail).flatten = poly

/-- The index in the polyline of the first point of a piece, from the pieces before it. -/
def startIndex {α : Type*} (before : List (List α)) : Nat := (before.map fun p => p.length - 1).sum

end Geometrix.Spec
