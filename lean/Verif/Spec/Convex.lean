import Verif.Spec.PointInPolygon
import Verif.Spec.Polyline
import Verif.Model.Basic3

/-!
# Convex polygons and triangles
-/

namespace Geometrix.Spec

variable {K : Type*} [Field K] [LinearOrder K]

/-- Any three vertices in the order of the list make a left turn: the polygon is strictly convex and
counterclockwise. -/
def StrictlyConvex (poly : List (P2 K)) : Prop :=
  ∀ (i j k : Nat) (a b c : P2 K), i < j → j < k → poly[i]? = some a → poly[j]? = some b → poly[k]? = some c →
    0 < area2 a b c

/-- The point is on the left of every side, or on it. -/
def InsideAllSides (poly : List (P2 K)) (p : P2 K) : Prop :=
  ∀ e ∈ sides poly, 0 ≤ area2 e.1 e.2 p

/-- A side of one polygon crosses a side of the other in `X`, which is an end of neither, and they are not parallel. -/
def SidesCross (p q : List (P2 K)) (X : P2 K) : Prop :=
  ∃ (i j : Nat) (A B C D : P2 K) (s t : K), IsPolygonEdge p i A B ∧ IsPolygonEdge q j C D ∧ 0 < s ∧ s < 1 ∧ 0 < t ∧ t < 1 ∧
    X = A + s • (B - A) ∧ X = C + t • (D - C) ∧ area2 A B D ≠ 0

/-- A point of the triangle with these corners. -/
def InTriangle (A B C p : P2 K) : Prop :=
  ∃ a b c : K, 0 ≤ a ∧ 0 ≤ b ∧ 0 ≤ c ∧ a + b + c = 1 ∧ p = a • A + b • B + c • C

/-- A point of the triangle with these corners in space. -/
def InTriangle3 (A B C p : P3 K) : Prop :=
  ∃ a b c : K, 0 ≤ a ∧ 0 ≤ b ∧ 0 ≤ c ∧ a + b + c = 1 ∧ p = a • A + b • B + c • C

/-- A point of the plane through three points. -/
def InPlane3 (A B C p : P3 K) : Prop :=
  ∃ a b c : K, a + b + c = 1 ∧ p = a • A + b • B + c • C

/-- A point of the line through two points. -/
def OnLine3 (A B p : P3 K) : Prop := ∃ t : K, p = (1 - t) • A + t • B

end Geometrix.Spec
