import Verif.Model.Basic

/-!
# Geometric notions in which the properties are stated

Only the coordinates of points are used here, none of the model's algorithms.
-/

namespace Geometrix.Spec

variable {K : Type*} [Field K] [LinearOrder K]

/-- `P` is a point of the closed segment from `A` to `B`. -/
def OnSegment (A B P : P2 K) : Prop :=
  ∃ t : K, 0 ≤ t ∧ t ≤ 1 ∧ P = A + t • (B - A)

/-- `P` is a point strictly inside the segment from `A` to `B`. -/
def InsideSegment (A B P : P2 K) : Prop :=
  ∃ t : K, 0 < t ∧ t < 1 ∧ P = A + t • (B - A)

/-- `P` is a point of the line through `A` and `B`. -/
def OnLine (A B P : P2 K) : Prop :=
  ∃ t : K, P = A + t • (B - A)

/-- `P` is a point of the ray from `O` in direction `v`. -/
def OnRay (O v P : P2 K) : Prop :=
  ∃ t : K, 0 ≤ t ∧ P = O + t • v

/-- Squared distance in coordinates. -/
def sqDist (A B : P2 K) : K := (A.x - B.x) ^ 2 + (A.y - B.y) ^ 2

/-- Twice the signed area of the triangle `A B C`, in coordinates. -/
def area2 (A B C : P2 K) : K := (B.x - A.x) * (C.y - A.y) - (B.y - A.y) * (C.x - A.x)

/-- `u` and `v` point in the same direction. -/
def SameDirection (u v : P2 K) : Prop := ∃ r : K, 0 < r ∧ v = r • u

/-- `c` lies in the open cone spanned by `a` and `b` (less than a half turn). -/
def InCone (a b c : P2 K) : Prop := ∃ s t : K, 0 < s ∧ 0 < t ∧ c = s • a + t • b

end Geometrix.Spec
