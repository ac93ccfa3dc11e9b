import Verif.Spec.Convex
import Verif.Spec.Obb

/-!
# Convex figures at rest and in motion
-/

namespace Geometrix.Spec

variable {K : Type*} [Field K] [LinearOrder K]

/-- Any three vertices in the order of the list make a right turn: the polygon is strictly convex and clockwise. -/
def StrictlyConvexCw (poly : List (P2 K)) : Prop :=
  ∀ (i j k : Nat) (a b c : P2 K), i < j → j < k → poly[i]? = some a → poly[j]? = some b → poly[k]? = some c →
    area2 a b c < 0

/-- A strictly convex polygon, its vertices listed in one of the two orders. -/
def ConvexPolygon (poly : List (P2 K)) : Prop :=
  2 < poly.length ∧ (StrictlyConvex poly ∨ StrictlyConvexCw poly)

/-- A point of a convex polygon: a point of a triangle of vertices. -/
def InConvex (poly : List (P2 K)) (X : P2 K) : Prop :=
  ∃ A ∈ poly, ∃ B ∈ poly, ∃ C ∈ poly, InTriangle A B C X

/-- The vertex with index `m` is one of those furthest in the direction `d`. -/
def IsExtreme (poly : List (P2 K)) (d : P2 K) (m : Nat) : Prop :=
  ∃ p, poly[m]? = some p ∧ ∀ q ∈ poly, dot d q ≤ dot d p

/-- A parallelogram. -/
def IsParallelogram (poly : List (P2 K)) : Prop :=
  ∃ A u v : P2 K, poly = [A, A + u, A + u + v, A + v]

/-- Two figures that move with the velocities `v1` and `v2` share a point at the time `t`. -/
def MeetAt (F G : P2 K → Prop) (v1 v2 : P2 K) (t : K) : Prop :=
  ∃ X, F (X - t • v1) ∧ G (X - t • v2)

/-- The answer about two moving figures and the times up to `tmax`: whether they meet and, if so, the first and the
last time at which they meet (the last one without regard to `tmax`, and absent if there is none). -/
def CorrectMoving (F G : P2 K → Prop) (v1 v2 : P2 K) (tmax : K) (hit : Bool) (tfirst : K) (tlast : Option K) : Prop :=
  (hit = true ↔ ∃ t, 0 ≤ t ∧ t ≤ tmax ∧ MeetAt F G v1 v2 t) ∧
  (hit = true → 0 ≤ tfirst ∧ ∀ t, 0 ≤ t → (MeetAt F G v1 v2 t ↔ tfirst ≤ t ∧ ∀ l, tlast = some l → t ≤ l))

end Geometrix.Spec
