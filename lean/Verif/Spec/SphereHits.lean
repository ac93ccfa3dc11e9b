import Verif.Spec.Sphere
import Verif.Spec.Box
import Verif.Spec.PolylineIntersection

/-!
# First meetings
-/

namespace Geometrix.Spec

/-- `o` is the first of the allowed times at which something holds, `none` if there is no such time. -/
def IsFirst (allowed holds : ℝ → Prop) : Option ℝ → Prop
  | none => ∀ t, allowed t → ¬ holds t
  | some t => allowed t ∧ holds t ∧ ∀ t', allowed t' → holds t' → t ≤ t'

/-- `P` is in the closed ball with centre `c` and radius `r`. -/
def InBall3 (c : P3 ℝ) (r : ℝ) (P : P3 ℝ) : Prop := sqDist3 P c ≤ r ^ 2

/-- Edge number `i` of the polyline has a point on the circle. -/
def EdgeOnCircle (c : P2 ℝ) (r : ℝ) (poly : List (P2 ℝ)) (i : Nat) : Prop :=
  ∃ A B P, IsEdge poly i A B ∧ OnSegment A B P ∧ OnCircle c r P

/-- The intended meaning of an answer for two moving discs: the time is the first at which the discs have a common
point, and the point is on both circles at that time. -/
def IsMovingDiscsAnswer (c0 : P2 ℝ) (r0 : ℝ) (c1 : P2 ℝ) (r1 : ℝ) (v0 v1 : P2 ℝ)
    (o : Option (ℝ × Option (P2 ℝ))) : Prop :=
  IsFirst (0 ≤ ·) (fun t => ∃ P, InDisc (c0 + t • v0) r0 P ∧ InDisc (c1 + t • v1) r1 P) (o.map Prod.fst) ∧
  ∀ t q, o = some (t, q) → ∃ Q, q = some Q ∧ OnCircle (c0 + t • v0) r0 Q ∧ OnCircle (c1 + t • v1) r1 Q

/-- `P` is on the line with the normal `n` at the distance `d` from the origin. -/
def OnNormalLine (n : P2 ℝ) (d : ℝ) (P : P2 ℝ) : Prop := P.x * n.x + P.y * n.y = d

/-- The disc has a point of the set. -/
def DiscMeets (S : P2 ℝ → Prop) (c : P2 ℝ) (r : ℝ) : Prop := ∃ P, S P ∧ InDisc c r P

/-- The disc has a point of the set in its interior. -/
def DiscOverlaps (S : P2 ℝ → Prop) (c : P2 ℝ) (r : ℝ) : Prop := ∃ P, S P ∧ sqDist P c < r ^ 2

end Geometrix.Spec
