import Verif.Spec.PointSequence
import Verif.Spec.Geometry

/-!
# Distance of a point from a line
-/

namespace Geometrix.Spec

/-- `m` is the least distance of `P` from the points of the line through `A` and `B`. -/
def IsLineDistance (A B P : P2 ℝ) (m : ℝ) : Prop :=
  (∃ Q, OnLine A B Q ∧ dist P Q = m) ∧ ∀ Q, OnLine A B Q → m ≤ dist P Q

/-- Some point of the line through `A` and `B` is within `e` of `P`. -/
def NearLine (e : ℝ) (A B P : P2 ℝ) : Prop := ∃ Q, OnLine A B Q ∧ dist P Q ≤ e

/-- Some point of the segment from `A` to `B` is within `e` of `P`. -/
def NearSegment (e : ℝ) (A B P : P2 ℝ) : Prop := ∃ Q, OnSegment A B Q ∧ dist P Q ≤ e

end Geometrix.Spec
