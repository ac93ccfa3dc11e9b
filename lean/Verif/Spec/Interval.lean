import Verif.Model.Interval

/-!
# The points of an interval
-/

namespace Geometrix.Spec

variable {K : Type*} [LinearOrder K]

/-- The number is in the interval. -/
def InInterval (I : Interval K) (x : K) : Prop :=
  (if I.leftClosed then I.lower ≤ x else I.lower < x) ∧
  (if I.rightClosed then x ≤ I.upper else x < I.upper)

/-- Closed at both ends. -/
def IsClosed (I : Interval K) : Prop := I.leftClosed = true ∧ I.rightClosed = true

end Geometrix.Spec
