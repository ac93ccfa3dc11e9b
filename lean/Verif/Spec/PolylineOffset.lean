import Verif.Spec.Polyline
import Mathlib.Analysis.Real.Sqrt

/-!
# Parallel lines
-/

namespace Geometrix.Spec

/-- The distance of `P` from the line `AB` is `d` (for a negative `d`, `-d`), on the left of the line, or, if `left` is
false, on the right (for a negative `d` on the other side). Twice the area of the triangle is the length of `AB` times the
signed distance. -/
def AtOffset (left : Bool) (d : ℝ) (A B P : P2 ℝ) : Prop :=
  area2 A B P = (if left then d else -d) * Real.sqrt (sqDist A B)

end Geometrix.Spec
