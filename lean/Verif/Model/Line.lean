import Verif.Model.PolylineSplit
import Verif.Model.RayIntersection

/-!
# Lines with a unit direction
-/

set_option linter.unusedSectionVars false

namespace Geometrix

/-- `line`: `geometrix/primitive/line.hpp:21-74`. -/
structure Line2 where
  /-- `m_u`, the reference point -/
  u : P2 ℝ
  /-- `m_v`, the unit direction -/
  v : P2 ℝ
  /-- `m_n`, the left normal -/
  n : P2 ℝ
  /-- `m_d`, the distance to the origin -/
  d : ℝ

/-- The constructor from a point and a vector: `line.hpp:38-44`. -/
noncomputable def makeLineV (u v : P2 ℝ) : Res Line2 :=
  match normalize2 v with
  | .error e => .error e
  | .ok w => .ok ⟨u, w, leftNormal w, dot u (leftNormal w)⟩

/-- The constructors from two points and from a segment: `line.hpp:46-59`. -/
noncomputable def makeLine (a b : P2 ℝ) : Res Line2 := makeLineV a (b - a)

/-- `signed_point_line_distance`: `geometrix/algorithm/distance/point_line_distance.hpp:30-34`. -/
noncomputable def signedPointLineDist (p : P2 ℝ) (l : Line2) : ℝ := dot (p - l.u) l.n

/-- `point_line_distance`: `point_line_distance.hpp:45-50`. -/
noncomputable def pointLineDist (p : P2 ℝ) (l : Line2) : ℝ := |signedPointLineDist p l|

end Geometrix
