import Verif.Model.Box
import Verif.Model.Distance
import Verif.Model.Obb
import Verif.Model.PolylineDistance
import Verif.Model.Sphere

/-!
# The distance functions that take the root
-/

set_option linter.unusedSectionVars false

namespace Geometrix

/-- `sqrt` of a squared distance. -/
noncomputable def rootOf (r : Res ℝ) : Res ℝ :=
  match r with
  | .error e => .error e
  | .ok d => csqrt d

/-- `sqrt` of a squared distance that may be infinite (`none`); the root of infinity is infinity. -/
noncomputable def rootOfInf (r : Res (Option ℝ)) : Res (Option ℝ) :=
  match r with
  | .error e => .error e
  | .ok none => .ok none
  | .ok (some d) =>
    match csqrt d with
    | .error e => .error e
    | .ok x => .ok (some x)

/-- `point_segment_distance`: `geometrix/algorithm/distance/point_segment_distance.hpp:64-69`. -/
noncomputable def pointSegDist (p : P2 ℝ) (s : Seg ℝ) : Res ℝ :=
  rootOf (pointSegDistSq p s.s s.e)

/-- `point_polyline_distance`: `geometrix/algorithm/distance/point_polyline_distance.hpp:52-57`. -/
noncomputable def pointPolylineDist (p : P2 ℝ) (poly : List (P2 ℝ)) : Res (Option ℝ) :=
  rootOfInf (pointPolylineDistSq p poly)

/-- `point_polygon_distance`: `geometrix/algorithm/distance/point_polygon_distance.hpp:52-57`. -/
noncomputable def pointPolygonDist (p : P2 ℝ) (poly : List (P2 ℝ)) : Res (Option ℝ) :=
  rootOfInf (pointPolygonDistSq p poly)

/-- `point_aabb_distance` in the plane:
`geometrix/algorithm/distance/point_aabb_distance.hpp:140-145`. -/
noncomputable def pointAabbDist (p : P2 ℝ) (b : Box ℝ) : Res ℝ := csqrt (pointAabbDistSq p b)

/-- `aabb_aabb_distance` in the plane:
`geometrix/algorithm/distance/aabb_aabb_distance.hpp:113-118`. -/
noncomputable def aabbAabbDist (a b : Box ℝ) : Res ℝ := csqrt (aabbAabbDistSq a b)

/-- `point_obb_distance`: `geometrix/algorithm/distance/point_obb_distance.hpp:73-78`. -/
noncomputable def pointObbDist (p : P2 ℝ) (b : Obb ℝ) : Res ℝ := csqrt (pointObbDistSq p b)

/-- `segment_segment_distance`:
`geometrix/algorithm/distance/segment_segment_distance.hpp:70-84`, `:97-107`. -/
noncomputable def segSegDist (cmp : Cmp ℝ) (p1 q1 p2 q2 : P2 ℝ) : Res ℝ :=
  rootOf (segSegDistSq cmp p1 q1 p2 q2)

/-- `segment_polyline_distance`:
`geometrix/algorithm/distance/segment_polyline_distance.hpp:78-90` (both overloads). -/
noncomputable def segPolylineDist (cmp : Cmp ℝ) (p1 p2 : P2 ℝ) (poly : List (P2 ℝ)) :
    Res (Option ℝ) :=
  rootOfInf (segPolylineDistSq cmp p1 p2 poly)

/-- `segment_polygon_distance`:
`geometrix/algorithm/distance/segment_polygon_distance.hpp:78-90` (both overloads). -/
noncomputable def segPolygonDist (cmp : Cmp ℝ) (p1 p2 : P2 ℝ) (poly : List (P2 ℝ)) :
    Res (Option ℝ) :=
  rootOfInf (segPolygonDistSq cmp p1 p2 poly)

/-- `polyline_polyline_distance`:
`geometrix/algorithm/distance/polyline_polyline_distance.hpp:163-168`. -/
noncomputable def polylineDist (pop : List (WorkItem ℝ) → Option (WorkItem ℝ × List (WorkItem ℝ)))
    (cmp : Cmp ℝ) (p1 p2 : List (P2 ℝ)) : Res (Option ℝ) :=
  rootOfInf (polylineDistSq pop cmp p1 p2)

/-- `polygon_polygon_distance`:
`geometrix/algorithm/distance/polygon_polygon_distance.hpp:166-171`. -/
noncomputable def polygonDist (pop : List (WorkItem ℝ) → Option (WorkItem ℝ × List (WorkItem ℝ)))
    (cmp : Cmp ℝ) (p1 p2 : List (P2 ℝ)) : Res (Option ℝ) :=
  rootOfInf (polygonDistSq pop cmp p1 p2)

end Geometrix
