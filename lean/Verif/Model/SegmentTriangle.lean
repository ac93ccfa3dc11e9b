import Verif.Model.PointInPolygon
import Verif.Model.SegmentIntersection
import Verif.Model.RayIntersection
import Verif.Model.CollinearSegments

/-!
# Intersection of a segment and a triangle

`geometrix/algorithm/intersection/segment_triangle_intersection.hpp`.
-/

set_option linter.unusedSectionVars false

namespace Geometrix

variable {K : Type*} [Field K] [LinearOrder K]

/-- The points inserted for one answer of `segment_segment_intersection`:
`geometrix/algorithm/intersection/segment_triangle_intersection.hpp:64-70,73-79,82-88`. The array `nXPoints` keeps old
values where the answer has fewer points; those are not read. -/
def hitPoints : IType → List (P2 K) → List (P2 K)
  | .crossing, pts => pts.take 1
  | .endpoint, pts => pts.take 1
  | .overlapping, pts => pts.take 2
  | _, _ => []

/-- One side of the triangle: `segment_triangle_intersection.hpp:63-70,72-79,81-88`. The `flat_set` is an ascending
list. -/
def triangleSide (cmp : Cmp K) (A B C D : P2 K) (iPoints : List (P2 K)) : Res (List (P2 K)) :=
  match segSegIntersection cmp A B C D with
  | .error f => .error f
  | .ok (iType, nXPoints) => .ok ((hitPoints iType nXPoints).foldl (setInsert (lexCompare cmp)) iPoints)

/-- `segment_triangle_intersect` with points: `segment_triangle_intersection.hpp:32-104`. The result lists the points
written to `xPoints`; their number is the returned value. -/
def segmentTriangle (cmp : Cmp K) (A B t0 t1 t2 : P2 K) : Res (List (P2 K)) :=
  let aInside := pointInTriangle cmp A t0 t1 t2
  let bInside := pointInTriangle cmp B t0 t1 t2
  if aInside && bInside then .ok [A, B]
  else
    let iPoints := if aInside then setInsert (lexCompare cmp) [] A
      else if bInside then setInsert (lexCompare cmp) [] B else []
    match triangleSide cmp A B t0 t1 iPoints with
    | .error f => .error f
    | .ok i1 =>
    match triangleSide cmp A B t1 t2 i1 with
    | .error f => .error f
    | .ok i2 =>
    match triangleSide cmp A B t2 t0 i2 with
    | .error f => .error f
    | .ok i3 => .ok (i3.take 2)

/-- One of the four blocks, whether the axis `n` separates: `segment_triangle_intersection.hpp:121-146,149-174,177-202,
205-230`. `big` is `std::numeric_limits<arithmetic_type>::max()`. -/
def axisSeparates (big : K) (n A B t0 t1 t2 : P2 K) : Bool :=
  let tmin := min (min (min big (dot n t0)) (dot n t1)) (dot n t2)
  let tmax := max (max (max (-big) (dot n t0)) (dot n t1)) (dot n t2)
  let pmin := min (min big (dot n A)) (dot n B)
  let pmax := max (max (-big) (dot n A)) (dot n B)
  decide (tmin > pmax) || decide (tmax < pmin)

/-- `segment_triangle_intersect` without points: `segment_triangle_intersection.hpp:107-233`. -/
def segmentTriangleTest (big : K) (A B t0 t1 t2 : P2 K) : Bool :=
  if axisSeparates big (leftNormal (B - A)) A B t0 t1 t2 then false
  else if axisSeparates big (leftNormal (t1 - t0)) A B t0 t1 t2 then false
  else if axisSeparates big (leftNormal (t2 - t1)) A B t0 t1 t2 then false
  else if axisSeparates big (leftNormal (t0 - t2)) A B t0 t1 t2 then false
  else true

end Geometrix
