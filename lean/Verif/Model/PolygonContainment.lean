import Verif.Model.PointInPolygon
import Verif.Model.CollinearSegments
import Verif.Model.PolygonSimple
import Mathlib.Data.List.Rotate

/-!
# Polylines and polygons in a polygon

`geometrix/algorithm/intersection/segment_projects_outside_polygon.hpp`,
`geometrix/algorithm/point_sequence/polygon_polyline_containment.hpp`,
`geometrix/algorithm/point_sequence/polygon_polygon_containment.hpp`.
-/

set_option linter.unusedSectionVars false

namespace Geometrix

variable {K : Type*} [Field K] [LinearOrder K]

/-- The pairs of the points with the indices `i` and `(i + 1) % size`, in the order of `i`:
`segment_projects_outside_polygon.hpp:33-37`, `polygon_polygon_containment.hpp:55-58,70-72`. -/
def ringEdges (poly : List (P2 K)) : List (P2 K × P2 K) := poly.zip (poly.rotate 1)

/-- `segment_mid_point`: `geometrix/algorithm/segment_mid_point.hpp:32-36,51-55`. -/
def segMidPoint (p q : P2 K) : P2 K := (1 / 2 : K) • (p + q)

/-- The first loop of `segment_projects_outside_polygon`: `segment_projects_outside_polygon.hpp:33-42`. The set is the
list of its elements in order. `insert(xpoints, xpoints + 1)` inserts only the first of the two points of an overlap. -/
def collectHits (cmp : Cmp K) (A B : P2 K) : List (P2 K × P2 K) → List (P2 K) → Res (List (P2 K))
  | [], xs => .ok xs
  | (C, D) :: rest, xs =>
    match segSegIntersection cmp A B C D with
    | .error e => .error e
    | .ok (ty, pts) =>
      if ty = .crossing ∨ ty = .endpoint ∨ ty = .overlapping then
        match pts with
        | x :: _ => collectHits cmp A B rest (setInsert (lexCompare cmp) xs x)
        | [] => .error .outOfRange
      else collectHits cmp A B rest xs

/-- The test for the middle of two consecutive points: `segment_projects_outside_polygon.hpp:55-57`. -/
def midOutside (cmp : Cmp K) (eps : K) (poly : List (P2 K)) (e : P2 K × P2 K) : Res Bool :=
  match polygonContainment cmp eps (segMidPoint e.1 e.2) poly with
  | .error f => .error f
  | .ok c => .ok (decide (c = .exterior))

/-- `segment_projects_outside_polygon`: `segment_projects_outside_polygon.hpp:25-63`. -/
def projectsOutside (cmp : Cmp K) (eps : K) (A B : P2 K) (poly : List (P2 K)) : Res Bool :=
  match collectHits cmp A B (ringEdges poly) [] with
  | .error f => .error f
  | .ok xs =>
    if !xs.isEmpty then
      anyRes (midOutside cmp eps poly)
        (openEdges (setInsert (lexCompare cmp) (setInsert (lexCompare cmp) xs A) B))
    else .ok false

/-- The test for one vertex: `polygon_polyline_containment.hpp:42`, `polygon_polygon_containment.hpp:42`. -/
def vertexInside (cmp : Cmp K) (eps : K) (pgon : List (P2 K)) (p : P2 K) : Res Bool :=
  match polygonContainment cmp eps p pgon with
  | .error f => .error f
  | .ok c => .ok (decide (c ≠ .exterior))

/-- `is_crossing_out`: `polygon_polyline_containment.hpp:53-70`, `polygon_polygon_containment.hpp:53-68`. The assertions
there cannot fail. -/
def isCrossingOut (cmp : Cmp K) (eps : K) (pgon : List (P2 K)) (e f : P2 K × P2 K) : Res Bool :=
  match segSegIntersection cmp e.1 e.2 f.1 f.2 with
  | .error x => .error x
  | .ok (ty, _) =>
    if ty = .nonCrossing then .ok false
    else if ty = .crossing then .ok true
    else projectsOutside cmp eps e.1 e.2 pgon

/-- What the two functions have in common, `polygon_polyline_containment.hpp:38-81` and
`polygon_polygon_containment.hpp:38-79`: `vertices` are the vertices of the first figure, `edges` its edges. -/
def containedBy (cmp : Cmp K) (eps : K) (vertices : List (P2 K)) (edges : List (P2 K × P2 K)) (pgon : List (P2 K)) :
    Res Bool :=
  match anyRes (vertexInside cmp eps pgon) vertices with
  | .error f => .error f
  | .ok false => .ok false
  | .ok true =>
    match anyRes (fun e => anyRes (isCrossingOut cmp eps pgon e) (ringEdges pgon)) edges with
    | .error f => .error f
    | .ok b => .ok (!b)

/-- `polygon_polyline_containment`: `polygon_polyline_containment.hpp:26-82`. -/
def polygonPolylineContainment (cmp : Cmp K) (eps : K) (pline pgon : List (P2 K)) : Res Bool :=
  if ¬ pgon.length > 2 then .error .assertFailed
  else containedBy cmp eps pline (openEdges pline) pgon

/-- `polygon_polygon_containment`: `polygon_polygon_containment.hpp:25-80`. -/
def polygonPolygonContainment (cmp : Cmp K) (eps : K) (polygon1 polygon2 : List (P2 K)) : Res Bool :=
  if ¬ polygon1.length > 2 then .error .assertFailed
  else if ¬ polygon2.length > 2 then .error .assertFailed
  else containedBy cmp eps polygon1 (ringEdges polygon1) polygon2

end Geometrix
