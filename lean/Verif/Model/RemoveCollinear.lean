import Verif.Model.Orientation

/-!
# Removing collinear and repeated vertices
-/

set_option linter.unusedSectionVars false

namespace Geometrix

variable {K : Type*} [Field K] [LinearOrder K]

/-- The loop of `remove_collinear_points_polyline`:
`geometrix/algorithm/point_sequence/remove_collinear_points.hpp:91-101`. `a` and `b` are the last two
points of `newPoly`, the list is what remains of the input; the result is `newPoly` from `a` on. -/
def removeCollinearLoop (cmp : Cmp K) : P2 K → P2 K → List (P2 K) → List (P2 K)
  | a, b, [] => [a, b]
  | a, b, c :: rest =>
    if !isCollinear cmp a b c then a :: removeCollinearLoop cmp b c rest
    else removeCollinearLoop cmp a c rest

/-- `remove_collinear_points_polyline`: `remove_collinear_points.hpp:81-104`. -/
def removeCollinearPolyline (cmp : Cmp K) : List (P2 K) → List (P2 K)
  | a :: b :: c :: rest => removeCollinearLoop cmp a b (c :: rest)
  | poly => poly

/-- The loop of `remove_collinear_points_polygon`: `remove_collinear_points.hpp:64-76`, as for
polylines. `rest.isEmpty` is `i + 1 == size`. -/
def removeCollinearPolygonLoop (cmp : Cmp K) (front : P2 K) : P2 K → P2 K → List (P2 K) → List (P2 K)
  | a, b, [] => [a, b]
  | a, b, c :: rest =>
    if !isCollinear cmp a b c then
      if !rest.isEmpty || !isCollinear cmp b c front then
        a :: removeCollinearPolygonLoop cmp front b c rest
      else removeCollinearPolygonLoop cmp front a b rest
    else removeCollinearPolygonLoop cmp front a c rest

/-- `remove_collinear_points_polygon`: `remove_collinear_points.hpp:53-79`. -/
def removeCollinearPolygon (cmp : Cmp K) : List (P2 K) → List (P2 K)
  | a :: b :: c :: d :: rest => removeCollinearPolygonLoop cmp a a b (c :: d :: rest)
  | poly => poly

/-- The loop of `identify_collinear_points_polygon`: `remove_collinear_points.hpp:30-47`. `i` is the
index of the next input vertex; the result lists the inserted indices, which ascend. -/
def identifyCollinearLoop (cmp : Cmp K) (front : P2 K) : Nat → P2 K → P2 K → List (P2 K) → List Nat
  | _, _, _, [] => []
  | i, a, b, c :: rest =>
    if !isCollinear cmp a b c then
      if !rest.isEmpty || !isCollinear cmp b c front then
        identifyCollinearLoop cmp front (i + 1) b c rest
      else i :: identifyCollinearLoop cmp front (i + 1) a b rest
    else i :: identifyCollinearLoop cmp front (i + 1) a c rest

/-- `identify_collinear_points_polygon`: `remove_collinear_points.hpp:19-51`. -/
def identifyCollinear (cmp : Cmp K) : List (P2 K) → List Nat
  | a :: b :: c :: d :: rest => identifyCollinearLoop cmp a 2 a b (c :: d :: rest)
  | _ => []

/-- The loop of `coalesce_adjacent_points_polyline`: `remove_collinear_points.hpp:174-181`. `a` is the
last point of `newPoly`; the result is `newPoly` from `a` on. -/
def coalesceLoop (cmp : Cmp K) : P2 K → List (P2 K) → List (P2 K)
  | a, [] => [a]
  | a, b :: rest =>
    if cmp.gt (distSq a b) 0 then a :: coalesceLoop cmp b rest else coalesceLoop cmp a rest

/-- `coalesce_adjacent_points_polyline`: `remove_collinear_points.hpp:163-184`. -/
def coalescePolyline (cmp : Cmp K) : List (P2 K) → List (P2 K)
  | a :: b :: c :: rest => coalesceLoop cmp a (b :: c :: rest)
  | poly => poly

/-- The loop of `coalesce_adjacent_points_polygon`: `remove_collinear_points.hpp:117-127`. -/
def coalescePolygonLoop (cmp : Cmp K) (front : P2 K) : P2 K → List (P2 K) → List (P2 K)
  | a, [] => [a]
  | a, b :: rest =>
    if cmp.gt (distSq a b) 0 then
      if !rest.isEmpty || cmp.gt (distSq b front) 0 then
        a :: coalescePolygonLoop cmp front b rest
      else coalescePolygonLoop cmp front a rest
    else coalescePolygonLoop cmp front a rest

/-- `coalesce_adjacent_points_polygon`: `remove_collinear_points.hpp:106-130`. -/
def coalescePolygon (cmp : Cmp K) : List (P2 K) → List (P2 K)
  | a :: b :: c :: d :: rest => coalescePolygonLoop cmp a a (b :: c :: d :: rest)
  | poly => poly

/-- The loop of `identify_adjacent_points_polygon`: `remove_collinear_points.hpp:143-158`. -/
def identifyAdjacentLoop (cmp : Cmp K) (front : P2 K) : Nat → P2 K → List (P2 K) → List Nat
  | _, _, [] => []
  | i, a, b :: rest =>
    if cmp.gt (distSq a b) 0 then
      if !rest.isEmpty || cmp.gt (distSq b front) 0 then
        identifyAdjacentLoop cmp front (i + 1) b rest
      else i :: identifyAdjacentLoop cmp front (i + 1) a rest
    else i :: identifyAdjacentLoop cmp front (i + 1) a rest

/-- `identify_adjacent_points_polygon`: `remove_collinear_points.hpp:132-161`. -/
def identifyAdjacent (cmp : Cmp K) : List (P2 K) → List Nat
  | a :: b :: c :: d :: rest => identifyAdjacentLoop cmp a 1 a (b :: c :: d :: rest)
  | _ => []

/-- `clean_polygon`: `remove_collinear_points.hpp:186-190`. -/
def cleanPolygon (cmp : Cmp K) (poly : List (P2 K)) : List (P2 K) :=
  coalescePolygon cmp (removeCollinearPolygon cmp poly)

/-- `clean_polyline`: `remove_collinear_points.hpp:192-196`. -/
def cleanPolyline (cmp : Cmp K) (poly : List (P2 K)) : List (P2 K) :=
  coalescePolyline cmp (removeCollinearPolyline cmp poly)

end Geometrix
