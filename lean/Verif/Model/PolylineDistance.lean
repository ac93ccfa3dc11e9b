import Verif.Model.Distance
import Verif.Model.Box

/-!
# Distance and closest points of two polylines or polygons
-/

namespace Geometrix

variable {K : Type*} [Field K] [LinearOrder K]

/-- The loop that keeps the first element with the least value, for a function that may return
infinity (`none`), which never replaces the best value. -/
def minLoopInf {α β : Type*} (f : α → Res (Option β)) (key : β → K) :
    List α → Option (α × β) → Res (Option (α × β))
  | [], best => .ok best
  | x :: xs, best =>
    match f x with
    | .error e => .error e
    | .ok none => minLoopInf f key xs best
    | .ok (some y) =>
      match best with
      | none => minLoopInf f key xs (some (x, y))
      | some (z, b) =>
        if key y < key b then minLoopInf f key xs (some (x, y))
        else minLoopInf f key xs (some (z, b))

/-- `polyline_polyline_distance_sqrd_brute`:
`geometrix/algorithm/distance/polyline_polyline_distance.hpp:54-67`. -/
def polylineDistBrute (cmp : Cmp K) (p1 p2 : List (P2 K)) : Res (Option K) :=
  match minLoopInf (fun e : P2 K × P2 K => segPolylineDistSq cmp e.1 e.2 p2) id
      (openEdges p1) none with
  | .error e => .error e
  | .ok none => .ok none
  | .ok (some (_, d)) => .ok (some d)

/-- The points number `r.1` to `r.2`, both included: what the loops over `subRange` visit. -/
def subPoints {α : Type*} (pts : List α) (r : Nat × Nat) : List α :=
  (pts.drop r.1).take (r.2 + 1 - r.1)

/-- `subpolyline_subpolyline_distance_sqrd_brute`: `polyline_polyline_distance.hpp:69-82`, with
`segment_subpolyline_distance_sqrd` (`:41-52`). A range that ends after the last point would read out
of range. `polygon_polygon_distance.hpp:71-85` is the same with an assertion `lo < hi` or
`lo = size - 1`, which holds whenever the search calls it. -/
def subDistBrute (cmp : Cmp K) (p1 p2 : List (P2 K)) (r1 r2 : Nat × Nat) : Res (Option K) :=
  if r1.2 < p1.length ∧ r2.2 < p2.length then
    polylineDistBrute cmp (subPoints p1 r1) (subPoints p2 r2)
  else .error .outOfRange

/-- What the closest point functions write. -/
structure PolyPolyClosest (K : Type*) where
  i1 : Nat
  i2 : Nat
  pair : SegSegClosest K

/-- The loop of `polyline_polyline_closest_point_brute` and its variants, given the edges of both
sides with their indices:
`geometrix/algorithm/distance/polyline_polyline_closest_point.hpp:32-61`. -/
def edgesClosestBrute (cmp : Cmp K) (e1 e2 : List (Nat × P2 K × P2 K)) :
    Res (Option (PolyPolyClosest K)) :=
  match minLoopInf (fun e : Nat × P2 K × P2 K => segEdgesClosest cmp e.2.1 e.2.2 e2)
      (fun r => r.pair.d2) e1 none with
  | .error e => .error e
  | .ok none => .ok none
  | .ok (some (e, r)) => .ok (some ⟨e.1, r.index, r.pair⟩)

/-- `polyline_polyline_closest_point_brute`: `polyline_polyline_closest_point.hpp:32-61`. -/
def polylineClosestBrute (cmp : Cmp K) (p1 p2 : List (P2 K)) : Res (Option (PolyPolyClosest K)) :=
  edgesClosestBrute cmp (openEdgesIdx p1) (openEdgesIdx p2)

/-- The edges of a range of points, with the index of their start point. -/
def subEdgesIdx (pts : List (P2 K)) (r : Nat × Nat) : List (Nat × P2 K × P2 K) :=
  (openEdgesIdx (subPoints pts r)).map fun e => (r.1 + e.1, e.2)

/-- The brute force search over ranges: `polyline_polyline_closest_point.hpp:63-92`, with
`segment_polyline_closest_point.hpp:58-84`; the same for polygons
(`polygon_polygon_closest_point.hpp:64-93`, `segment_polygon_closest_point.hpp:58-88`). -/
def subClosestBrute (cmp : Cmp K) (p1 p2 : List (P2 K)) (r1 r2 : Nat × Nat) :
    Res (Option (PolyPolyClosest K)) :=
  if r1.2 < p1.length ∧ r2.2 < p2.length then
    edgesClosestBrute cmp (subEdgesIdx p1 r1) (subEdgesIdx p2 r2)
  else .error .outOfRange

/-- `work_item`: two index ranges and the squared distance of their boxes
(`polyline_polyline_distance.hpp:98`). -/
structure WorkItem (K : Type*) where
  r1 : Nat × Nat
  r2 : Nat × Nat
  d2 : K

/-- `split`: `polyline_polyline_distance.hpp:100-104`. -/
def splitRange (r : Nat × Nat) : (Nat × Nat) × (Nat × Nat) :=
  let m := (r.2 + r.1) / 2
  ((r.1, m), (m, r.2))

/-- `if (d2 <= minDist2) Q.emplace(...)`: `polyline_polyline_distance.hpp:144-158`. -/
def pushItem (m : K) (q : List (WorkItem K)) (w : WorkItem K) : List (WorkItem K) :=
  if w.d2 ≤ m then w :: q else q

/-- The search loop: `polyline_polyline_distance.hpp:117-159` (and the same loop in
`polyline_polyline_closest_point.hpp:122-181`, `polygon_polygon_distance.hpp:120-162`,
`polygon_polygon_closest_point.hpp:123-182`).

`pop` is `top` and `pop` of the priority queue; it is a parameter, since the standard does not say
which of several least elements comes first. `box1` and `box2` are `make_aabb` of a range. `leaf` is
the brute force search, and `key` the distance in its result. `m` is `minDist2`, `out` what was
written to the output arguments so far. `std::min(m, d)` is `d` if `d < m` and `m` otherwise. The
first argument bounds the number of iterations; to run out of it is `diverges`. -/
def searchLoop {β : Type*} (pop : List (WorkItem K) → Option (WorkItem K × List (WorkItem K)))
    (box1 box2 : Nat × Nat → Option (Box K)) (leaf : Nat × Nat → Nat × Nat → Res (Option β))
    (key : β → K) : Nat → K → Option β → List (WorkItem K) → Res (K × Option β)
  | 0, _, _, _ => .error .diverges
  | fuel + 1, m, out, q =>
    match pop q with
    | none => .ok (m, out)
    | some (w, q) =>
      if w.d2 ≥ m then .ok (m, out)
      else if w.r1.2 - w.r1.1 < 5 ∨ w.r2.2 - w.r2.1 < 5 then
        match leaf w.r1 w.r2 with
        | .error e => .error e
        | .ok none => searchLoop pop box1 box2 leaf key fuel m out q
        | .ok (some b) =>
          if key b < m then searchLoop pop box1 box2 leaf key fuel (key b) (some b) q
          else searchLoop pop box1 box2 leaf key fuel m out q
      else
        let s1 := splitRange w.r1
        let s2 := splitRange w.r2
        match box1 s1.1, box1 s1.2, box2 s2.1, box2 s2.2 with
        | some b1A, some b1B, some b2A, some b2B =>
          let q := pushItem m q ⟨s1.1, s2.1, aabbAabbDistSq b1A b2A⟩
          let q := pushItem m q ⟨s1.1, s2.2, aabbAabbDistSq b1A b2B⟩
          let q := pushItem m q ⟨s1.2, s2.1, aabbAabbDistSq b1B b2A⟩
          let q := pushItem m q ⟨s1.2, s2.2, aabbAabbDistSq b1B b2B⟩
          searchLoop pop box1 box2 leaf key fuel m out q
        | _, _, _, _ => .error .outOfRange

/-- The search from its start: `polyline_polyline_distance.hpp:92-162`. -/
def search {β : Type*} (pop : List (WorkItem K) → Option (WorkItem K × List (WorkItem K)))
    (cmp : Cmp K) (leaf : Nat × Nat → Nat × Nat → Res (Option β)) (key : β → K)
    (p1 p2 : List (P2 K)) : Res (K × Option β) :=
  match p1, p2, getBounds cmp p1, getBounds cmp p2 with
  | a :: _, b :: _, some b1, some b2 =>
    searchLoop pop (fun r => getBounds cmp (subPoints p1 r)) (fun r => getBounds cmp (subPoints p2 r))
      leaf key (4 * p1.length * p2.length) (dot (a - b) (a - b)) none
      [⟨(0, p1.length - 1), (0, p2.length - 1), aabbAabbDistSq b1 b2⟩]
  | _, _, _, _ => .error .outOfRange

/-- `polyline_polyline_distance_sqrd`: `polyline_polyline_distance.hpp:84-162`. -/
def polylineDistSq (pop : List (WorkItem K) → Option (WorkItem K × List (WorkItem K)))
    (cmp : Cmp K) (p1 p2 : List (P2 K)) : Res (Option K) :=
  if p1.length < 6 ∨ p2.length < 6 then polylineDistBrute cmp p1 p2
  else
    match search pop cmp (subDistBrute cmp p1 p2) id p1 p2 with
    | .error e => .error e
    | .ok (m, _) => .ok (some m)

/-- `polyline_polyline_closest_point`: `polyline_polyline_closest_point.hpp:94-184`: the returned
squared distance (`none` for infinity) and what was written to the output arguments (`none` for
nothing). -/
def polylineClosest (pop : List (WorkItem K) → Option (WorkItem K × List (WorkItem K)))
    (cmp : Cmp K) (p1 p2 : List (P2 K)) : Res (Option K × Option (PolyPolyClosest K)) :=
  if p1.length < 6 ∨ p2.length < 6 then
    match polylineClosestBrute cmp p1 p2 with
    | .error e => .error e
    | .ok r => .ok (r.map fun c => c.pair.d2, r)
  else
    match search pop cmp (subClosestBrute cmp p1 p2) (fun r => r.pair.d2) p1 p2 with
    | .error e => .error e
    | .ok (m, r) => .ok (some m, r)

/-- `polygon_polygon_distance_sqrd_brute`:
`geometrix/algorithm/distance/polygon_polygon_distance.hpp:55-69`. -/
def polygonDistBrute (cmp : Cmp K) (p1 p2 : List (P2 K)) : Res (Option K) :=
  match minLoopInf (fun e : P2 K × P2 K => segPolygonDistSq cmp e.1 e.2 p2) id
      (closedEdges p1) none with
  | .error e => .error e
  | .ok none => .ok none
  | .ok (some (_, d)) => .ok (some d)

/-- `polygon_polygon_distance_sqrd`: `polygon_polygon_distance.hpp:87-165`. The search is that of
polylines: its first work item has the ranges of points `0` to `size - 1`, and the searches over
ranges never go from the last point to the first one. -/
def polygonDistSq (pop : List (WorkItem K) → Option (WorkItem K × List (WorkItem K)))
    (cmp : Cmp K) (p1 p2 : List (P2 K)) : Res (Option K) :=
  if p1.length < 6 ∨ p2.length < 6 then polygonDistBrute cmp p1 p2
  else
    match search pop cmp (subDistBrute cmp p1 p2) id p1 p2 with
    | .error e => .error e
    | .ok (m, _) => .ok (some m)

/-- `polygon_polygon_closest_point`:
`geometrix/algorithm/distance/polygon_polygon_closest_point.hpp:32-62,95-185`. -/
def polygonClosest (pop : List (WorkItem K) → Option (WorkItem K × List (WorkItem K)))
    (cmp : Cmp K) (p1 p2 : List (P2 K)) : Res (Option K × Option (PolyPolyClosest K)) :=
  if p1.length < 6 ∨ p2.length < 6 then
    match edgesClosestBrute cmp (closedEdgesIdx p1) (closedEdgesIdx p2) with
    | .error e => .error e
    | .ok r => .ok (r.map fun c => c.pair.d2, r)
  else
    match search pop cmp (subClosestBrute cmp p1 p2) (fun r => r.pair.d2) p1 p2 with
    | .error e => .error e
    | .ok (m, r) => .ok (some m, r)

/-- One possible priority queue: the first of the least items. Used to run the model. -/
def popFirstLeast : List (WorkItem K) → Option (WorkItem K × List (WorkItem K))
  | [] => none
  | w :: q =>
    match popFirstLeast q with
    | none => some (w, [])
    | some (v, q') => if v.d2 < w.d2 then some (v, w :: q') else some (w, q)

end Geometrix
