import Verif.Model.Orientation

/-!
# Closest points and distances of points and segments
-/

set_option linter.unusedSectionVars false

namespace Geometrix

variable {K : Type*} [Field K] [LinearOrder K]

/-- `point_segment_closest_point` for a segment:
`geometrix/algorithm/distance/point_segment_closest_point.hpp:46-61`. -/
def pointSegClosest (p : P2 K) (seg : Seg K) : Res (P2 K) :=
  let AP := p - seg.s
  let AB := seg.e - seg.s
  let t := dot AP AB
  if t ≤ 0 then .ok seg.s
  else
    let denom := dot AB AB
    if t ≥ denom then .ok seg.e
    else
      match cdiv t denom with
      | .error f => .error f
      | .ok u => .ok (seg.s + u • AB)

/-- `point_segment_closest_point_and_param`: `point_segment_closest_point.hpp:81-96`. The reference
parameter `t` is the second component. -/
def pointSegClosestParam (p A B : P2 K) : Res (P2 K × K) :=
  let AP := p - A
  let AB := B - A
  let l2 := dot AB AB
  match cdiv (dot AP AB) l2 with
  | .error f => .error f
  | .ok t =>
    if t ≤ 0 then .ok (A, t)
    else if t ≥ 1 then .ok (B, t)
    else .ok (A + t • AB, t)

/-- `point_segment_closest_point` for two points: `point_segment_closest_point.hpp:63-79`. -/
def pointSegClosestPts (p A B : P2 K) : Res (P2 K) :=
  let AP := p - A
  let AB := B - A
  let l2 := dot AB AB
  match cdiv (dot AP AB) l2 with
  | .error f => .error f
  | .ok t =>
    if t ≤ 0 then .ok A
    else if t ≥ 1 then .ok B
    else .ok (A + t • AB)

/-- `point_segment_distance_sqrd`:
`geometrix/algorithm/distance/point_segment_distance.hpp:41-62` (both overloads). -/
def pointSegDistSq (p A B : P2 K) : Res K :=
  let ab := B - A
  let ac := p - A
  let bc := p - B
  let e := dot ac ab
  if e ≤ 0 then .ok (dot ac ac)
  else
    let f := dot ab ab
    if e ≥ f then .ok (dot bc bc)
    else
      match cdiv (e * e) f with
      | .error f => .error f
      | .ok q => .ok (dot ac ac - q)

/-- What `segment_segment_closest_point` writes and returns. -/
structure SegSegClosest (K : Type*) where
  s : K
  t : K
  c1 : P2 K
  c2 : P2 K
  d2 : K
  deriving DecidableEq, Repr

/-- The first value of `s` in the general case:
`geometrix/algorithm/distance/segment_segment_closest_point.hpp:78-85`. -/
def segSegFirst (a b c e f : K) : Res K :=
  let denom := a * e - b * b
  if denom = 0 then .ok 0
  else
    match cdiv (b * f - c * e) denom with
    | .error x => .error x
    | .ok q => .ok (clamp q 0 1)

/-- The parameters `s` and `t` of `segment_segment_closest_point`, once not both segments are points:
`geometrix/algorithm/distance/segment_segment_closest_point.hpp:59-108`. `a`, `b`, `c`, `e`, `f` are
the dot products of the code (`:45-48,68,78`). -/
def segSegParams (cmp : Cmp K) (a b c e f : K) : Res (K × K) :=
  if cmp.le a 0 then
    match cdiv f e with
    | .error x => .error x
    | .ok q => .ok (0, clamp q 0 1)
  else if cmp.le e 0 then
    match cdiv (-c) a with
    | .error x => .error x
    | .ok q => .ok (clamp q 0 1, 0)
  else
    match segSegFirst a b c e f with
    | .error x => .error x
    | .ok s =>
      let tnom := b * s + f
      if tnom < 0 then
        match cdiv (-c) a with
        | .error x => .error x
        | .ok q => .ok (clamp q 0 1, 0)
      else if tnom > e then
        match cdiv (b - c) a with
        | .error x => .error x
        | .ok q => .ok (clamp q 0 1, 1)
      else
        match cdiv tnom e with
        | .error x => .error x
        | .ok q => .ok (s, q)

/-- `segment_segment_closest_point`:
`geometrix/algorithm/distance/segment_segment_closest_point.hpp:30-113`. -/
def segSegClosest (cmp : Cmp K) (p1 q1 p2 q2 : P2 K) : Res (SegSegClosest K) :=
  let d1 := q1 - p1
  let d2 := q2 - p2
  let r := p1 - p2
  let a := dot d1 d1
  let e := dot d2 d2
  let f := dot d2 r
  if cmp.le a 0 && cmp.le e 0 then
    .ok ⟨0, 0, p1, p2, dot (p1 - p2) (p1 - p2)⟩
  else
    match segSegParams cmp a (dot d1 d2) (dot d1 r) e f with
    | .error x => .error x
    | .ok (s, t) =>
      let c1 := p1 + s • d1
      let c2 := p2 + t • d2
      .ok ⟨s, t, c1, c2, dot (c1 - c2) (c1 - c2)⟩

/-- `segment_segment_distance_sqrd`:
`geometrix/algorithm/distance/segment_segment_distance.hpp:55-68,86-95` (both overloads). -/
def segSegDistSq (cmp : Cmp K) (p1 q1 p2 q2 : P2 K) : Res K :=
  match segSegClosest cmp p1 q1 p2 q2 with
  | .error x => .error x
  | .ok r => .ok r.d2

/-- `point_point_distance_sqrd` for any dimension:
`geometrix/algorithm/distance/point_point_distance.hpp:47-133`. `diffs` are the coordinate
differences; the index of the code is the dimension minus one. Indices 0 to 3 have their own
specialisation; any larger index `i` adds the square of difference number `i - 1` and goes on with
`i - 1`. A difference that does not exist is a compile time error in C++; here it makes the result
`none`. -/
def distSqIndex (diffs : List K) : Nat → Option K
  | 0 => do
    let a ← diffs[0]?
    pure (a * a)
  | 1 => do
    let a ← diffs[0]?
    let b ← diffs[1]?
    pure (a * a + b * b)
  | 2 => do
    let a ← diffs[0]?
    let b ← diffs[1]?
    let c ← diffs[2]?
    pure (a * a + b * b + c * c)
  | 3 => do
    let a ← diffs[0]?
    let b ← diffs[1]?
    let c ← diffs[2]?
    let d ← diffs[3]?
    pure (a * a + b * b + c * c + d * d)
  | i + 4 => do
    let a ← diffs[i + 3]?
    let rest ← distSqIndex diffs (i + 3)
    pure (a * a + rest)

/-- `point_point_distance_sqrd` of points given by their coordinates. -/
def distSqN (a b : List K) : Option K :=
  distSqIndex (List.zipWith (fun x y => y - x) a b) (a.length - 1)

/-- The consecutive pairs of a sequence: the loops `for (i = 0, j = 1; j < size; i = j++)`. Pair
number `k` has the indices `k` and `k + 1`. -/
def openEdges {α : Type*} : List α → List (α × α)
  | a :: b :: l => (a, b) :: openEdges (b :: l)
  | _ => []

/-- The pairs of the loops `for (i = size - 1, j = 0; j < size; i = j++)`: first the pair of the
last and the first element, then the consecutive pairs. Pair number `k` ends at index `k`. -/
def closedEdges {α : Type*} (l : List α) : List (α × α) :=
  match l.getLast? with
  | none => []
  | some z => openEdges (z :: l)

/-- The loop that keeps the first element with the least value: start with infinity (`none`),
compute the result of the element, replace if its `key` is less than the best one so far. -/
def minLoop {α β : Type*} (f : α → Res β) (key : β → K) :
    List α → Option (α × β) → Res (Option (α × β))
  | [], best => .ok best
  | x :: xs, best =>
    match f x with
    | .error e => .error e
    | .ok v =>
      match best with
      | none => minLoop f key xs (some (x, v))
      | some (y, w) =>
        if key v < key w then minLoop f key xs (some (x, v)) else minLoop f key xs (some (y, w))

/-- The value of a `minLoop`; `none` is infinity. -/
def minLoopValue {α : Type*} (f : α → Res K) (l : List α) : Res (Option K) :=
  match minLoop f id l none with
  | .error e => .error e
  | .ok none => .ok none
  | .ok (some (_, v)) => .ok (some v)

/-- `point_polyline_distance_sqrd`:
`geometrix/algorithm/distance/point_polyline_distance.hpp:25-41`. `none` is infinity. -/
def pointPolylineDistSq (p : P2 K) (poly : List (P2 K)) : Res (Option K) :=
  minLoopValue (fun e => pointSegDistSq p e.1 e.2) (openEdges poly)

/-- `point_polygon_distance_sqrd`:
`geometrix/algorithm/distance/point_polygon_distance.hpp:25-41`. -/
def pointPolygonDistSq (p : P2 K) (poly : List (P2 K)) : Res (Option K) :=
  minLoopValue (fun e => pointSegDistSq p e.1 e.2) (closedEdges poly)

/-- `point_polyline_closest_point`:
`geometrix/algorithm/distance/point_polyline_closest_point.hpp:31-52`. Without an edge the indices
keep their initial value 0: for one point the two points coincide, for none the access is out of
range. -/
def pointPolylineClosest (p : P2 K) (poly : List (P2 K)) : Res (P2 K) :=
  match minLoop (fun e => pointSegDistSq p e.1 e.2) id (openEdges poly) none with
  | .error e => .error e
  | .ok (some (e, _)) => pointSegClosestPts p e.1 e.2
  | .ok none =>
    match poly with
    | [] => .error .outOfRange
    | a :: _ => pointSegClosestPts p a a

/-- `point_polygon_closest_point`:
`geometrix/algorithm/distance/point_polygon_closest_point.hpp:31-52`. -/
def pointPolygonClosest (p : P2 K) (poly : List (P2 K)) : Res (P2 K) :=
  match minLoop (fun e => pointSegDistSq p e.1 e.2) id (closedEdges poly) none with
  | .error e => .error e
  | .ok (some (e, _)) => pointSegClosestPts p e.1 e.2
  | .ok none => .error .outOfRange

/-- `point_polygon_collection_closest_point`:
`geometrix/algorithm/distance/point_polygon_closest_point.hpp:54-79`: one loop over the edges of
all polygons. -/
def pointPolygonsClosest (p : P2 K) (polys : List (List (P2 K))) : Res (P2 K) :=
  match minLoop (fun e => pointSegDistSq p e.1 e.2) id (polys.flatMap closedEdges) none with
  | .error e => .error e
  | .ok (some (e, _)) => pointSegClosestPts p e.1 e.2
  | .ok none => .error .assertFailed

/-- What `segment_polyline_closest_point` gives on success: the edge index and the pair of closest
points. -/
structure SegPolyClosest (K : Type*) where
  index : Nat
  pair : SegSegClosest K
  deriving DecidableEq, Repr

/-- The loop of `segment_polyline_closest_point` and `segment_polygon_closest_point`, over edges with
the index written for each. -/
def segEdgesClosest (cmp : Cmp K) (p1 p2 : P2 K) (edges : List (Nat × P2 K × P2 K)) :
    Res (Option (SegPolyClosest K)) :=
  match minLoop (fun e => segSegClosest cmp p1 p2 e.2.1 e.2.2) SegSegClosest.d2 edges none with
  | .error e => .error e
  | .ok none => .ok none
  | .ok (some (e, r)) => .ok (some ⟨e.1, r⟩)

/-- The edges with their start index. -/
def openEdgesIdx (poly : List (P2 K)) : List (Nat × P2 K × P2 K) :=
  (openEdges poly).zipIdx.map fun e => (e.2, e.1)

/-- The edges of a polygon with their start index; the first one starts at the last vertex. -/
def closedEdgesIdx (poly : List (P2 K)) : List (Nat × P2 K × P2 K) :=
  (closedEdges poly).zipIdx.map fun e => (if e.2 = 0 then poly.length - 1 else e.2 - 1, e.1)

/-- `segment_polyline_closest_point`:
`geometrix/algorithm/distance/segment_polyline_closest_point.hpp:31-56`. `none` is an infinite
distance with nothing written. -/
def segPolylineClosest (cmp : Cmp K) (p1 p2 : P2 K) (poly : List (P2 K)) :
    Res (Option (SegPolyClosest K)) :=
  segEdgesClosest cmp p1 p2 (openEdgesIdx poly)

/-- `segment_polygon_closest_point`:
`geometrix/algorithm/distance/segment_polygon_closest_point.hpp:32-57`. -/
def segPolygonClosest (cmp : Cmp K) (p1 p2 : P2 K) (poly : List (P2 K)) :
    Res (Option (SegPolyClosest K)) :=
  segEdgesClosest cmp p1 p2 (closedEdgesIdx poly)

/-- `segment_polyline_distance_sqrd`:
`geometrix/algorithm/distance/segment_polyline_distance.hpp:37-55`. `std::min(a, b)` is `b` if
`b < a` and `a` otherwise, which is the same loop. -/
def segPolylineDistSq (cmp : Cmp K) (p1 p2 : P2 K) (poly : List (P2 K)) : Res (Option K) :=
  minLoopValue (fun e => segSegDistSq cmp p1 p2 e.1 e.2) (openEdges poly)

/-- `segment_polygon_distance_sqrd`:
`geometrix/algorithm/distance/segment_polygon_distance.hpp:37-55`. -/
def segPolygonDistSq (cmp : Cmp K) (p1 p2 : P2 K) (poly : List (P2 K)) : Res (Option K) :=
  minLoopValue (fun e => segSegDistSq cmp p1 p2 e.1 e.2) (closedEdges poly)

end Geometrix
