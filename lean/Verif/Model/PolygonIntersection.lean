import Verif.Model.Box
import Verif.Model.PointInPolygon
import Verif.Model.PolylineIntersection

/-!
# Polygons and polylines with boxes, segments and convex polygons

`geometrix/algorithm/intersection/polyline_aabb_intersection.hpp`,
`geometrix/algorithm/intersection/polygon_aabb_intersection.hpp`,
`geometrix/algorithm/intersection/segment_polygon_intersection.hpp`,
`geometrix/algorithm/intersection/convex_polygon_polygon_intersection.hpp`.
-/

set_option linter.unusedSectionVars false

namespace Geometrix

variable {K : Type*} [Field K] [LinearOrder K] {σ : Type*}

/-- `polyline_aabb_intersection`: `polyline_aabb_intersection.hpp:17-33`. The head of the list is the point
with the index `i1`; `eps` is the machine epsilon that the segment test adds. -/
def polylineAabb (eps : K) (b : Box K) : List (P2 K) → Bool
  | p1 :: p2 :: rest => if segmentAabb eps p1 p2 b then true else polylineAabb eps b (p2 :: rest)
  | _ => false

/-- The loop of `polygon_aabb_intersection`: `polygon_aabb_intersection.hpp:35-42`. The number is `size - i`.
For a polygon of one vertex the first value `j = 1` is not an index. -/
def polygonAabbLoop (eps : K) (b : Box K) (poly : List (P2 K)) : Nat → Nat → Nat → Res Bool
  | 0, _, _ => .ok false
  | k + 1, i, j =>
    match poly[i]?, poly[j]? with
    | some p1, some p2 =>
      if segmentAabb eps p1 p2 b then .ok true
      else polygonAabbLoop eps b poly k (i + 1) ((j + 1) % poly.length)
    | _, _ => .error .outOfRange

/-- `polygon_aabb_intersection`: `polygon_aabb_intersection.hpp:18-44`, the corners of the box by
`axis_aligned_bounding_box.hpp:278-295`. -/
def polygonAabb (eps : K) (poly : List (P2 K)) (b : Box K) : Res Bool :=
  if pointInPolygon b.lo poly || pointInPolygon ⟨b.hi.x, b.lo.y⟩ poly || pointInPolygon b.hi poly ||
      pointInPolygon ⟨b.lo.x, b.hi.y⟩ poly then .ok true
  else polygonAabbLoop eps b poly poly.length 0 1

/-- The loop of `segment_polygon_border_intersect`: `segment_polygon_intersection.hpp:91-105`. The number is
`size - i`. -/
def segPolygonLoop (cmp : Cmp K) (A B : P2 K) (poly : List (P2 K)) (visit : σ → EdgeCall K → Bool × σ) :
    Nat → Nat → Nat → Bool → σ → Res (Bool × σ)
  | 0, _, _, intersected, s => .ok (intersected, s)
  | k + 1, i, j, intersected, s =>
    match poly[i]?, poly[j]? with
    | some p, some q =>
      match segSegIntersection cmp A B p q with
      | .error f => .error f
      | .ok (ty, pts) =>
        if ty ≠ .nonCrossing then
          match visit s ⟨ty, i, j, pts⟩ with
          | (true, s') => .ok (true, s')
          | (false, s') => segPolygonLoop cmp A B poly visit k (i + 1) ((j + 1) % poly.length) true s'
        else segPolygonLoop cmp A B poly visit k (i + 1) ((j + 1) % poly.length) intersected s
    | _, _ => .error .outOfRange

/-- `segment_polygon_border_intersect`: `segment_polygon_intersection.hpp:80-112`. The result carries the final
state of the visitor. -/
def segPolygonBorder (cmp : Cmp K) (A B : P2 K) (poly : List (P2 K)) (visit : σ → EdgeCall K → Bool × σ) (s : σ) :
    Res (Bool × σ) :=
  segPolygonLoop cmp A B poly visit poly.length 0 1 false s

/-- `polygon_intersection_type`: `convex_polygon_polygon_intersection.hpp:28-34`. -/
inductive PolyType where
  | none
  | face
  | vertex
  | overlapping
  deriving DecidableEq, Repr

/-- `in_out_state`: `convex_polygon_polygon_intersection.hpp:49-54`. -/
inductive InFlag where
  | in1
  | in2
  | unknown
  deriving DecidableEq, Repr

/-- The variables of `convex_polygon_polygon_intersection`: `convex_polygon_polygon_intersection.hpp:58-69`.
`out` holds the points given to the visitor so far, in order; what the visitor returns is ignored. The counters
are unbounded. -/
structure Trav (K : Type*) where
  a : Nat
  b : Nat
  aa : Nat
  ba : Nat
  flag : InFlag
  visited : Nat
  out : List (P2 K)

/-- `advance(a, aa, n)`: `convex_polygon_polygon_intersection.hpp:57`. -/
def Trav.stepA (s : Trav K) (n : Nat) : Trav K := { s with a := (s.a + 1) % n, aa := s.aa + 1 }

/-- `advance(b, ba, m)`: `convex_polygon_polygon_intersection.hpp:57`. -/
def Trav.stepB (s : Trav K) (m : Nat) : Trav K := { s with b := (s.b + 1) % m, ba := s.ba + 1 }

/-- `++nVisited; visitor(p)`: `convex_polygon_polygon_intersection.hpp:86-87,119-120,128-129,140-141,149-150`. -/
def Trav.visit (s : Trav K) (p : P2 K) : Trav K := { s with visited := s.visited + 1, out := s.out ++ [p] }

/-- What happens after a point of intersection was found: `convex_polygon_polygon_intersection.hpp:86-94`. -/
def Trav.found (s : Trav K) (x : P2 K) (aHB bHA : Orient) : Trav K :=
  let s1 := s.visit x
  let s2 := if s1.flag = .unknown ∧ s1.visited = 1 then { s1 with aa := 0, ba := 0 } else s1
  if aHB = .left then { s2 with flag := .in1 }
  else if bHA = .left then { s2 with flag := .in2 }
  else s2

/-- The test for a point of intersection: `convex_polygon_polygon_intersection.hpp:84-95`. `pts` are the points
written. -/
def Trav.look (s : Trav K) (ty : IType) (pts : List (P2 K)) (aHB bHA : Orient) : Trav K :=
  if ty = .crossing ∨ ty = .endpoint then
    match pts with
    | x :: _ => s.found x aHB bHA
    | [] => s
  else s

/-- The choice of the polygon to advance on: `convex_polygon_polygon_intersection.hpp:106-154`. -/
def Trav.advance (s : Trav K) (n m : Nat) (pa qb : P2 K) (oAB aHB bHA : Orient) : Trav K :=
  if oAB = .collinear ∧ aHB = .collinear ∧ bHA = .collinear then
    if s.flag = .in1 then s.stepB m else s.stepA n
  else if oAB ≠ .right then
    if bHA = .left then (if s.flag = .in1 then s.visit pa else s).stepA n
    else (if s.flag = .in2 then s.visit qb else s).stepB m
  else
    if aHB = .left then (if s.flag = .in2 then s.visit qb else s).stepB m
    else (if s.flag = .in1 then s.visit pa else s).stepA n

/-- The body of the loop: `convex_polygon_polygon_intersection.hpp:72-154`. It ends the function with a value or
leaves a new state. `xpoints[0]` is written whenever the type is a crossing or
an end point, and both points for an overlap. -/
def travBody (cmp : Cmp K) (p q : List (P2 K)) (s : Trav K) : Res ((PolyType × List (P2 K)) ⊕ Trav K) :=
  match p[s.a]?, p[(s.a + p.length - 1) % p.length]?, q[s.b]?, q[(s.b + q.length - 1) % q.length]? with
  | some pa, some pa1, some qb, some qb1 =>
    let A := pa - pa1
    let B := qb - qb1
    let oAB := getOrientationV cmp A B
    let aHB := getOrientation cmp qb1 qb pa
    let bHA := getOrientation cmp pa1 pa qb
    match segSegIntersection cmp pa1 pa qb1 qb with
    | .error f => .error f
    | .ok (ty, pts) =>
      if ty = .overlapping ∧ dot A B < 0 then .ok (.inl (.face, s.out ++ pts))
      else
        let s1 := s.look ty pts aHB bHA
        if oAB = .collinear ∧ aHB = .right ∧ bHA = .right then .ok (.inl (.none, s1.out))
        else .ok (.inr (s1.advance p.length q.length pa qb oAB aHB bHA))
  | _, _, _, _ => .error .outOfRange

/-- The part of the points that the loops `:163-164` and `:169-170` give to the visitor: the points with the
indices below `m`. -/
def firstPoints (l : List (P2 K)) (m : Nat) : Res (List (P2 K)) :=
  if m ≤ l.length then .ok (l.take m) else .error .outOfRange

/-- What follows the loop: `convex_polygon_polygon_intersection.hpp:157-175`. Both loops run to `m`, the size of the
second polygon. -/
def travEnd (p q : List (P2 K)) (s : Trav K) : Res (PolyType × List (P2 K)) :=
  if s.flag = .unknown then
    if s.visited ≠ 0 then .error .assertFailed
    else
      match p[0]?, q[0]? with
      | some p0, some q0 =>
        if pointInPolygon p0 q then
          match firstPoints p q.length with
          | .error f => .error f
          | .ok l => .ok (.overlapping, s.out ++ l)
        else if pointInPolygon q0 p then
          match firstPoints q q.length with
          | .error f => .error f
          | .ok l => .ok (.overlapping, s.out ++ l)
        else .ok (.none, s.out)
      | _, _ => .error .outOfRange
  else .ok (if s.visited = 0 then .none else .overlapping, s.out)

/-- The loop: `convex_polygon_polygon_intersection.hpp:70-155`. The number bounds the number of turns. -/
def travLoop (cmp : Cmp K) (p q : List (P2 K)) : Nat → Trav K → Res (PolyType × List (P2 K))
  | 0, _ => .error .diverges
  | k + 1, s =>
    match travBody cmp p q s with
    | .error f => .error f
    | .ok (.inl r) => .ok r
    | .ok (.inr s') =>
      if (s'.aa < p.length ∨ s'.ba < q.length) ∧ s'.aa < p.length * 2 ∧ s'.ba < q.length * 2 then
        travLoop cmp p q k s'
      else travEnd p q s'

/-- `convex_polygon_polygon_intersection`: `convex_polygon_polygon_intersection.hpp:36-176`. The result carries the
points given to the visitor. With an empty polygon the first remainder is a division by zero. -/
def convexPolyPoly (cmp : Cmp K) (fuel : Nat) (p q : List (P2 K)) : Res (PolyType × List (P2 K)) :=
  if p.length = 0 ∨ q.length = 0 then .error .divByZero
  else travLoop cmp p q fuel ⟨0, 0, 0, 0, .unknown, 0, []⟩

end Geometrix
