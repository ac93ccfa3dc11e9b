import Verif.Model.Orientation
import Verif.Model.Distance
import Verif.Model.Basic3

/-!
# Points in polygons and triangles

`geometrix/algorithm/point_in_polygon.hpp`.
-/

set_option linter.unusedSectionVars false

namespace Geometrix

variable {K : Type*} [Field K] [LinearOrder K]

/-- Whether the body of the loop of `detail::point_in_polygon` negates `inside`:
`geometrix/algorithm/point_in_polygon.hpp:45-67`. -/
def rayEdge (A u0 u1 : P2 K) : Bool :=
  if A.y < u1.y then
    if u0.y ≤ A.y then decide ((A.y - u0.y) * (u1.x - u0.x) > (A.x - u0.x) * (u1.y - u0.y)) else false
  else if A.y < u0.y then decide ((A.y - u0.y) * (u1.x - u0.x) < (A.x - u0.x) * (u1.y - u0.y))
  else false

/-- The loop of `detail::point_in_polygon`: `point_in_polygon.hpp:40-68`. The list holds the pairs of
`u1` (index `j`) and `u0` (index `i`). -/
def pipLoop (A : P2 K) : List (P2 K × P2 K) → Bool → Bool
  | [], inside => inside
  | (u1, u0) :: rest, inside => pipLoop A rest (if rayEdge A u0 u1 then !inside else inside)

/-- `point_in_polygon`: `point_in_polygon.hpp:26-71`, `:79-84`. -/
def pointInPolygon (A : P2 K) (pgon : List (P2 K)) : Bool :=
  if pgon.length < 3 then false else pipLoop A (closedEdges pgon) false

/-- `polygon_containment`: `point_in_polygon.hpp:234-240`. -/
inductive Containment where
  | exterior
  | interior
  | border
  | vertex
  deriving DecidableEq, Repr

/-- The loop of `point_polygon_containment_or_on_border` and what follows it:
`point_in_polygon.hpp:258-289`. The list holds the pairs of `pointh` and `pointi`; `eps` is
`std::numeric_limits<arithmetic_type>::epsilon()`. -/
def containLoop (cmp : Cmp K) (eps : K) (p : P2 K) :
    List (P2 K × P2 K) → Nat → Nat → Res Containment
  | [], rcross, lcross =>
    if rcross % 2 ≠ lcross % 2 then .ok .border
    else if rcross % 2 = 1 then .ok .interior
    else .ok .exterior
  | (h, i) :: rest, rcross, lcross =>
    if seqEquals cmp p i then .ok .vertex
    else
      let rstrad := cmp.gt i.y p.y != cmp.gt h.y p.y
      let lstrad := cmp.lt i.y p.y != cmp.lt h.y p.y
      if rstrad || lstrad then
        let ydiff := h.y - i.y
        match cdiv (h.x - i.x) (if ydiff = 0 then eps else ydiff) with
        | .error e => .error e
        | .ok slopeInverse =>
          let x := slopeInverse * (p.y - i.y) + i.x
          containLoop cmp eps p rest (if rstrad && cmp.gt x p.x then rcross + 1 else rcross)
            (if lstrad && cmp.lt x p.x then lcross + 1 else lcross)
      else containLoop cmp eps p rest rcross lcross

/-- `point_polygon_containment_or_on_border`: `point_in_polygon.hpp:242-290`. -/
def polygonContainment (cmp : Cmp K) (eps : K) (p : P2 K) (poly : List (P2 K)) : Res Containment :=
  if ¬ poly.length > 2 then .error .assertFailed
  else containLoop cmp eps p (closedEdges poly) 0 0

/-- `get_middle_index`: `point_in_polygon.hpp:73-77`. -/
def middleIndex (i0 i1 n : Nat) : Nat :=
  (if i0 < i1 then (i0 + i1) / 2 else (i0 + i1 + n) / 2) % n

/-- `point_in_subpolygon`: `point_in_polygon.hpp:86-109`. The first argument bounds the depth of the
recursion. -/
def pointInSub (cmp : Cmp K) (p : P2 K) (pgon : List (P2 K)) : Nat → Nat → Nat → Res Bool
  | 0, _, _ => .error .diverges
  | fuel + 1, i0, i1 =>
    match pgon[i0]?, pgon[i1]? with
    | some v0, some v1 =>
      let n := pgon.length
      if (i1 + n - i0) % n = 1 then
        .ok (getOrientation cmp v0 v1 p == .left || getOrientation cmp v0 v1 p == .collinear)
      else
        let mid := middleIndex i0 i1 n
        match pgon[mid]? with
        | none => .error .outOfRange
        | some midP =>
          if getOrientation cmp v0 midP p == .right then pointInSub cmp p pgon fuel i0 mid
          else pointInSub cmp p pgon fuel mid i1
    | _, _ => .error .outOfRange

/-- `point_in_convex_polygon`: `point_in_polygon.hpp:111-120`. -/
def pointInConvex (cmp : Cmp K) (fuel : Nat) (p : P2 K) (pgon : List (P2 K)) : Res Bool :=
  if ¬ pgon.length > 2 then .error .assertFailed else pointInSub cmp p pgon fuel 0 0

/-- `point_in_convex_quadrilateral`: `point_in_polygon.hpp:122-161`. -/
def pointInConvexQuad (cmp : Cmp K) (p : P2 K) : List (P2 K) → Res Bool
  | [v0, v1, v2, v3] =>
    if getOrientation cmp v0 v2 p != .left then
      if getOrientation cmp v0 v1 p == .right then .ok false
      else if getOrientation cmp v1 v2 p == .right then .ok false
      else .ok true
    else
      if getOrientation cmp v2 v3 p == .right then .ok false
      else if getOrientation cmp v3 v0 p == .right then .ok false
      else .ok true
  | _ => .error .assertFailed

/-- `psuedo_cross_2d`: `point_in_polygon.hpp:174-178`. -/
def pseudoCross (u v : P2 K) : K := u.y * v.x - u.x * v.y

/-- `point_in_triangle` in two dimensions: `point_in_polygon.hpp:180-197`. -/
def pointInTriangle (cmp : Cmp K) (p A B C : P2 K) : Bool :=
  if cmp.lt (pseudoCross (p - A) (B - A)) 0 then false
  else if cmp.lt (pseudoCross (p - B) (C - B)) 0 then false
  else if cmp.lt (pseudoCross (p - C) (A - C)) 0 then false
  else true

/-- `point_in_triangle` in three dimensions: `point_in_polygon.hpp:199-225`. -/
def pointInTriangle3 (cmp : Cmp K) (p A B C : P3 K) : Bool :=
  let a := A - p
  let b := B - p
  let c := C - p
  let u := cross3 b c
  let v := cross3 c a
  if cmp.lt (dot3 u v) 0 then false
  else
    let w := cross3 a b
    if cmp.lt (dot3 u w) 0 then false else true

end Geometrix
