import Verif.Model.Obb
import Verif.Model.RayIntersection
import Verif.Model.PolygonSimple

/-!
# Separating axes

`geometrix/algorithm/intersection/detail/separating_axis_common.hpp`,
`geometrix/algorithm/intersection/separating_axis_convex_polygons.hpp`,
`geometrix/algorithm/intersection/moving_separating_axis_convex_polygons.hpp`,
`geometrix/algorithm/intersection/moving_obb_obb_intersection.hpp`.
-/

set_option linter.unusedSectionVars false

namespace Geometrix

variable {K : Type*} [Field K] [LinearOrder K]

/-- `get_middle_index`: `separating_axis_common.hpp:24-30`. The division by a zero size is excluded in `extremeLoop`. -/
def sepMiddle (i0 i1 n : Nat) : Nat :=
  if i0 < i1 then (i0 + i1) / 2 else ((i0 + i1 + n) / 2) % n

/-- The loop of `get_extreme_index`: `separating_axis_common.hpp:42-65`. The fuel bounds the number of rounds; a run that
uses it up is `diverges`. -/
def extremeLoop (cmp : Cmp K) (c : List (P2 K)) (d : P2 K) : Nat → Nat → Nat → Res Nat
  | 0, _, _ => .error .diverges
  | fuel + 1, i0, i1 =>
    if c.length = 0 then .error .divByZero
    else
      let mid := sepMiddle i0 i1 c.length
      match c[mid]?, c[(mid + 1) % c.length]?, c[(mid + c.length - 1) % c.length]? with
      | some pm, some pn, some pp =>
        if cmp.gt (dot d (pn - pm)) 0 then
          if mid ≠ i0 then extremeLoop cmp c d fuel mid i1 else .ok i1
        else if cmp.lt (dot d (pm - pp)) 0 then extremeLoop cmp c d fuel i0 mid
        else .ok mid
      | _, _, _ => .error .outOfRange

/-- `get_extreme_index`: `separating_axis_common.hpp:32-66`. -/
def extremeIndex (cmp : Cmp K) (fuel : Nat) (c : List (P2 K)) (d : P2 K) : Res Nat :=
  extremeLoop cmp c d fuel 0 0

/-- The vertex with the index that `get_extreme_index` gives. -/
def extremePoint (cmp : Cmp K) (fuel : Nat) (c : List (P2 K)) (d : P2 K) : Res (P2 K) :=
  match extremeIndex cmp fuel c d with
  | .error e => .error e
  | .ok m =>
    match c[m]? with
    | some p => .ok p
    | none => .error .outOfRange

/-- The condition under which `convex_polygons_intersection` returns false, for one side from `e.1` to `e.2` and the other
polygon: `separating_axis_convex_polygons.hpp:28-32,38-42`. -/
def sideSeparates (cmp : Cmp K) (fuel : Nat) (q : List (P2 K)) (e : P2 K × P2 K) : Res Bool :=
  let d := leftNormal (e.2 - e.1)
  match extremePoint cmp fuel q (-d) with
  | .error f => .error f
  | .ok p => .ok (cmp.gt (dot d (p - e.2)) 0)

/-- `convex_polygons_intersection`: `separating_axis_convex_polygons.hpp:16-47`. -/
def convexIntersection (cmp : Cmp K) (fuel : Nat) (p1 p2 : List (P2 K)) : Res Bool :=
  match anyRes (sideSeparates cmp fuel p2) (closedEdges p1) with
  | .error f => .error f
  | .ok true => .ok false
  | .ok false =>
    match anyRes (sideSeparates cmp fuel p1) (closedEdges p2) with
    | .error f => .error f
    | .ok true => .ok false
    | .ok false => .ok true

/-- What is written by the functions about moving figures, and what they return: an absent `tlast` is infinity. -/
structure MovingHit (K : Type*) where
  hit : Bool
  tfirst : K
  tlast : Option K
  deriving DecidableEq, Repr

/-- `if(t < tlast) tlast = t;` where `tlast` may be infinite. -/
def minLast (t : K) : Option K → Option K
  | none => some t
  | some l => if t < l then some t else some l

/-- `tfirst > tlast` where `tlast` may be infinite. -/
def afterLast (t : K) : Option K → Bool
  | none => false
  | some l => decide (l < t)

/-- The data of one axis: the speed of the second figure along it, and the two intervals. -/
structure AxisData (K : Type*) where
  speed : K
  min1 : K
  max1 : K
  min2 : K
  max2 : K
  deriving DecidableEq, Repr

/-- `no_intersect`: `separating_axis_common.hpp:84-154`. The field `hit` is the negation of what it returns. The variable
`side` is not modelled, its value is not visible outside. The reciprocal of the speed is used only where the speed is
not 0 (for 0 it is an infinite floating point number which is not used). -/
def noIntersect (tmax : K) (a : AxisData K) (tfirst : K) (tlast : Option K) : MovingHit K :=
  let inv := 1 / a.speed
  if a.max2 < a.min1 then
    if a.speed ≤ 0 then ⟨false, tfirst, tlast⟩
    else
      let t := (a.min1 - a.max2) * inv
      let tfirst := if t > tfirst then t else tfirst
      if tfirst > tmax then ⟨false, tfirst, tlast⟩
      else
        let tlast := minLast ((a.max1 - a.min2) * inv) tlast
        ⟨!afterLast tfirst tlast, tfirst, tlast⟩
  else if a.max1 < a.min2 then
    if a.speed ≥ 0 then ⟨false, tfirst, tlast⟩
    else
      let t := (a.max1 - a.min2) * inv
      let tfirst := if t > tfirst then t else tfirst
      if tfirst > tmax then ⟨false, tfirst, tlast⟩
      else
        let tlast := minLast ((a.min1 - a.max2) * inv) tlast
        ⟨!afterLast tfirst tlast, tfirst, tlast⟩
  else if a.speed > 0 then
    let tlast := minLast ((a.max1 - a.min2) * inv) tlast
    ⟨!afterLast tfirst tlast, tfirst, tlast⟩
  else if a.speed < 0 then
    let tlast := minLast ((a.min1 - a.max2) * inv) tlast
    ⟨!afterLast tfirst tlast, tfirst, tlast⟩
  else ⟨true, tfirst, tlast⟩

/-- `no_intersect` for one axis after the other, until it returns true: the common shape of
`moving_obb_obb_intersection.hpp:37-120` and `moving_separating_axis_convex_polygons.hpp:35-57`. -/
def axesLoop {α : Type*} (f : α → Res (AxisData K)) (tmax : K) : List α → K → Option K → Res (MovingHit K)
  | [], tfirst, tlast => .ok ⟨true, tfirst, tlast⟩
  | x :: xs, tfirst, tlast =>
    match f x with
    | .error e => .error e
    | .ok a =>
      if (noIntersect tmax a tfirst tlast).hit then
        axesLoop f tmax xs (noIntersect tmax a tfirst tlast).tfirst (noIntersect tmax a tfirst tlast).tlast
      else .ok (noIntersect tmax a tfirst tlast)

/-- The intervals of one axis of `moving_obb_obb_intersection`, e.g. `moving_obb_obb_intersection.hpp:48-56`. -/
def obbAxis (center speed r1 r2 : K) : AxisData K := ⟨speed, -r1, r1, center - r2, center + r2⟩

/-- The four axes of `moving_obb_obb_intersection`: `moving_obb_obb_intersection.hpp:37-116`. -/
def obbAxes (o1 : Obb K) (v1 : P2 K) (o2 : Obb K) (v2 : P2 K) : List (AxisData K) :=
  let cdiff := o2.center - o1.center
  let v := v2 - v1
  let abscuu := |dot o1.u o2.u|
  let abscuv := |dot o1.u o2.v|
  let abscvu := |dot o1.v o2.u|
  let abscvv := |dot o1.v o2.v|
  [obbAxis (dot cdiff o1.u) (dot v o1.u) o1.hu (o2.hu * abscuu + o2.hv * abscuv),
   obbAxis (dot cdiff o1.v) (dot v o1.v) o1.hv (o2.hu * abscvu + o2.hv * abscvv),
   obbAxis (dot cdiff o2.u) (dot v o2.u) (o1.hu * abscuu + o1.hv * abscuv) o2.hu,
   obbAxis (dot cdiff o2.v) (dot v o2.v) (o1.hu * abscvu + o1.hv * abscvv) o2.hv]

/-- `moving_obb_obb_intersection`: `moving_obb_obb_intersection.hpp:19-121`. -/
def movingObbObb (o1 : Obb K) (v1 : P2 K) (o2 : Obb K) (v2 : P2 K) (tmax : K) : Res (MovingHit K) :=
  axesLoop .ok tmax (obbAxes o1 v1 o2 v2) 0 none

/-- `compute_interval`: `separating_axis_common.hpp:68-74`. -/
def computeInterval (cmp : Cmp K) (fuel : Nat) (c : List (P2 K)) (d : P2 K) : Res (K × K) :=
  match extremePoint cmp fuel c (-d) with
  | .error e => .error e
  | .ok a =>
    match extremePoint cmp fuel c d with
    | .error e => .error e
    | .ok b => .ok (dot d a, dot d b)

/-- One side in `moving_convex_polygons_intersection`: `moving_separating_axis_convex_polygons.hpp:37-40,47-50`. -/
def sideAxis (cmp : Cmp K) (fuel : Nat) (p1 p2 : List (P2 K)) (v : P2 K) (e : P2 K × P2 K) : Res (AxisData K) :=
  let d := leftNormal (e.2 - e.1)
  match computeInterval cmp fuel p1 d with
  | .error f => .error f
  | .ok (min1, max1) =>
    match computeInterval cmp fuel p2 d with
    | .error f => .error f
    | .ok (min2, max2) => .ok ⟨dot d v, min1, max1, min2, max2⟩

/-- `moving_convex_polygons_intersection`: `moving_separating_axis_convex_polygons.hpp:16-58`. -/
def movingConvex (cmp : Cmp K) (fuel : Nat) (p1 : List (P2 K)) (v1 : P2 K) (p2 : List (P2 K)) (v2 : P2 K) (tmax : K) :
    Res (MovingHit K) :=
  axesLoop (sideAxis cmp fuel p1 p2 (v2 - v1)) tmax (closedEdges p1 ++ closedEdges p2) 0 none

end Geometrix
