import Verif.Model.Distance

/-!
# Oriented boxes
-/

namespace Geometrix

variable {K : Type*} [Field K] [LinearOrder K]

/-- `oriented_bounding_box` in the plane: `geometrix/primitive/oriented_bounding_box.hpp:29-113`:
a centre, two axes (meant to be orthogonal unit vectors, which the constructor does not check) and
two half widths. -/
structure Obb (K : Type*) where
  center : P2 K
  u : P2 K
  v : P2 K
  hu : K
  hv : K
  deriving DecidableEq, Repr

/-- `operator[]`: `oriented_bounding_box.hpp:74-91,100-103`. -/
def Obb.corner (o : Obb K) (i : Nat) : Res (P2 K) :=
  match i with
  | 0 => .ok (o.center - o.hu • o.u - o.hv • o.v)
  | 1 => .ok (o.center + o.hu • o.u - o.hv • o.v)
  | 2 => .ok (o.center + o.hu • o.u + o.hv • o.v)
  | 3 => .ok (o.center - o.hu • o.u + o.hv • o.v)
  | _ => .error .assertFailed

/-- `obb_obb_intersection`:
`geometrix/algorithm/intersection/obb_obb_intersection.hpp:19-82`. `scalar_projection` is the dot
product. -/
def obbObb (cmp : Cmp K) (o1 o2 : Obb K) : Bool :=
  let cdiff := o2.center - o1.center
  let abscuu := |dot o1.u o2.u|
  let abscuv := |dot o1.u o2.v|
  if cmp.gt |dot cdiff o1.u| (o1.hu + (o2.hu * abscuu + o2.hv * abscuv)) then false
  else
    let abscvu := |dot o1.v o2.u|
    let abscvv := |dot o1.v o2.v|
    if cmp.gt |dot cdiff o1.v| (o1.hv + (o2.hu * abscvu + o2.hv * abscvv)) then false
    else if cmp.gt |dot cdiff o2.u| (o1.hu * abscuu + o1.hv * abscuv + o2.hu) then false
    else if cmp.gt |dot cdiff o2.v| (o1.hu * abscvu + o1.hv * abscvv + o2.hv) then false
    else true

/-- One axis of `point_obb_distance_sqrd`. -/
def obbExcess (d h : K) : K :=
  if d < -h then d + h
  else if d > h then d - h
  else 0

/-- `point_obb_distance_sqrd`:
`geometrix/algorithm/distance/point_obb_distance.hpp:30-64`. -/
def pointObbDistSq (p : P2 K) (b : Obb K) : K :=
  let v := p - b.center
  let e1 := obbExcess (dot v b.v) b.hv
  let e0 := obbExcess (dot v b.u) b.hu
  0 + e1 * e1 + e0 * e0

/-- One axis of `point_obb_closest_point`. -/
def obbClamp (d h : K) : K :=
  let d := if d > h then h else d
  if d < -h then -h else d

/-- `point_obb_closest_point`: `point_obb_distance.hpp:91-129`. -/
def pointObbClosest (p : P2 K) (b : Obb K) : P2 K :=
  let d := p - b.center
  let q := b.center + obbClamp (dot d b.u) b.hu • b.u
  q + obbClamp (dot d b.v) b.hv • b.v

/-- `segment_obb_distance_sqrd`:
`geometrix/algorithm/distance/segment_obb_distance.hpp:30-37`. The last segment goes from corner 3 to
corner 1, as in the code. -/
def segmentObbDistSq (cmp : Cmp K) (s : Seg K) (o : Obb K) : Res K := do
  let c0 ← o.corner 0
  let c1 ← o.corner 1
  let c2 ← o.corner 2
  let c3 ← o.corner 3
  let d ← segSegDistSq cmp s.s s.e c0 c1
  let d1 ← segSegDistSq cmp s.s s.e c1 c2
  let d := minCopy d d1
  let d2 ← segSegDistSq cmp s.s s.e c2 c3
  let d := minCopy d d2
  let d3 ← segSegDistSq cmp s.s s.e c3 c1
  pure (minCopy d d3)

end Geometrix
