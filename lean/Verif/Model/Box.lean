import Verif.Model.Orientation
import Verif.Model.Basic3

/-!
# Axis aligned boxes
-/

set_option linter.unusedSectionVars false

namespace Geometrix

variable {K : Type*} [Field K] [LinearOrder K]

/-- `axis_aligned_bounding_box` in the plane:
`geometrix/primitive/axis_aligned_bounding_box.hpp:199-321`. The constructor does not check that
the low corner is below the high corner. -/
@[ext] structure Box (K : Type*) where
  lo : P2 K
  hi : P2 K
  deriving DecidableEq, Repr

/-- `intersects` for a point: `axis_aligned_bounding_box.hpp:64-93,230-240`. The dimensions are
tested from the last to the first. -/
def Box.intersectsPoint (cmp : Cmp K) (b : Box K) (p : P2 K) : Bool :=
  if cmp.lt p.y b.lo.y || cmp.gt p.y b.hi.y then false
  else if cmp.lt p.x b.lo.x || cmp.gt p.x b.hi.x then false
  else true

/-- `intersects` for a box: `axis_aligned_bounding_box.hpp:74-100,242-253`. -/
def Box.intersectsBox (cmp : Cmp K) (a b : Box K) : Bool :=
  if cmp.lt a.hi.y b.lo.y || cmp.gt a.lo.y b.hi.y then false
  else !(cmp.lt a.hi.x b.lo.x || cmp.gt a.lo.x b.hi.x)

/-- `contains`: `axis_aligned_bounding_box.hpp:255-271`. -/
def Box.contains (cmp : Cmp K) (a range : Box K) : Bool :=
  let upper := a.intersectsPoint cmp range.hi
  let lower := a.intersectsPoint cmp range.lo
  upper && lower

/-- `operator[]`: `axis_aligned_bounding_box.hpp:278-295`. -/
def Box.corner (b : Box K) (i : Nat) : Res (P2 K) :=
  match i with
  | 0 => .ok b.lo
  | 1 => .ok ⟨b.hi.x, b.lo.y⟩
  | 2 => .ok b.hi
  | 3 => .ok ⟨b.lo.x, b.hi.y⟩
  | _ => .error .assertFailed

/-- `expand` with `update_lo_bound` and `update_hi_bound`:
`axis_aligned_bounding_box.hpp:152-194,308-313`. -/
def Box.expand (a b : Box K) : Box K :=
  ⟨⟨if b.lo.x < a.lo.x then b.lo.x else a.lo.x, if b.lo.y < a.lo.y then b.lo.y else a.lo.y⟩,
   ⟨if a.hi.x < b.hi.x then b.hi.x else a.hi.x, if a.hi.y < b.hi.y then b.hi.y else a.hi.y⟩⟩

/-- One step of the loop in `get_bounds`: `geometrix/primitive/point_sequence_utilities.hpp:227-241`.
The bounds start at plus and minus infinity (`:186-189`); `none` stands for that start value, and
comparing a number with it sets both bounds. That holds for the direct and the absolute tolerance
policy; the relative policies compute with infinities there and are not modelled. -/
def boundsStep (cmp : Cmp K) (b : Option (Box K)) (p : P2 K) : Option (Box K) :=
  match b with
  | none => some ⟨p, p⟩
  | some b => some
    ⟨⟨if cmp.lt p.x b.lo.x then p.x else b.lo.x, if cmp.lt p.y b.lo.y then p.y else b.lo.y⟩,
     ⟨if cmp.gt p.x b.hi.x then p.x else b.hi.x, if cmp.gt p.y b.hi.y then p.y else b.hi.y⟩⟩

/-- `get_bounds` and `make_aabb` of a point sequence: `point_sequence_utilities.hpp:218-244`,
`axis_aligned_bounding_box.hpp:331-342`. `none` is the inverted infinite box of an empty sequence. -/
def getBounds (cmp : Cmp K) (pts : List (P2 K)) : Option (Box K) :=
  pts.foldl (boundsStep cmp) none

/-- `make_aabb` of a segment: `axis_aligned_bounding_box.hpp:34-58,388-420`. -/
def makeAabbSegment (cmp : Cmp K) (s : Seg K) : Box K :=
  let step := fun (b : Box K) (p : P2 K) =>
    (⟨⟨if cmp.lt p.x b.lo.x then p.x else b.lo.x, if cmp.lt p.y b.lo.y then p.y else b.lo.y⟩,
     ⟨if cmp.gt p.x b.hi.x then p.x else b.hi.x, if cmp.gt p.y b.hi.y then p.y else b.hi.y⟩⟩ : Box K)
  step (step ⟨s.s, s.s⟩ s.s) s.e

/-- `bounding_box_intersection`: `geometrix/algorithm/bounding_box_intersection.hpp:20-37`.
`boost::minmax(a,b)` is `(b,a)` if `b < a` and `(a,b)` otherwise. -/
def boundingBoxIntersection (cmp : Cmp K) (p1 p2 p3 p4 : P2 K) : Bool :=
  let minmax := fun (a b : K) => if b < a then (b, a) else (a, b)
  let x1 := minmax p1.x p2.x
  let y1 := minmax p1.y p2.y
  let x2 := minmax p3.x p4.x
  let y2 := minmax p3.y p4.y
  cmp.ge x1.2 x2.1 && cmp.ge x2.2 x1.1 && cmp.ge y1.2 y2.1 && cmp.ge y2.2 y1.1

/-- One dimension of `point_aabb_distance_sqrd`. -/
def axisDistSq (x lo hi : K) : K :=
  (if x < lo then (lo - x) * (lo - x) else 0) + (if x > hi then (x - hi) * (x - hi) else 0)

/-- `point_aabb_distance_sqrd`: `geometrix/algorithm/distance/point_aabb_distance.hpp:32-53`. The
sums of the four conditional terms are grouped by dimension. -/
def pointAabbDistSq (p : P2 K) (b : Box K) : K :=
  axisDistSq p.x b.lo.x b.hi.x + axisDistSq p.y b.lo.y b.hi.y

/-- One dimension of `point_aabb_closest_point`: two consecutive tests, the second one on the value
the first one may have changed. -/
def axisClosest (x lo hi : K) : K :=
  let x := if x < lo then lo else x
  if x > hi then hi else x

/-- `point_aabb_closest_point`: `point_aabb_distance.hpp:83-103`. -/
def pointAabbClosest (p : P2 K) (b : Box K) : P2 K :=
  ⟨axisClosest p.x b.lo.x b.hi.x, axisClosest p.y b.lo.y b.hi.y⟩

/-- One dimension of `aabb_aabb_distance_sqrd`. -/
def axisGapSq (lo1 hi1 lo2 hi2 : K) : K :=
  if hi2 < lo1 then (hi2 - lo1) * (hi2 - lo1)
  else if lo2 > hi1 then (lo2 - hi1) * (lo2 - hi1)
  else 0

/-- `aabb_aabb_distance_sqrd`: `geometrix/algorithm/distance/aabb_aabb_distance.hpp:39-67`. The
second overload (`:69-104`), meant for three dimensions, has a template parameter that cannot be
deduced and the tag of dimension 2, so that it is never selected. -/
def aabbAabbDistSq (a b : Box K) : K :=
  axisGapSq a.lo.x a.hi.x b.lo.x b.hi.x + axisGapSq a.lo.y a.hi.y b.lo.y b.hi.y

/-- `sphere_aabb_intersection`:
`geometrix/algorithm/intersection/sphere_aabb_intersection.hpp:18-23` (a circle, in the plane). -/
def sphereAabb (c : P2 K) (r : K) (b : Box K) : Bool :=
  decide (pointAabbDistSq c b ≤ r * r)

/-- The overload that also returns the closest point: `sphere_aabb_intersection.hpp:25-37`. -/
def sphereAabbPoint (c : P2 K) (r : K) (b : Box K) : Bool × P2 K :=
  let p := pointAabbClosest c b
  (decide (normSq (p - c) ≤ r * r), p)

/-- `segment_aabb_intersection` in the plane:
`geometrix/algorithm/intersection/segment_aabb_intersection.hpp:67-101`. `eps` is
`std::numeric_limits<length_t>::epsilon()`. -/
def segmentAabb (eps : K) (p0 p1 : P2 K) (b : Box K) : Bool :=
  let e := b.hi - b.lo
  let d := p1 - p0
  let m := (p0 - b.lo) + (p1 - b.hi)
  let adx := |d.x|
  if |m.x| > e.x + adx then false
  else
    let ady := |d.y|
    if |m.y| > e.y + ady then false
    else
      let adx := adx + eps
      let ady := ady + eps
      if |m.x * d.y - m.y * d.x| > e.x * ady + e.y * adx then false
      else true

/-- A box in space, same source as `Box`. -/
structure Box3 (K : Type*) where
  lo : P3 K
  hi : P3 K
  deriving DecidableEq, Repr

/-- `segment_aabb_intersection` in space: `segment_aabb_intersection.hpp:25-64`. -/
def segmentAabb3 (eps : K) (p0 p1 : P3 K) (b : Box3 K) : Bool :=
  let e := b.hi - b.lo
  let d := p1 - p0
  let m := (p0 - b.lo) + (p1 - b.hi)
  let adx := |d.x|
  if |m.x| > e.x + adx then false
  else
    let ady := |d.y|
    if |m.y| > e.y + ady then false
    else
      let adz := |d.z|
      if |m.z| > e.z + adz then false
      else
        let adx := adx + eps
        let ady := ady + eps
        let adz := adz + eps
        if |m.y * d.z - m.z * d.y| > e.y * adz + e.z * ady then false
        else if |m.z * d.x - m.x * d.z| > e.x * adz + e.z * adx then false
        else if |m.x * d.y - m.y * d.x| > e.x * ady + e.y * adx then false
        else true

/-- `point_aabb_distance_sqrd` in space: `point_aabb_distance.hpp:55-81`. -/
def pointAabbDistSq3 (p : P3 K) (b : Box3 K) : K :=
  axisDistSq p.x b.lo.x b.hi.x + axisDistSq p.y b.lo.y b.hi.y + axisDistSq p.z b.lo.z b.hi.z

/-- `point_aabb_closest_point` in space: `point_aabb_distance.hpp:105-129`. -/
def pointAabbClosest3 (p : P3 K) (b : Box3 K) : P3 K :=
  ⟨axisClosest p.x b.lo.x b.hi.x, axisClosest p.y b.lo.y b.hi.y, axisClosest p.z b.lo.z b.hi.z⟩

/-- The state of the slab loop: `tmin`, and `tmax` with `none` for infinity. -/
structure Slab (K : Type*) where
  tmin : K
  tmax : Option K

/-- One slab of `ray_aabb_intersection`:
`geometrix/algorithm/intersection/ray_aabb_intersection.hpp:70-96,99-127`. `none` is `return false`. -/
def slabStep (cmp : Cmp K) (p d lo hi : K) (s : Slab K) : Res (Option (Slab K)) :=
  if cmp.equals d 0 then
    if decide (p < lo) || decide (p > hi) then .ok none else .ok (some s)
  else
    match cdiv 1 d with
    | .error f => .error f
    | .ok ood =>
      let t1 := (lo - p) * ood
      let t2 := (hi - p) * ood
      let (t1, t2) := if t1 > t2 then (t2, t1) else (t1, t2)
      let tmin := max s.tmin t1
      let tmax := match s.tmax with
        | none => t2
        | some m => min m t2
      if tmin > tmax then .ok none else .ok (some ⟨tmin, some tmax⟩)

/-- What `ray_aabb_intersection` gives back on a hit. -/
structure RayBoxHit (K : Type*) where
  inside : Bool
  tmin : K
  q : P2 K

/-- `ray_aabb_intersection`, one point: `ray_aabb_intersection.hpp:57-142`. `none` is a miss. The
variable `texit` of the code always equals `tmax`, so one variable is used for both. An infinite
`texit` (a null direction) makes the point not a number. The reference parameter `tmin` is also
written on a miss; its value then is not modelled. -/
def rayAabb (cmp : Cmp K) (p d : P2 K) (a : Box K) : Res (Option (RayBoxHit K)) :=
  match slabStep cmp p.x d.x a.lo.x a.hi.x ⟨0, none⟩ with
  | .error f => .error f
  | .ok none => .ok none
  | .ok (some s1) =>
    match slabStep cmp p.y d.y a.lo.y a.hi.y s1 with
    | .error f => .error f
    | .ok none => .ok none
    | .ok (some s2) =>
      let inside := a.intersectsPoint cmp p
      if !inside then .ok (some ⟨inside, s2.tmin, p + s2.tmin • d⟩)
      else
        match s2.tmax with
        | none => .error .nan
        | some te => .ok (some ⟨inside, s2.tmin, p + te • d⟩)

/-- What the overload with two points gives back on a hit. -/
structure RayBoxHit2 (K : Type*) where
  inside : Bool
  tentrance : K
  q0 : P2 K
  texit : K
  q1 : P2 K

/-- `ray_aabb_intersection`, entry and exit: `ray_aabb_intersection.hpp:144-220`. -/
def rayAabb2 (cmp : Cmp K) (p d : P2 K) (a : Box K) : Res (Option (RayBoxHit2 K)) :=
  match slabStep cmp p.x d.x a.lo.x a.hi.x ⟨0, none⟩ with
  | .error f => .error f
  | .ok none => .ok none
  | .ok (some s1) =>
    match slabStep cmp p.y d.y a.lo.y a.hi.y s1 with
    | .error f => .error f
    | .ok none => .ok none
    | .ok (some s2) =>
      match s2.tmax with
      | none => .error .nan
      | some te =>
        .ok (some ⟨a.intersectsPoint cmp p, s2.tmin, p + s2.tmin • d, te, p + te • d⟩)

end Geometrix
