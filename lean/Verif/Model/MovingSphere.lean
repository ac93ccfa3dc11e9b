import Verif.Model.SphereHits
import Verif.Model.Line
import Verif.Model.Box
import Verif.Model.Obb
import Verif.Model.Distance

/-!
# Moving spheres against lines, segments and boxes, and segments against capsules

`geometrix/algorithm/intersection/moving_sphere_plane_intersection.hpp`, `moving_sphere_segment_intersection.hpp`,
`moving_sphere_aabb_intersection.hpp`, `segment_capsule_intersection.hpp`, `segment_plane_intersection.hpp` and
`sphere_obb_intersection.hpp` in the same directory, all in the plane. Where the answer is `false`, what was written
to the output arguments before is not modelled.
-/

set_option linter.unusedSectionVars false

namespace Geometrix

/-- `moving_sphere_plane_intersection_result`: `moving_sphere_plane_intersection.hpp:25-58`. -/
structure PlaneFlags where
  intersecting : Bool
  penetrating : Bool
  movingAway : Bool
  deriving DecidableEq

/-- `moving_sphere_plane_intersection` for the line with the normal `n` and the distance `d` to the origin:
`moving_sphere_plane_intersection.hpp:64-110`. The flags, and the time and the point if intersecting. -/
noncomputable def movingSpherePlane (cmp : Cmp ℝ) (c : P2 ℝ) (r : ℝ) (v n : P2 ℝ) (d : ℝ) :
    Res (PlaneFlags × Option (ℝ × P2 ℝ)) :=
  let dist := dot c n - d
  let denom := dot v n
  let isMovingAway := cmp.ge (denom * dist) 0
  if cmp.lt |dist| r then
    match cdiv dist (dot n n) with
    | .error e => .error e
    | .ok tc => .ok (⟨true, true, isMovingAway⟩, some (0, c - tc • n))
  else if cmp.equals |dist| r then
    match cdiv dist (dot n n) with
    | .error e => .error e
    | .ok tc => .ok (⟨true, false, isMovingAway⟩, some (0, c - tc • n))
  else if isMovingAway then .ok (⟨false, false, true⟩, none)
  else
    let r' := if dist > 0 then r else -r
    match cdiv (r' - dist) denom with
    | .error e => .error e
    | .ok t => .ok (⟨true, true, false⟩, some (t, c + t • v - r' • n))

/-- `moving_sphere_toward_segment_endpoint_intersect`: `moving_sphere_segment_intersection.hpp:70-122`. -/
noncomputable def movingSphereEnd (cmp : Cmp ℝ) (v c : P2 ℝ) (r : ℝ) (a : P2 ℝ) : Res (Option (ℝ × P2 ℝ)) :=
  let m := c - a
  let speed := Real.sqrt (dot v v)
  if cmp.equals speed 0 then .ok none
  else
    match cdiv v.x speed, cdiv v.y speed with
    | .ok dx, .ok dy =>
      let dir : P2 ℝ := ⟨dx, dy⟩
      let b := dot m dir
      let k := dot m m - r * r
      if cmp.ge k 0 && cmp.ge b 0 then .ok none
      else
        let discr := b * b - k
        if discr < 0 then .ok none
        else
          match csqrt discr with
          | .error e => .error e
          | .ok w =>
            let lt := -(b + w)
            let lt := if cmp.lt lt 0 then 0 else lt
            let newCenter := c + lt • dir
            match normalize2 (a - newCenter) with
            | .error e => .error e
            | .ok u =>
              match cdiv lt speed with
              | .error e => .error e
              | .ok t => .ok (some (t, newCenter + r • u))
    | .error e, _ => .error e
    | _, .error e => .error e

/-- `moving_sphere_segment_intersection_result`: `moving_sphere_segment_intersection.hpp:31-66`. -/
structure SegFlags where
  intersecting : Bool
  onLineAtStart : Bool
  endpoint : Bool
  penetrating : Bool
  movingAway : Bool
  deriving DecidableEq

/-- `moving_sphere_segment_intersection`: `moving_sphere_segment_intersection.hpp:126-160`. The flags, and the time and
the point if intersecting. -/
noncomputable def movingSphereSegment (cmp : Cmp ℝ) (c : P2 ℝ) (r : ℝ) (v a b : P2 ℝ) :
    Res (SegFlags × Option (ℝ × P2 ℝ)) :=
  match makeLine a b with
  | .error e => .error e
  | .ok l =>
    match movingSpherePlane cmp c r v l.n l.d with
    | .error e => .error e
    | .ok (f, none) => .ok (⟨false, false, false, f.penetrating, f.movingAway⟩, none)
    | .ok (f, some (t, q)) =>
      let already := cmp.equals t 0
      if isBetween cmp a b q true then .ok (⟨true, already, false, f.penetrating, f.movingAway⟩, some (t, q))
      else
        match movingSphereEnd cmp v c r (if distSq q b < distSq q a then b else a) with
        | .error e => .error e
        | .ok none => .ok (⟨false, already, false, f.penetrating, f.movingAway⟩, none)
        | .ok (some x) => .ok (⟨true, already, true, f.penetrating, f.movingAway⟩, some x)

/-- The lambda `corner`: `moving_sphere_aabb_intersection.hpp:97-100`. -/
noncomputable def boxCorner (a : Box ℝ) (n : Nat) : P2 ℝ :=
  ⟨if n &&& 1 = 0 then a.lo.x else a.hi.x, if n &&& 2 = 0 then a.lo.y else a.hi.y⟩

/-- `moving_sphere_aabb_intersection`: `moving_sphere_aabb_intersection.hpp:72-149`. The sums of bits `u` and `v` are
numbers. `m & (m - 1)` is zero for the remaining values 0, 1 and 2 of `m`, so that the last statement of the function
is never reached; it is left out. The largest number of the type, from which `tmin` starts, is larger than every
time. -/
noncomputable def movingSphereAabb (cmp : Cmp ℝ) (c : P2 ℝ) (r : ℝ) (vel : P2 ℝ) (a : Box ℝ) :
    Res (Option (ℝ × P2 ℝ)) :=
  let rv : P2 ℝ := ⟨r, r⟩
  match rayAabb cmp c vel ⟨a.lo - rv, a.hi + rv⟩ with
  | .error e => .error e
  | .ok none => .ok none
  | .ok (some h) =>
    let p := h.q
    let u := (if p.x < a.lo.x then 1 else 0) + (if p.y < a.lo.y then 2 else 0)
    let v := (if p.x > a.hi.x then 1 else 0) + (if p.y > a.hi.y then 2 else 0)
    let m := u + v
    if m = 3 then
      match movingSphereSegment cmp c r vel (boxCorner a v) (boxCorner a (v ^^^ 1)) with
      | .error e => .error e
      | .ok (_, first) =>
        match movingSphereSegment cmp c r vel (boxCorner a v) (boxCorner a (v ^^^ 2)) with
        | .error e => .error e
        | .ok (_, second) =>
          match first, second with
          | none, s => .ok s
          | some x, none => .ok (some x)
          | some x, some y => .ok (some (if y.1 < x.1 then y else x))
    else
      let newCenter := c + h.tmin • vel
      match pointSegClosestPts newCenter (boxCorner a (u ^^^ 3)) (boxCorner a v) with
      | .error e => .error e
      | .ok k =>
        match normalize2 (k - newCenter) with
        | .error e => .error e
        | .ok w => .ok (some (h.tmin, newCenter + r • w))

/-- What `segment_capsule_intersection` has written when it answers `true`. -/
structure CapsuleHit where
  t : Option ℝ
  q : Option (P2 ℝ)

/-- The end caps in `segment_capsule_intersection`. -/
noncomputable def capHit (cmp : Cmp ℝ) (sa n : P2 ℝ) (nn : ℝ) (ctr : P2 ℝ) (r : ℝ) : Res (Option CapsuleHit) :=
  match csqrt nn with
  | .error e => .error e
  | .ok l =>
    match segSphereLength cmp sa n l ctr r with
    | .error e => .error e
    | .ok none => .ok none
    | .ok (some (t, q)) => .ok (some ⟨some t, q⟩)

/-- `segment_capsule_intersection`: `segment_capsule_intersection.hpp:21-102`, for the segment from `sa` to `sb` and
the capsule of the segment from `p` to `q` with the radius `r`. -/
noncomputable def segCapsule (cmp : Cmp ℝ) (sa sb p q : P2 ℝ) (r : ℝ) : Res (Option CapsuleHit) :=
  let d := q - p
  let m := sa - p
  let n := sb - sa
  let md := dot m d
  let nd := dot n d
  let dd := dot d d
  let nn := dot n n
  if md < 0 ∧ md + nd < 0 then capHit cmp sa n nn p r
  else if md > dd ∧ md + nd > dd then capHit cmp sa n nn q r
  else
    let mn := dot m n
    let a := dd * nn - nd * nd
    let k := dot m m - r * r
    let c := dd * k - md * md
    if cmp.lt |a| 0 then
      if c > 0 then .ok none
      else
        let always := fun (x : Res (Option CapsuleHit)) => match x with
          | .error e => Except.error e
          | .ok none => .ok (some (⟨none, none⟩ : CapsuleHit))
          | .ok (some h) => .ok (some h)
        if md < 0 then always (capHit cmp sa n nn p r)
        else if md > dd then always (capHit cmp sa n nn q r)
        else .ok (some ⟨some 0, some sa⟩)
    else
      let b := dd * mn - nd * md
      let discr := b * b - a * c
      if discr < 0 then .ok none
      else
        match csqrt discr with
        | .error e => .error e
        | .ok w =>
          match cdiv (-b - w) a with
          | .error e => .error e
          | .ok t =>
            if md + t * nd < 0 then
              if cmp.gt k 0 && cmp.gt mn 0 then .ok none
              else capHit cmp sa n nn p r
            else if md + t * nd > dd then capHit cmp sa n nn q r
            else if t ≥ 0 ∧ t ≤ 1 then .ok (some ⟨some t, some (sa + t • n)⟩)
            else .ok none

section
variable {K : Type*} [Field K] [LinearOrder K]

/-- `segment_plane_intersection` for the line with the normal `n` and the distance `d` to the origin:
`segment_plane_intersection.hpp:20-39`. -/
def segPlane (a b n : P2 K) (d : K) : Res (Option (K × P2 K)) :=
  let ab := b - a
  match cdiv (d - dot n a) (dot n ab) with
  | .error e => .error e
  | .ok t => if t ≥ 0 ∧ t ≤ 1 then .ok (some (t, a + t • ab)) else .ok none

/-- `segment_plane_intersection` in space: `segment_plane_intersection.hpp:20-39`. -/
def segPlane3 (a b n : P3 K) (d : K) : Res (Option (K × P3 K)) :=
  let ab := b - a
  match cdiv (d - dot3 n a) (dot3 n ab) with
  | .error e => .error e
  | .ok t => if t ≥ 0 ∧ t ≤ 1 then .ok (some (t, a + t • ab)) else .ok none

/-- `sphere_obb_intersection`: `sphere_obb_intersection.hpp:18-30`. -/
def sphereObb (c : P2 K) (r : K) (o : Obb K) : Bool :=
  let p := pointObbClosest c o
  decide (normSq (p - c) ≤ r * r)

end

end Geometrix
