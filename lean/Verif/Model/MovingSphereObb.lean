import Verif.Model.MovingSphere
import Verif.Model.Rotation

/-!
# A moving sphere against an oriented box

`geometrix/algorithm/intersection/moving_sphere_obb_intersection.hpp`, in the plane. Where the answer is `false`, what
was written to the output arguments before is not modelled; of the result object only whether it counts as `true` is
kept.
-/

set_option linter.unusedSectionVars false

namespace Geometrix

/-- The four points `ll`, `lr`, `ur` and `ul` and the lambda `corner` that picks one of them by its bits:
`moving_sphere_obb_intersection.hpp:80-83,112-115`, with `oriented_bounding_box.hpp:100-103` for the points. -/
noncomputable def obbCorner (o : Obb ℝ) (n : Nat) : P2 ℝ :=
  if n &&& 1 = 0 then
    if n &&& 2 = 0 then o.center - o.hu • o.u - o.hv • o.v else o.center - o.hu • o.u + o.hv • o.v
  else if n &&& 2 = 0 then o.center + o.hu • o.u - o.hv • o.v else o.center + o.hu • o.u + o.hv • o.v

/-- `moving_sphere_obb_intersection`: `moving_sphere_obb_intersection.hpp:69-161`. The sums of bits `u` and `v` are
numbers. `m & (m - 1)` is zero for the remaining values 0, 1 and 2 of `m`, so that the last statement of the function
is never reached; it is left out. The largest number of the type, from which `tmin` starts, is larger than every
time. The box `a` is made from two rotated corners without a check that the first is the lower one. -/
noncomputable def movingSphereObb (cmp : Cmp ℝ) (c : P2 ℝ) (r : ℝ) (vel : P2 ℝ) (o : Obb ℝ) :
    Res (Option (ℝ × P2 ℝ)) :=
  let rot := makeRotation o.u ⟨1, 0⟩
  let a : Box ℝ := ⟨rotatePointM (obbCorner o 0) rot o.center, rotatePointM (obbCorner o 3) rot o.center⟩
  let rv : P2 ℝ := ⟨r, r⟩
  match rayAabb cmp (rotatePointM c rot o.center) (rot.mulVec vel) ⟨a.lo - rv, a.hi + rv⟩ with
  | .error e => .error e
  | .ok none => .ok none
  | .ok (some h) =>
    let p := h.q
    let u := (if p.x < a.lo.x then 1 else 0) + (if p.y < a.lo.y then 2 else 0)
    let v := (if p.x > a.hi.x then 1 else 0) + (if p.y > a.hi.y then 2 else 0)
    let m := u + v
    if m = 3 then
      match movingSphereSegment cmp c r vel (obbCorner o v) (obbCorner o (v ^^^ 1)) with
      | .error e => .error e
      | .ok (_, first) =>
        match movingSphereSegment cmp c r vel (obbCorner o v) (obbCorner o (v ^^^ 2)) with
        | .error e => .error e
        | .ok (_, second) =>
          match first, second with
          | none, s => .ok s
          | some x, none => .ok (some x)
          | some x, some y => .ok (some (if y.1 < x.1 then y else x))
    else
      let newCenter := c + h.tmin • vel
      match pointSegClosestPts newCenter (obbCorner o (u ^^^ 3)) (obbCorner o v) with
      | .error e => .error e
      | .ok k =>
        match normalize2 (k - newCenter) with
        | .error e => .error e
        | .ok w => .ok (some (h.tmin, newCenter + r • w))

end Geometrix
