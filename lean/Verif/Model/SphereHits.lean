import Verif.Model.Sphere
import Verif.Model.Basic3
import Verif.Model.PolylineSplit

/-!
# Rays, segments, polylines and moving spheres against spheres

`geometrix/algorithm/intersection/ray_sphere_intersection.hpp`, `segment_sphere_intersection.hpp`,
`sphere_polyline_intersection.hpp`, `moving_sphere_sphere_intersection.hpp` in the same directory. A sphere is its
centre and its radius. An answer `false` is `none`; what may have been written to the output arguments before it
is not modelled.
-/

set_option linter.unusedSectionVars false

namespace Geometrix

/-- `ray_sphere_intersection`, from the test at line 31 on, with `b` and `c` of lines 27-28:
`ray_sphere_intersection.hpp:30-46`. The parameter. -/
noncomputable def raySphereParam (cmp : Cmp ℝ) (b c : ℝ) : Res (Option ℝ) :=
  if cmp.gt c 0 && cmp.gt b 0 then .ok none
  else
    let discr := b * b - c
    if cmp.lt discr 0 then .ok none
    else
      match csqrt discr with
      | .error e => .error e
      | .ok r =>
        let t := -b - r
        .ok (some (if cmp.lt t 0 then 0 else t))

/-- `ray_sphere_intersection` in the plane: `ray_sphere_intersection.hpp:23-50`. -/
noncomputable def raySphere (cmp : Cmp ℝ) (p d c : P2 ℝ) (r : ℝ) : Res (Option (ℝ × P2 ℝ)) :=
  let m := p - c
  match raySphereParam cmp (dot m d) (dot m m - r * r) with
  | .error e => .error e
  | .ok none => .ok none
  | .ok (some t) => .ok (some (t, p + t • d))

/-- `ray_sphere_intersection` in space: `ray_sphere_intersection.hpp:23-50`. -/
noncomputable def raySphere3 (cmp : Cmp ℝ) (p d c : P3 ℝ) (r : ℝ) : Res (Option (ℝ × P3 ℝ)) :=
  let m := p - c
  match raySphereParam cmp (dot3 m d) (dot3 m m - r * r) with
  | .error e => .error e
  | .ok none => .ok none
  | .ok (some t) => .ok (some (t, p + t • d))

/-- `segment_sphere_intersection` for a start, a vector and its length: `segment_sphere_intersection.hpp:86-127`.
For a length of zero the point `q` is not written: it is `none`. -/
noncomputable def segSphereLength (cmp : Cmp ℝ) (sa d : P2 ℝ) (length : ℝ) (ctr : P2 ℝ) (rad : ℝ) :
    Res (Option (ℝ × Option (P2 ℝ))) :=
  let m := sa - ctr
  let c := dot m m - rad * rad
  if cmp.equals length 0 then .ok (if cmp.le c 0 then some (0, none) else none)
  else
    match cdiv d.x length, cdiv d.y length with
    | .ok dx, .ok dy =>
      let d : P2 ℝ := ⟨dx, dy⟩
      let b := dot m d
      if cmp.gt c 0 && cmp.gt b 0 then .ok none
      else
        let discr := b * b - c
        if cmp.lt discr 0 then .ok none
        else
          match csqrt discr with
          | .error e => .error e
          | .ok r =>
            let t := -b - r
            if cmp.gt t length then .ok none
            else
              let t := if cmp.lt t 0 then 0 else t
              match cdiv t length with
              | .error e => .error e
              | .ok t' => .ok (some (t', some (sa + t • d)))
    | .error e, _ => .error e
    | _, .error e => .error e

/-- `segment_sphere_intersection` for two points and for a segment: `segment_sphere_intersection.hpp:132-149`. -/
noncomputable def segSphere (cmp : Cmp ℝ) (sa sb ctr : P2 ℝ) (rad : ℝ) : Res (Option (ℝ × Option (P2 ℝ))) :=
  let d := sb - sa
  segSphereLength cmp sa d (Real.sqrt (dot d d)) ctr rad

/-- What `segment_sphere_intersection` for two parameters writes and returns, when the line meets the sphere:
`segment_sphere_intersection.hpp:22-44,74-80`. -/
structure SphereRoots where
  t0 : ℝ
  t1 : ℝ
  q0 : P2 ℝ
  q1 : P2 ℝ
  hit0 : Bool
  hit1 : Bool

/-- `segment_sphere_intersection` with two parameters: `segment_sphere_intersection.hpp:50-81`. `none`: the
discriminant is negative, nothing is written and the result is empty. The policy is not used. -/
noncomputable def segSphereRoots (p0 p1 ctr : P2 ℝ) (rad : ℝ) : Res (Option SphereRoots) :=
  let d := p1 - p0
  let f := p0 - ctr
  let a := dot d d
  let b := 2 * dot f d
  let c := dot f f - rad * rad
  let discr := b * b - 4 * a * c
  if discr < 0 then .ok none
  else
    match csqrt discr with
    | .error e => .error e
    | .ok s =>
      let a2 := 2 * a
      match cdiv (-b - s) a2, cdiv (-b + s) a2 with
      | .ok t0, .ok t1 =>
        .ok (some ⟨t0, t1, p0 + t0 • d, p0 + t1 • d, decide (t0 ≥ 0) && decide (t0 ≤ 1),
          decide (t1 ≥ 0) && decide (t1 ≤ 1)⟩)
      | .error e, _ => .error e
      | _, .error e => .error e

/-- The arguments of a call of the visitor of `sphere_polyline_intersect`:
`sphere_polyline_intersection.hpp:42`. -/
structure SphereCall where
  i : Nat
  j : Nat
  roots : SphereRoots

/-- The loop of `sphere_polyline_intersect`: `sphere_polyline_intersection.hpp:33-48`, from the edge with the
number `i`, whose points are the head of the list. The visitor is as in `segPolylineLoop`. -/
noncomputable def spherePolylineLoop {σ : Type*} (ctr : P2 ℝ) (rad : ℝ) (visit : σ → SphereCall → Bool × σ) :
    Nat → List (P2 ℝ) → Bool → σ → Res (Bool × σ)
  | i, p :: q :: rest, intersected, s =>
    match segSphereRoots p q ctr rad with
    | .error e => .error e
    | .ok none => spherePolylineLoop ctr rad visit (i + 1) (q :: rest) intersected s
    | .ok (some x) =>
      if x.hit0 || x.hit1 then
        match visit s ⟨i, i + 1, x⟩ with
        | (true, s') => .ok (true, s')
        | (false, s') => spherePolylineLoop ctr rad visit (i + 1) (q :: rest) true s'
      else spherePolylineLoop ctr rad visit (i + 1) (q :: rest) intersected s
  | _, _, intersected, s => .ok (intersected, s)

/-- `sphere_polyline_intersect`: `sphere_polyline_intersection.hpp:23-49`. -/
noncomputable def spherePolyline {σ : Type*} (ctr : P2 ℝ) (rad : ℝ) (poly : List (P2 ℝ))
    (visit : σ → SphereCall → Bool × σ) (s : σ) : Res (Bool × σ) :=
  spherePolylineLoop ctr rad visit 0 poly false s

/-- `moving_sphere_sphere_intersection` in the plane: `moving_sphere_sphere_intersection.hpp:19-58`. The time and
the point `q`, which is not written when the spheres overlap at the start. -/
noncomputable def movingSpheres (cmp : Cmp ℝ) (c0 : P2 ℝ) (r0 : ℝ) (c1 : P2 ℝ) (r1 : ℝ) (v0 v1 : P2 ℝ) :
    Res (Option (ℝ × Option (P2 ℝ))) :=
  let s := c1 - c0
  let v := v1 - v0
  let r := r1 + r0
  let c := dot s s - r * r
  if cmp.lt c 0 then .ok (some (0, none))
  else
    let a := dot v v
    if cmp.lt a 0 then .ok none
    else
      let b := dot v s
      if cmp.ge b 0 then .ok none
      else
        let d := b * b - a * c
        if d < 0 then .ok none
        else
          match csqrt d with
          | .error e => .error e
          | .ok sd =>
            match cdiv (-b - sd) a with
            | .error e => .error e
            | .ok t =>
              let cnew0 := c0 + t • v0
              let cnew1 := c1 + t • v1
              match normalize2 (cnew1 - cnew0) with
              | .error e => .error e
              | .ok n => .ok (some (t, some (cnew0 + r0 • n)))

end Geometrix
