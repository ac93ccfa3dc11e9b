import Verif.Model.SegmentIntersection

/-!
# Intersection of rays with segments and lines
-/

set_option linter.unusedSectionVars false

namespace Geometrix

variable {K : Type*} [Field K] [LinearOrder K]

/-- `left_normal`: `geometrix/arithmetic/vector/perp.hpp:47-53`. -/
def leftNormal (u : P2 K) : P2 K := ⟨-u.y, u.x⟩

/-- `right_normal`: `geometrix/arithmetic/vector/perp.hpp:55-61`. -/
def rightNormal (u : P2 K) : P2 K := ⟨u.y, -u.x⟩

/-- What `ray_segment_intersection` gives back: the classification, the parameter if it was
written, and the points written through `xPoints` (when it is not null). -/
structure RayHit (K : Type*) where
  type : IType
  t : Option K
  pts : List (P2 K)
  deriving DecidableEq

/-- `ray_segment_intersection` with outputs:
`geometrix/algorithm/intersection/ray_segment_intersection.hpp:27-120`. The direction `v` is meant
to be a unit vector. `scalar_projection` is the dot product
(`geometrix/algebra/dot_product.hpp:41-54`), `exterior_product_area` in the plane is `cross`. -/
def raySegment (cmp : Cmp K) (O v A B : P2 K) : Res (RayHit K) :=
  let v1 := O - A
  let v2 := B - A
  let v3 := leftNormal v
  let denom := dot v2 v3
  if cmp.equals denom 0 then
    if decide (getOrientation cmp A B O ≠ .collinear) then .ok ⟨.nonCrossing, none, []⟩
    else
      let vOB := B - O
      let OA := dot (-v1) v
      let OB := dot vOB v
      if cmp.lt OA 0 then
        if cmp.lt OB 0 then .ok ⟨.nonCrossing, none, []⟩
        else .ok ⟨.overlapping, some 0, [O, B]⟩
      else if cmp.lt OB 0 then .ok ⟨.overlapping, some 0, [O, A]⟩
      else if OA < OB then .ok ⟨.overlapping, some OA, [A, B]⟩
      else .ok ⟨.overlapping, some OB, [B, A]⟩
  else
    match cdiv (cross v2 v1) denom with
    | .error f => .error f
    | .ok t1 =>
      if cmp.lt t1 0 then .ok ⟨.nonCrossing, none, []⟩
      else
        match cdiv (dot v1 v3) denom with
        | .error f => .error f
        | .ok t2 =>
          if cmp.lt t2 0 || cmp.gt t2 1 then .ok ⟨.nonCrossing, none, []⟩
          else .ok ⟨if cmp.equals t2 0 || cmp.equals t2 1 then .endpoint else .crossing,
            some t1, [O + t1 • v]⟩

/-- `ray_segment_intersection` without outputs: `ray_segment_intersection.hpp:129-181`. Line 153
compares the directions of the ray and the segment, not the position of the origin. -/
def raySegmentNoOutput (cmp : Cmp K) (O v A B : P2 K) : Res IType :=
  let v1 := O - A
  let v2 := B - A
  let v3 := leftNormal v
  let denom := dot v2 v3
  if cmp.equals denom 0 then
    if decide (getOrientationV cmp v v2 ≠ .collinear) then .ok .nonCrossing
    else
      let vOB := B - O
      let OA := dot (-v1) v
      let OB := dot vOB v
      if cmp.lt OA 0 then
        if cmp.lt OB 0 then .ok .nonCrossing else .ok .overlapping
      else .ok .overlapping
  else
    match cdiv (cross v2 v1) denom with
    | .error f => .error f
    | .ok t1 =>
      if cmp.lt t1 0 then .ok .nonCrossing
      else
        match cdiv (dot v1 v3) denom with
        | .error f => .error f
        | .ok t2 =>
          if cmp.lt t2 0 || cmp.gt t2 1 then .ok .nonCrossing
          else .ok (if cmp.equals t2 0 || cmp.equals t2 1 then .endpoint else .crossing)

/-- What `ray_line_intersection` gives back. -/
structure RayLineHit (K : Type*) where
  intersecting : Bool
  overlapping : Bool
  point : Option (P2 K)
  deriving DecidableEq

/-- `ray_line_intersection`:
`geometrix/algorithm/intersection/ray_line_intersection.hpp:61-102`. The line is given by its
reference point `A` and its parallel vector `v2`. -/
def rayLine (cmp : Cmp K) (O v A v2 : P2 K) : Res (RayLineHit K) :=
  let v1 := O - A
  let v3 := leftNormal v
  let denom := dot v2 v3
  if cmp.equals denom 0 then
    if decide (getOrientationV cmp v v2 ≠ .collinear) then .ok ⟨false, false, none⟩
    else .ok ⟨true, true, none⟩
  else
    match cdiv (cross v2 v1) denom with
    | .error f => .error f
    | .ok t =>
      if cmp.lt t 0 then .ok ⟨false, false, none⟩
      else
        match cdiv (dot v1 v3) denom with
        | .error f => .error f
        | .ok t2 =>
          if cmp.lt t2 0 then .ok ⟨false, false, none⟩
          else .ok ⟨true, false, some (O + t • v)⟩

end Geometrix
