import Verif.Model.Basic3
import Verif.Model.SegmentIntersection

/-!
# The intersection of two segments in space
-/

set_option linter.unusedSectionVars false

namespace Geometrix

variable {K : Type*} [Field K] [LinearOrder K]

/-- `is_coplanar`: `geometrix/algorithm/intersection/segment_segment_intersection.hpp:205-210`. -/
def isCoplanar (cmp : Cmp K) (x1 x2 x3 x4 : P3 K) : Bool :=
  cmp.equals (dot3 (x3 - x1) (cross3 (x2 - x1) (x4 - x3))) 0

/-- The branch of `segment_segment_intersection` for two segments on one line; `l` and `h` are the smaller and the larger
parameter of the ends of the second segment: `segment_segment_intersection.hpp:274-302`. -/
def collinear3 (p1 v1 : P3 K) (l h : K) : IType × List (P3 K) :=
  if 1 < l ∨ 0 > h then (.nonCrossing, [])
  else if 1 > l then
    if 0 < h then
      (.overlapping, [if 0 < l then p1 + l • v1 else p1, if 1 > h then p1 + h • v1 else p1 + v1])
    else (.endpoint, [p1])
  else (.endpoint, [p1 + v1])

/-- The class of a parameter of the crossing of two lines, where it is on the segment:
`segment_segment_intersection.hpp:244-249,253-258`. -/
def paramClass (cmp : Cmp K) (s : K) : Option IType :=
  if cmp.lt s 0 || cmp.gt s 1 then none
  else if cmp.gt s 0 && cmp.lt s 1 then some .crossing
  else some .endpoint

/-- `segment_segment_intersection` in space: `segment_segment_intersection.hpp:212-304`, with the points written
through `iPoint`, in order. `point_point_distance_sqrd` is the dot product of the difference with itself. The class of
the first parameter is overwritten by the class of the second one, as in the code. -/
def segSegIntersection3 (cmp : Cmp K) (p1 p2 p3 p4 : P3 K) : Res (IType × List (P3 K)) :=
  if !isCoplanar cmp p1 p2 p3 p4 then .ok (.nonCrossing, [])
  else
    let v1 := p2 - p1
    let v2 := p4 - p3
    let a := dot3 (p2 - p1) (p2 - p1)
    let b := dot3 v1 v2
    let c := dot3 (p4 - p3) (p4 - p3)
    let det := a * c - b * b
    if cmp.gt det 0 then
      let u := p1 - p3
      let d := dot3 v1 u
      let e := dot3 v2 u
      match cdiv (b * e - c * d) det with
      | .error f => .error f
      | .ok s =>
        match paramClass cmp s with
        | none => .ok (.nonCrossing, [])
        | some _ =>
          match cdiv (a * e - b * d) det with
          | .error f => .error f
          | .ok t =>
            match paramClass cmp t with
            | none => .ok (.nonCrossing, [])
            | some i => .ok (i, [p1 + s • v1])
    else if cross3 v1 (p3 - p1) ≠ 0 then .ok (.nonCrossing, [])
    else
      match cdiv (dot3 v1 (p3 - p1)) (dot3 v1 v1), cdiv b (dot3 v1 v1) with
      | .ok s0, .ok x =>
        let s1 := s0 + x
        .ok (if s1 < s0 then collinear3 p1 v1 s1 s0 else collinear3 p1 v1 s0 s1)
      | .error f, _ => .error f
      | _, .error f => .error f

end Geometrix
