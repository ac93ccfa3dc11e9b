import Verif.Model.Orientation

/-!
# Intersection of segments and lines in the plane
-/

set_option linter.unusedSectionVars false

namespace Geometrix

variable {K : Type*} [Field K] [LinearOrder K]

/-- `intersection_type`: `geometrix/algorithm/linear_components_intersection.hpp:20-29`. -/
inductive IType where
  | invalid
  | nonCrossing
  | crossing
  | overlapping
  | endpoint
  | rightLeft
  | leftRight
  deriving DecidableEq, Repr

/-- `parallel_intersection`:
`geometrix/algorithm/intersection/segment_segment_intersection.hpp:24-146`. The result carries the
points written through `xPoint`, in order; with a null `xPoint` only the classification remains. -/
def parallelIntersection (cmp : Cmp K) (A B C D : P2 K) : IType × List (P2 K) :=
  if !isCollinear cmp A B C then (.nonCrossing, [])
  else
    let cAB := isBetween cmp A B C true
    let dAB := isBetween cmp A B D true
    if cAB && dAB then (.overlapping, [C, D])
    else
      let aCD := isBetween cmp C D A true
      let bCD := isBetween cmp C D B true
      if aCD && bCD then (.overlapping, [A, B])
      else if cAB && bCD then (.overlapping, [C, B])
      else if cAB && aCD then (.overlapping, [C, A])
      else if dAB && bCD then (.overlapping, [D, B])
      else if dAB && aCD then (.overlapping, [D, A])
      else
        let oC := seqEquals cmp A C
        let eD := seqEquals cmp B D
        let oD := seqEquals cmp A D
        let eC := seqEquals cmp B C
        if (oC && eD) || (oD && eC) then (.overlapping, [A, B])
        else if oC then (.endpoint, [A])
        else if oD then (.endpoint, [A])
        else if eC then (.endpoint, [B])
        else if eD then (.endpoint, [B])
        else (.nonCrossing, [])

/-- The denominator shared by the segment and line intersections:
`segment_segment_intersection.hpp:157-160`, `geometrix/algorithm/line_intersection.hpp:37-40,82-85,
120-123`. -/
def xDenom (A B C D : P2 K) : K :=
  A.x * (D.y - C.y) + B.x * (C.y - D.y) + D.x * (B.y - A.y) + C.x * (A.y - B.y)

/-- The numerator of the parameter on `AB`: `segment_segment_intersection.hpp:166-168`,
`line_intersection.hpp:51-53`. -/
def xNumS (A C D : P2 K) : K :=
  A.x * (D.y - C.y) + C.x * (A.y - D.y) + D.x * (C.y - A.y)

/-- The numerator of the parameter on `CD`: `segment_segment_intersection.hpp:175-177`,
`line_intersection.hpp:57-59,96-98,134-136`. -/
def xNumT (A B C : P2 K) : K :=
  -(A.x * (C.y - B.y) + B.x * (A.y - C.y) + C.x * (B.y - A.y))

/-- `segment_segment_intersection` in two dimensions: `segment_segment_intersection.hpp:149-203`. -/
def segSegIntersection (cmp : Cmp K) (A B C D : P2 K) : Res (IType × List (P2 K)) :=
  let denom := xDenom A B C D
  if cmp.equals denom 0 then .ok (parallelIntersection cmp A B C D)
  else
    let num := xNumS A C D
    let iType0 : IType :=
      if cmp.equals num 0 || cmp.equals num denom then .endpoint else .invalid
    match cdiv num denom with
    | .error f => .error f
    | .ok s =>
      let num2 := xNumT A B C
      let iType1 : IType :=
        if cmp.equals num2 0 || cmp.equals num2 denom then .endpoint else iType0
      match cdiv num2 denom with
      | .error f => .error f
      | .ok t =>
        if cmp.lt 0 s && cmp.lt s 1 && cmp.lt 0 t && cmp.lt t 1 then
          .ok (.crossing, [A + s • (B - A)])
        else if cmp.gt 0 s || cmp.gt s 1 || cmp.gt 0 t || cmp.gt t 1 then
          .ok (.nonCrossing, [])
        else if decide (iType1 = .invalid) &&
            (cmp.equals 0 s || cmp.equals s 1 || cmp.equals 0 t || cmp.equals t 1) then
          .ok (.endpoint, [A + s • (B - A)])
        else .ok (iType1, [A + s • (B - A)])

/-- `line_line_intersect` with parameters: `geometrix/algorithm/line_intersection.hpp:26-66`. On a
crossing it writes the point and the two parameters. -/
def lineLineIntersectST (cmp : Cmp K) (A B C D : P2 K) : Res (IType × Option (P2 K × K × K)) :=
  let denom := xDenom A B C D
  if cmp.equals denom 0 then
    .ok (if isCollinear cmp A B C then .overlapping else .nonCrossing, none)
  else
    match cdiv (xNumS A C D) denom with
    | .error f => .error f
    | .ok s =>
      match cdiv (xNumT A B C) denom with
      | .error f => .error f
      | .ok t => .ok (.crossing, some (A + s • (B - A), s, t))

/-- `line_line_intersect` without parameters: `line_intersection.hpp:71-102`. -/
def lineLineIntersect (cmp : Cmp K) (A B C D : P2 K) : Res (IType × Option (P2 K)) :=
  let denom := xDenom A B C D
  if cmp.equals denom 0 then
    .ok (if isCollinear cmp A B C then .overlapping else .nonCrossing, none)
  else
    match cdiv (xNumT A B C) denom with
    | .error f => .error f
    | .ok t => .ok (.crossing, some (C + t • (D - C)))

/-- `line_segment_intersect`: `line_intersection.hpp:107-152`. The line is through `A` and `B`, the
segment from `C` to `D`. -/
def lineSegmentIntersect (cmp : Cmp K) (A B C D : P2 K) : Res (IType × Option (P2 K)) :=
  let denom := xDenom A B C D
  if cmp.equals denom 0 then
    .ok (if isCollinear cmp A B C then .overlapping else .nonCrossing, none)
  else
    let num := xNumT A B C
    let iType : IType :=
      if cmp.equals num 0 || cmp.equals num denom then .endpoint else .invalid
    match cdiv num denom with
    | .error f => .error f
    | .ok t =>
      if cmp.lt t 0 || cmp.gt t 1 then .ok (.nonCrossing, none)
      else if cmp.gt t 0 && cmp.lt t 1 then .ok (.crossing, some (C + t • (D - C)))
      else .ok (iType, some (C + t • (D - C)))

/-- `oriented_intersection`: `geometrix/algorithm/orientation.hpp:53-122`. -/
def orientedIntersection (cmp : Cmp K) (p1 p2 p3 p4 : P2 K) : IType :=
  let o1 := getOrientation cmp p3 p4 p1
  let o2 := getOrientation cmp p3 p4 p2
  if decide (o1 ≠ .collinear) && decide (o2 ≠ .collinear) then
    let o3 := getOrientation cmp p1 p2 p3
    let o4 := getOrientation cmp p1 p2 p4
    if decide (o1.toInt ≥ 0) && decide (o2.toInt ≤ 0) then
      if o3.toInt * o4.toInt ≤ 0 then .leftRight else .nonCrossing
    else if decide (o1.toInt ≤ 0) && decide (o2.toInt ≥ 0) then
      if o3.toInt * o4.toInt ≤ 0 then .rightLeft else .nonCrossing
    else .nonCrossing
  else
    let p3b := isBetween cmp p1 p2 p3 false
    let p4b := isBetween cmp p1 p2 p4 false
    if p3b && p4b then .overlapping
    else
      let p1b := isBetween cmp p3 p4 p1 false
      let p2b := isBetween cmp p3 p4 p2 false
      if p1b && p2b then .overlapping
      else if p3b && p2b then .overlapping
      else if p3b && p1b then .overlapping
      else if p4b && p2b then .overlapping
      else if p4b && p1b then .overlapping
      else
        let o3 := seqEquals cmp p1 p3
        let d4 := seqEquals cmp p2 p4
        let o4 := seqEquals cmp p1 p4
        let d3 := seqEquals cmp p2 p3
        if (o3 && d4) || (o4 && d3) then .overlapping
        else if o3 then .endpoint
        else if o4 then .endpoint
        else if d3 then .endpoint
        else if d4 then .endpoint
        else .nonCrossing

end Geometrix
