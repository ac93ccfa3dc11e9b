import Verif.Model.Basic

/-!
# Eberly's distance of two segments

`geometrix/algorithm/distance/eberly_segment_segment_distance.hpp`.
-/

set_option linter.unusedSectionVars false

namespace Geometrix

variable {K : Type*} [Field K] [LinearOrder K]

/-- The branch for segments with parallel directions:
`geometrix/algorithm/distance/eberly_segment_segment_distance.hpp:61-107`. -/
def eberlyParallel (a b d : K) : Res (K × K) :=
  if b > 0 then
    if d ≥ 0 then .ok (0, 0)
    else if -d ≤ a then
      match cdiv (-d) a with
      | .error f => .error f
      | .ok s => .ok (s, 0)
    else if -(a + d) ≥ b then .ok (1, 1)
    else
      match cdiv (-(a + d)) b with
      | .error f => .error f
      | .ok t => .ok (1, t)
  else if -d ≥ a then .ok (1, 0)
  else if d ≤ 0 then
    match cdiv (-d) a with
    | .error f => .error f
    | .ok s => .ok (s, 0)
  else if -(a + d) ≥ b then .ok (0, 1)
  else
    match cdiv (-(a + d)) b with
    | .error f => .error f
    | .ok t => .ok (0, t)

/-- The regions 0: `eberly_segment_segment_distance.hpp:118-121`. -/
def eberlyRegion0 (det s t : K) : Res (K × K) :=
  match cdiv 1 det with
  | .error f => .error f
  | .ok invDet => .ok (s * invDet, t * invDet)

/-- The regions 1, 3, 5 and 7: `eberly_segment_segment_distance.hpp:125-133,138-145,155-163,228-236`. -/
def eberlyEdge (b c e : K) : Res (K × K) :=
  let tmp := b + e
  if tmp > 0 then .ok (1, 0)
  else if -tmp > c then .ok (1, 1)
  else
    match cdiv (-tmp) c with
    | .error f => .error f
    | .ok t => .ok (1, t)

/-- The regions 2, 4, 6 and 8: `eberly_segment_segment_distance.hpp:167-190,195-218,240-263,268-291`. -/
def eberlyCorner (a b c d e : K) : Res (K × K) :=
  let tmp := b + d
  if -tmp < a then
    if tmp > 0 then .ok (0, 1)
    else
      match cdiv (-tmp) a with
      | .error f => .error f
      | .ok s => .ok (s, 1)
  else
    let tmp2 := b + e
    if -tmp2 < c then
      if tmp2 > 0 then .ok (1, 0)
      else
        match cdiv (-tmp2) c with
        | .error f => .error f
        | .ok t => .ok (1, t)
    else .ok (1, 1)

/-- The choice of the two parameters: `eberly_segment_segment_distance.hpp:61-294`. -/
def eberlyParams (a b c d e det s t : K) : Res (K × K) :=
  if det = 0 then eberlyParallel a b d
  else if s ≥ 0 then
    if s ≤ det then
      if t ≥ 0 then
        if t ≤ det then eberlyRegion0 det s t else eberlyEdge b c e
      else eberlyEdge b c e
    else if t ≥ 0 then
      if t ≤ det then eberlyEdge b c e else eberlyCorner a b c d e
    else eberlyCorner a b c d e
  else if t ≥ 0 then
    if t ≤ det then eberlyEdge b c e else eberlyCorner a b c d e
  else eberlyCorner a b c d e

/-- The squared distance for the two parameters: `eberly_segment_segment_distance.hpp:296-318`. -/
def eberlyValue (p1 p2 p3 p4 : P2 K) (s t : K) : K :=
  let v1 := p2 - p1
  let v2 := p4 - p3
  if s = 0 then
    if t = 0 then normSq (p1 - p3)
    else if t = 1 then normSq (p1 - p4)
    else normSq (p1 - (p3 + t • v2))
  else if s = 1 then
    if t = 0 then normSq (p2 - p3)
    else if t = 1 then normSq (p2 - p4)
    else normSq (p2 - (p3 + t • v2))
  else if t = 0 then normSq (p3 - (p1 + s • v1))
  else if t = 1 then normSq (p4 - (p1 + s • v1))
  else normSq ((p1 + s • v1) - (p3 + t • v2))

/-- `eberly_segment_segment_distance_sqrd`: `eberly_segment_segment_distance.hpp:38-319`. `exterior_product_area` of two
vectors is their cross product. -/
def eberlyDistSq (p1 p2 p3 p4 : P2 K) : Res K :=
  let v1 := p2 - p1
  let v2 := p4 - p3
  let a := distSq p1 p2
  let b := dot (-v1) v2
  let c := distSq p3 p4
  let vd := p1 - p3
  let d := dot v1 vd
  let e := dot (-v2) vd
  let det := cross v1 v2
  let s := b * e - c * d
  let t := b * d - a * e
  match eberlyParams a b c d e det s t with
  | .error f => .error f
  | .ok (s, t) => .ok (eberlyValue p1 p2 p3 p4 s t)

end Geometrix
