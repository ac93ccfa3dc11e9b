import Verif.Model.Distance
import Verif.Model.Orientation

/-!
# The side of a polyline on which a point is

`geometrix/algorithm/point_sequence/point_polyline_orientation.hpp`.
-/

set_option linter.unusedSectionVars false

namespace Geometrix

variable {K : Type*} [Field K] [LinearOrder K]

/-- The decision at the vertex `V` between `U` and `W`: `point_polyline_orientation.hpp:53-76` (with `U V W` =
`ph pi pj`) and `86-109` (`pi pj pk`). The last case differs: it is the orientation of `p` relative to the edge
`E F` (`pi pj` in both). -/
def vertexSide (cmp : Cmp K) (U V W E F p : P2 K) : Orient :=
  match getOrientation cmp U V W with
  | .left => if isVectorBetween cmp (W - V) (U - V) (p - V) false then .left else .right
  | .right => if isVectorBetween cmp (U - V) (W - V) (p - V) false then .right else .left
  | .collinear => getOrientation cmp E F p

/-- `point_polyline_orientation` with the least squared distance and the index of the segment:
`point_polyline_orientation.hpp:27-120`. The parameter `t` is not limited to [0, 1]. The assertion on `minDistance`
holds for all numbers. -/
def polylineSideAt (cmp : Cmp K) (p : P2 K) (pts : List (P2 K)) (minDistance : K) (i : Nat) : Res Orient :=
  if pts.length ≤ 1 then .error .assertFailed
  else if cmp.gt minDistance 0 then
    match pts[i]?, pts[i + 1]? with
    | some A, some B =>
      match pointSegClosestParam p A B with
      | .error e => .error e
      | .ok (_, t) =>
        if t > 0 ∧ t < 1 then .ok (getOrientation cmp A B p)
        else if cmp.equals t 0 then
          if i ≠ 0 then
            match pts[i - 1]? with
            | some H => .ok (vertexSide cmp H A B A B p)
            | none => .error .outOfRange
          else .ok (getOrientation cmp A B p)
        else
          match pts[i + 2]? with
          | some C => .ok (vertexSide cmp A B C A B p)
          | none => .ok (getOrientation cmp A B p)
    | _, _ => .error .outOfRange
  else .ok .collinear

/-- `point_polyline_orientation`: `point_polyline_orientation.hpp:122-151`. -/
def polylineSide (cmp : Cmp K) (p : P2 K) (pts : List (P2 K)) : Res Orient :=
  if pts.length ≤ 1 then .error .assertFailed
  else
    match minLoop (fun e : Nat × P2 K × P2 K => pointSegDistSq p e.2.1 e.2.2) id (openEdgesIdx pts) none with
    | .error e => .error e
    | .ok none => .error .assertFailed
    | .ok (some (e, d)) => polylineSideAt cmp p pts d e.1

end Geometrix
