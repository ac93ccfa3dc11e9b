import Verif.Model.RayIntersection
import Verif.Model.PolylineSplit
import Verif.Model.SelfIntersection

/-!
# Parallel polylines

`geometrix/algorithm/point_sequence/polyline_offset.hpp`.
-/

set_option linter.unusedSectionVars false

namespace Geometrix

/-- `oriented_normal`: `geometrix/arithmetic/vector/perp.hpp:63-103`. `left` is the template argument
`oriented_left`, otherwise it is `oriented_right`. -/
def offsetNormal {K : Type*} [Field K] (left : Bool) (u : P2 K) : P2 K :=
  if left then leftNormal u else rightNormal u

/-- The ends of an edge moved along its normal: `polyline_offset.hpp:63-65`, `75-77`, `313-315` and
`324-326`. -/
noncomputable def offsetEdge (left : Bool) (offset : ℝ) (A B : P2 ℝ) : Res (P2 ℝ × P2 ℝ) :=
  match normalize2 (B - A) with
  | .error e => .error e
  | .ok u =>
    let n := offset • offsetNormal left u
    .ok (A + n, B + n)

/-- The loop of `polyline_offset_impl`: `polyline_offset.hpp:319-340`. `B` is the start of the next edge, `oA` and `oB`
are the ends of the last edge moved. What follows the end of the loop is the last point moved, which is pushed in the last
turn (line 338), or at line 343 if there is one edge only. `xPoint` is only written on a crossing
(`lineLineIntersect`), otherwise it keeps the value `junk` that its construction gives. -/
noncomputable def offsetLoop (cmp : Cmp ℝ) (left : Bool) (offset : ℝ) (junk : P2 ℝ) (B oA oB : P2 ℝ) :
    List (P2 ℝ) → Res (List (P2 ℝ))
  | [] => .ok [oB]
  | D :: rest =>
    match offsetEdge left offset B D with
    | .error e => .error e
    | .ok (oC, oD) =>
      match lineLineIntersect cmp oA oB oC oD with
      | .error e => .error e
      | .ok (_, x) =>
        match offsetLoop cmp left offset junk D oC oD rest with
        | .error e => .error e
        | .ok r => .ok (x.getD junk :: r)

/-- `polyline_offset_impl`: `polyline_offset.hpp:301-347`. -/
noncomputable def polylineOffsetImpl (cmp : Cmp ℝ) (left : Bool) (offset : ℝ) (junk : P2 ℝ) :
    List (P2 ℝ) → Res (List (P2 ℝ))
  | A :: B :: rest =>
    match offsetEdge left offset A B with
    | .error e => .error e
    | .ok (oA, oB) =>
      match offsetLoop cmp left offset junk B oA oB rest with
      | .error e => .error e
      | .ok r => .ok (oA :: r)
  | _ => .error .assertFailed

/-- `polyline_offset`: `polyline_offset.hpp:350-357`. -/
noncomputable def polylineOffset (cmp : Cmp ℝ) (poly : List (P2 ℝ)) (side : Orient) (offset : ℝ) (junk : P2 ℝ) :
    Res (List (P2 ℝ)) :=
  if side = .left then polylineOffsetImpl cmp true offset junk poly else polylineOffsetImpl cmp false offset junk poly

/-- `xpoint_type`: `polyline_offset.hpp:30-35`. -/
inductive XPointType where
  | tip
  | pfip
  | nfip
  deriving DecidableEq, Repr

/-- `classify_xpoint_type`: `polyline_offset.hpp:39-48`. -/
def classifyXPoint {K : Type*} [Field K] [LinearOrder K] (cmp : Cmp K) (s : K) : XPointType :=
  if cmp.lt s 0 then .nfip
  else if cmp.gt s 1 then .pfip
  else .tip

/-- The points pushed for a vertex in `untrimmed_offset`: `polyline_offset.hpp:79-111`, with `is_fip` at line 37. -/
def untrimmedPush {K : Type*} [Field K] [LinearOrder K] (cmp : Cmp K) (oA oB oC oD : P2 K) : Res (List (P2 K)) :=
  match lineLineIntersectST cmp oA oB oC oD with
  | .error e => .error e
  | .ok (.crossing, some (x, s, t)) =>
    let ab := classifyXPoint cmp s
    let cd := classifyXPoint cmp t
    if ab = .tip ∧ cd = .tip then .ok [x]
    else if ab ≠ .tip ∧ cd ≠ .tip then
      if ab = .pfip then .ok [x] else .ok [oB, oC]
    else .ok [oB, oC]
  | .ok (.overlapping, _) => .ok [oB]
  | .ok _ => .ok []

/-- The loop of `untrimmed_offset`: `polyline_offset.hpp:70-120`. As in `offsetLoop` the end of the list stands for the
last push (lines 119 and 124). -/
noncomputable def untrimmedLoop (cmp : Cmp ℝ) (left : Bool) (offset : ℝ) (B oA oB : P2 ℝ) :
    List (P2 ℝ) → Res (List (P2 ℝ))
  | [] => .ok [oB]
  | D :: rest =>
    match offsetEdge left offset B D with
    | .error e => .error e
    | .ok (oC, oD) =>
      match untrimmedPush cmp oA oB oC oD with
      | .error e => .error e
      | .ok xs =>
        match untrimmedLoop cmp left offset D oC oD rest with
        | .error e => .error e
        | .ok r => .ok (xs ++ r)

/-- `untrimmed_offset`: `polyline_offset.hpp:50-128`. -/
noncomputable def untrimmedOffset (cmp : Cmp ℝ) (left : Bool) (offset : ℝ) : List (P2 ℝ) → Res (List (P2 ℝ))
  | A :: B :: rest =>
    match offsetEdge left offset A B with
    | .error e => .error e
    | .ok (oA, oB) =>
      match untrimmedLoop cmp left offset B oA oB rest with
      | .error e => .error e
      | .ok r => .ok (oA :: r)
  | _ => .error .assertFailed

end Geometrix
