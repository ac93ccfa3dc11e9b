import Verif.Model.RayIntersection
import Verif.Model.PolylineSplit

/-!
# Segments and cones

`geometrix/algorithm/is_segment_in_range.hpp`.
-/

set_option linter.unusedSectionVars false

namespace Geometrix

/-- The tests of the two rays: `is_segment_in_range.hpp:88`. The second ray is only tested if the first is not hit. -/
noncomputable def raysHit (A B lo hi O : P2 ℝ) : Res Bool :=
  match normalize2 lo with
  | .error e => .error e
  | .ok u =>
    match raySegmentNoOutput Cmp.direct O u A B with
    | .error e => .error e
    | .ok ty =>
      if ty ≠ .nonCrossing then .ok true
      else
        match normalize2 hi with
        | .error e => .error e
        | .ok w =>
          match raySegmentNoOutput Cmp.direct O w A B with
          | .error e => .error e
          | .ok ty => .ok (decide (ty ≠ .nonCrossing))

/-- `is_segment_in_range_2d` without points: `is_segment_in_range.hpp:26-89`. -/
noncomputable def segInRange (A B lo hi O : P2 ℝ) : Res Bool :=
  let s := A - O
  let e := B - O
  if cross lo s ≥ 0 ∧ cross hi s ≤ 0 then .ok true
  else if cross lo e ≥ 0 ∧ cross hi e ≤ 0 then .ok true
  else if (cross hi s > 0 ∧ cross hi e > 0) ∨ (cross lo s < 0 ∧ cross lo e < 0) then .ok false
  else if cross hi s = 0 ∧ cross lo e = 0 then .ok (decide (getOrientation Cmp.direct A B O ≠ .left))
  else if cross hi e = 0 ∧ cross lo s = 0 then .ok (decide (getOrientation Cmp.direct A B O ≠ .right))
  else raysHit A B lo hi O

/-- The test of the upper line when one end is in the range: `is_segment_in_range.hpp:141-158`. `inEnd` is
the end in the range; `xLo` is the point of the lower line if it meets an end of the segment. -/
def rangeHi {K : Type*} [Field K] [LinearOrder K] (cmp : Cmp K) (A B hi O inEnd : P2 K) (xLo : Option (P2 K)) :
    Res (Option (P2 K × P2 K)) :=
  match lineSegmentIntersect cmp O (O + hi) A B with
  | .error e => .error e
  | .ok (.crossing, some x) => .ok (some (xLo.getD inEnd, x))
  | .ok (.endpoint, some x) => .ok (some (xLo.getD inEnd, x))
  | .ok (.overlapping, _) => .ok (some (A, A))
  | .ok _ => .ok none

/-- The case of one end in the range: `is_segment_in_range.hpp:123-161`. -/
def rangeMixed {K : Type*} [Field K] [LinearOrder K] (cmp : Cmp K) (A B lo hi O inEnd : P2 K) :
    Res (Option (P2 K × P2 K)) :=
  match lineSegmentIntersect cmp O (O + lo) A B with
  | .error e => .error e
  | .ok (.crossing, some x) => .ok (some (x, inEnd))
  | .ok (.overlapping, _) => .ok (some (A, A))
  | .ok (.endpoint, x) => rangeHi cmp A B hi O inEnd x
  | .ok _ => rangeHi cmp A B hi O inEnd none

/-- The case of a segment that may cross both rays: `is_segment_in_range.hpp:175-190`. -/
noncomputable def rangeBoth (cmp : Cmp ℝ) (A B lo hi O : P2 ℝ) : Res (Option (P2 ℝ × P2 ℝ)) :=
  match normalize2 lo with
  | .error e => .error e
  | .ok u =>
    match raySegment cmp O u A B with
    | .error e => .error e
    | .ok x =>
      match normalize2 hi with
      | .error e => .error e
      | .ok w =>
        match raySegment cmp O w A B with
        | .error e => .error e
        | .ok y =>
          if (x.type = .crossing ∨ x.type = .endpoint) ∧ (y.type = .crossing ∨ y.type = .endpoint) then
            match x.pts, y.pts with
            | p :: _, q :: _ => .ok (some (p, q))
            | _, _ => .error .outOfRange
          else if x.type = .overlapping ∨ y.type = .overlapping then .ok (some (A, A))
          else .ok none

/-- `is_segment_in_range_2d` with points: `is_segment_in_range.hpp:92-204`. The two points written, or `none` for
the return value false. -/
noncomputable def segInRangePoints (cmp : Cmp ℝ) (A B lo hi O : P2 ℝ) : Res (Option (P2 ℝ × P2 ℝ)) :=
  let s := A - O
  let e := B - O
  let startIn := decide (cross lo s ≥ 0 ∧ cross hi s ≤ 0)
  let endIn := decide (cross lo e ≥ 0 ∧ cross hi e ≤ 0)
  if startIn && endIn then .ok (some (A, B))
  else if startIn != endIn then rangeMixed cmp A B lo hi O (if startIn then A else B)
  else if (cross hi s ≥ 0 ∧ cross lo e < 0 ∧ dot hi s > 0 ∧ dot lo e > 0) ∨
      (cross hi e ≥ 0 ∧ cross lo s < 0 ∧ dot hi e > 0 ∧ dot lo s > 0) then rangeBoth cmp A B lo hi O
  else if (cross hi s = 0 ∧ cross lo e = 0 ∧ getOrientation (Cmp.absolute 0) A B O ≠ .left) ∨
      (cross hi e = 0 ∧ cross lo s = 0 ∧ getOrientation (Cmp.absolute 0) A B O ≠ .right) then .ok (some (A, A))
  else .ok none

end Geometrix
