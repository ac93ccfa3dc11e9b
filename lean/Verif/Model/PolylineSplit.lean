import Verif.Model.PointSequence
import Verif.Model.Orientation
import Mathlib.Analysis.Real.Sqrt

/-!
# Positions along a polyline
-/

set_option linter.unusedSectionVars false

namespace Geometrix

/-- `normalize`: `geometrix/arithmetic/vector/normalize.hpp:33-45`, with the assertion of line 42;
`magnitude`: `geometrix/arithmetic/vector/magnitude.hpp`. -/
noncomputable def normalize2 (v : P2 ℝ) : Res (P2 ℝ) :=
  if Real.sqrt (normSq v) = 0 then .error .assertFailed
  else .ok ((1 / Real.sqrt (normSq v)) • v)

/-- The point `q + l * normalize(p - q)`:
`geometrix/algorithm/point_sequence/polyline_split.hpp:61,108`, `polyline_mid_point.hpp:47`. -/
noncomputable def stepBack (p q : P2 ℝ) (l : ℝ) : Res (P2 ℝ) :=
  match normalize2 (p - q) with
  | .error e => .error e
  | .ok u => .ok (q + l • u)

/-- The loop of `polyline_point_at_position`: `polyline_split.hpp:52-64`. `p` is the point with index
`i`, the list is what follows; `res` is the result so far. -/
noncomputable def pointAtLoop (pos : ℝ) :
    ℝ → Nat → Nat × Option (P2 ℝ) → P2 ℝ → List (P2 ℝ) → Res (Nat × Option (P2 ℝ))
  | _, _, res, _, [] => .ok res
  | length, i, res, p, q :: rest =>
    if length + pointDist p q > pos then
      if length + pointDist p q - pos < pointDist p q then
        match stepBack p q (length + pointDist p q - pos) with
        | .error e => .error e
        | .ok s => .ok (i, some s)
      else .ok (i, res.2)
    else pointAtLoop pos (length + pointDist p q) (i + 1) (i, res.2) q rest

/-- `polyline_point_at_position`: `polyline_split.hpp:41-67`. The result is value initialised. -/
noncomputable def pointAtPosition (poly : List (P2 ℝ)) (pos : ℝ) : Res (Nat × Option (P2 ℝ)) :=
  match poly with
  | [] => .ok (0, none)
  | p :: rest => pointAtLoop pos 0 0 (0, none) p rest

/-- The first loop of `polyline_split`: `polyline_split.hpp:98-112`. Returns what the loop appends to
`a` and the points from index `j` on. -/
noncomputable def splitLoop (pos : ℝ) : ℝ → P2 ℝ → List (P2 ℝ) → Res (List (P2 ℝ) × List (P2 ℝ))
  | _, _, [] => .ok ([], [])
  | length, p, q :: rest =>
    if length + pointDist p q > pos then
      if length + pointDist p q - pos < pointDist p q then
        match stepBack p q (length + pointDist p q - pos) with
        | .error e => .error e
        | .ok s => .ok ([p, s], q :: rest)
      else .ok ([p], q :: rest)
    else
      match splitLoop pos (length + pointDist p q) q rest with
      | .error e => .error e
      | .ok (a, b) => .ok (p :: a, b)

/-- `polyline_split`: `polyline_split.hpp:86-119`. `a.back()` of an empty polyline (line 114) is
undefined. -/
noncomputable def polylineSplit (poly : List (P2 ℝ)) (pos : ℝ) :
    Res (List (P2 ℝ) × List (P2 ℝ)) :=
  match poly with
  | [] => .error .outOfRange
  | p :: rest =>
    match splitLoop pos 0 p rest with
    | .error e => .error e
    | .ok (a, b) =>
      match a.getLast? with
      | none => .error .outOfRange
      | some z => .ok (a, z :: b)

/-- The loop of `polyline_mid_point` that collects the lengths up to each vertex:
`geometrix/algorithm/point_sequence/polyline_mid_point.hpp:34-39`. -/
noncomputable def midLengths : ℝ → P2 ℝ → List (P2 ℝ) → List ℝ
  | _, _, [] => []
  | length, p, q :: rest => (length + pointDist p q) :: midLengths (length + pointDist p q) q rest

/-- `polyline_mid_point`: `polyline_mid_point.hpp:24-48`. `std::lower_bound` on the ascending lengths
is the first position whose element is not less (line 42, `midLengths_sorted`); reading through the end
iterator (line 43) is undefined; the assertion of line 45 is the last branch. -/
noncomputable def polylineMidPoint (poly : List (P2 ℝ)) : Res (P2 ℝ) :=
  match poly with
  | [] => .error .outOfRange
  | p :: rest =>
    let lengths := midLengths 0 p rest
    let pos := lengths.getLast?.getD 0 * (1 / 2)
    let index := lengths.findIdx fun x => !decide (x < pos)
    match lengths[index]? with
    | none => .error .outOfRange
    | some c =>
      match poly[index]?, poly[index + 1]? with
      | some a, some b => stepBack a b (c - pos)
      | _, _ => .error .assertFailed

/-- The loop of `point_on_polyline_length_characteristics`: `length.hpp:72-90`. `index = none` is the
largest `size_t`. -/
noncomputable def characteristicsLoop (cmp : Cmp ℝ) (p : P2 ℝ) :
    ℝ → ℝ → Option Nat → Nat → P2 ℝ → List (P2 ℝ) → ℝ × ℝ × Option Nat
  | length, post, index, _, _, [] => (length, post, index)
  | length, post, none, i, a, b :: rest =>
    if !isBetween cmp a b p true then
      characteristicsLoop cmp p (length + pointDist a b) post none (i + 1) b rest
    else characteristicsLoop cmp p (length + pointDist a p) (post + pointDist p b) (some i) (i + 1) b rest
  | length, post, some k, i, a, b :: rest =>
    characteristicsLoop cmp p length (post + pointDist a b) (some k) (i + 1) b rest

/-- `point_on_polyline_length_characteristics`: `length.hpp:61-93`. The three results are the length
before the point, the length after it and the index of the edge. -/
noncomputable def lengthCharacteristics (cmp : Cmp ℝ) (poly : List (P2 ℝ)) (p : P2 ℝ) :
    ℝ × ℝ × Option Nat :=
  match poly with
  | [] => (0, 0, none)
  | a :: rest => characteristicsLoop cmp p 0 0 none 0 a rest

end Geometrix
