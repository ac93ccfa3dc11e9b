import Verif.Model.PolylineSplit

/-!
# Clipping the ends of a polyline

`geometrix/algorithm/point_sequence/clip_polyline_ends.hpp`.
-/

set_option linter.unusedSectionVars false

namespace Geometrix

/-- The loop of `polyline_segment_lengths` with a cutoff: `clip_polyline_ends.hpp:51-57` (iterators) and `:72-78`
(indices). `p` is the point before the list. -/
noncomputable def cutoffLengths (cutoff : ℝ) : ℝ → P2 ℝ → List (P2 ℝ) → List ℝ
  | _, _, [] => []
  | length, p, q :: rest =>
    if length + pointDist p q > cutoff then [length + pointDist p q]
    else (length + pointDist p q) :: cutoffLengths cutoff (length + pointDist p q) q rest

/-- `polyline_segment_lengths` with a cutoff: `clip_polyline_ends.hpp:41-81`. -/
noncomputable def segmentLengths (poly : List (P2 ℝ)) (cutoff : ℝ) : List ℝ :=
  match poly with
  | [] => []
  | p :: rest => cutoffLengths cutoff 0 p rest

/-- `clip_polyline_front`: `clip_polyline_ends.hpp:83-113` (iterators) and `:115-146` (indices), which differ only in
how the points are accessed. `std::lower_bound` on the ascending lengths is the first position whose element is not
less; the assertion is the last branch. -/
noncomputable def clipFront (cmp : Cmp ℝ) (poly : List (P2 ℝ)) (l : ℝ) : Res (List (P2 ℝ)) :=
  let lengths := segmentLengths poly l
  let index := lengths.findIdx fun x => !decide (x < l)
  match lengths[index]? with
  | none => .ok []
  | some c =>
    match poly[index]?, poly[index + 1]? with
    | some a, some b =>
      if cmp.gt (c - l) 0 then
        match stepBack a b (c - l) with
        | .error e => .error e
        | .ok s => .ok (if seqEquals cmp s b then poly.drop (index + 1) else s :: poly.drop (index + 1))
      else if index + 2 < poly.length then .ok (b :: poly.drop (index + 2))
      else .ok (poly.drop (index + 2))
    | _, _ => .error .assertFailed

/-- `clip_polyline_back`: `clip_polyline_ends.hpp:148-155`. -/
noncomputable def clipBack (cmp : Cmp ℝ) (poly : List (P2 ℝ)) (l : ℝ) : Res (List (P2 ℝ)) :=
  match clipFront cmp poly.reverse l with
  | .error e => .error e
  | .ok r => .ok r.reverse

/-- `clip_polyline_ends`: `clip_polyline_ends.hpp:157-161`. -/
noncomputable def clipEnds (cmp : Cmp ℝ) (poly : List (P2 ℝ)) (l : ℝ) : Res (List (P2 ℝ)) :=
  match clipFront cmp poly l with
  | .error e => .error e
  | .ok r => clipBack cmp r l

end Geometrix
