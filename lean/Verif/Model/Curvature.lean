import Verif.Model.PolylineSplit

/-!
# Curvature of polylines

`geometrix/algorithm/point_sequence/curvature.hpp`, for plane polylines.
-/

set_option linter.unusedSectionVars false

namespace Geometrix

/-- The quotient `2 * area / sqrt(dij * djk * dik)` for the three points: `curvature.hpp:65-75`, `95-105`, `133-137`,
`169-173`. `area` is the exterior product or its absolute value. -/
noncomputable def curvatureQuotient (area : ℝ) (a b c : P2 ℝ) : Res ℝ :=
  cdiv (2 * area) (Real.sqrt (distSq b a * distSq b c * distSq a c))

/-- `polyline_signed_curvature_at_index`: `curvature.hpp:54-80`. -/
noncomputable def signedCurvature (poly : List (P2 ℝ)) (j : Nat) : Res ℝ :=
  if 0 < j ∧ j + 1 < poly.length then
    match poly[j - 1]?, poly[j]?, poly[j + 1]? with
    | some a, some b, some c => curvatureQuotient (cross (b - a) (c - b)) a b c
    | _, _, _ => .error .outOfRange
  else .ok 0

/-- `polyline_total_curvature_over_index`: `curvature.hpp:83-110`. -/
noncomputable def curvatureOverIndex (poly : List (P2 ℝ)) (j : Nat) : Res ℝ :=
  if 0 < j ∧ j + 1 < poly.length then
    match poly[j - 1]?, poly[j]?, poly[j + 1]? with
    | some a, some b, some c =>
      match curvatureQuotient |cross (b - a) (c - b)| a b c with
      | .error e => .error e
      | .ok k => .ok (1 / 2 * (Real.sqrt (distSq b a) + Real.sqrt (distSq b c)) * k)
    | _, _, _ => .error .outOfRange
  else .ok 0

/-- The loop of `polyline_total_curvature` and `polyline_total_absolute_curvature`: `curvature.hpp:128-142`, `164-178`.
`dij` is carried from turn to turn; `v1` is `b - a`. `f` is the identity or the absolute value. -/
noncomputable def totalCurvatureLoop (f : ℝ → ℝ) : ℝ → ℝ → List (P2 ℝ) → Res ℝ
  | sum, dij, a :: b :: c :: rest =>
    match cdiv (2 * f (cross (b - a) (c - b))) (Real.sqrt (dij * distSq b c * distSq a c)) with
    | .error e => .error e
    | .ok k =>
      totalCurvatureLoop f (sum + 1 / 2 * (Real.sqrt dij + Real.sqrt (distSq b c)) * k) (distSq b c) (b :: c :: rest)
  | sum, _, _ => .ok sum

/-- `polyline_total_curvature` (`f` the identity): `curvature.hpp:112-145`; `polyline_total_absolute_curvature` (`f` the
absolute value): `curvature.hpp:147-181`. -/
noncomputable def totalCurvature (f : ℝ → ℝ) (poly : List (P2 ℝ)) : Res ℝ :=
  match poly with
  | a :: b :: c :: rest => totalCurvatureLoop f 0 (distSq b a) (a :: b :: c :: rest)
  | _ => .ok 0

/-- `sign`: `geometrix/utility/utilities.hpp:855-859`. -/
noncomputable def curvatureSign (x : ℝ) : Int := if x ≥ 0 then 1 else -1

/-- The loop of `inflection_points`: `curvature.hpp:191-200`, from the index `i` on, with `n` indices to go. -/
noncomputable def inflectionLoop (poly : List (P2 ℝ)) : Nat → Nat → Int → Res (List Nat)
  | 0, _, _ => .ok []
  | n + 1, i, cSign =>
    match signedCurvature poly i with
    | .error e => .error e
    | .ok k =>
      match inflectionLoop poly n (i + 1) (curvatureSign k) with
      | .error e => .error e
      | .ok r => .ok (if curvatureSign k ≠ cSign then i :: r else r)

/-- `inflection_points`: `curvature.hpp:183-203`. When the sign has not changed, assigning it again has no effect, so
the loop above does it in both cases. -/
noncomputable def inflectionPoints (poly : List (P2 ℝ)) : Res (List Nat) :=
  match signedCurvature poly 0 with
  | .error e => .error e
  | .ok k => inflectionLoop poly (poly.length - 1) 1 (curvatureSign k)

/-- The loop of `split_polyline_by_inflection_points`: `curvature.hpp:213-227`. The points from index `i` on are in the
list; a polyline that was moved from is empty. -/
noncomputable def splitInflectionLoop (poly : List (P2 ℝ)) :
    List (P2 ℝ) → Nat → Int → List (P2 ℝ) → List (List (P2 ℝ)) → Res (List (List (P2 ℝ)))
  | [], _, _, current, results => .ok (if current.length > 1 then results ++ [current] else results)
  | p :: rest, i, cSign, current, results =>
    match signedCurvature poly i with
    | .error e => .error e
    | .ok k =>
      let current := current ++ [p]
      if curvatureSign k ≠ cSign then
        if current.length > 1 then splitInflectionLoop poly rest (i + 1) (curvatureSign k) [p] (results ++ [current])
        else splitInflectionLoop poly rest (i + 1) (curvatureSign k) current results
      else splitInflectionLoop poly rest (i + 1) cSign current results

/-- `split_polyline_by_inflection_points`: `curvature.hpp:205-233`. -/
noncomputable def splitInflection (poly : List (P2 ℝ)) : Res (List (List (P2 ℝ))) :=
  match poly with
  | [] => .error .outOfRange
  | p :: rest =>
    match signedCurvature poly 0 with
    | .error e => .error e
    | .ok k => splitInflectionLoop poly rest 1 (curvatureSign k) [p] []

/-- The loop of `split_by_total_curvature`: `curvature.hpp:244-260`. -/
noncomputable def splitTotalLoop (poly : List (P2 ℝ)) (ksplit : ℝ) :
    List (P2 ℝ) → Nat → ℝ → List (P2 ℝ) → List (List (P2 ℝ)) → Res (List (List (P2 ℝ)))
  | [], _, _, current, results => .ok (if current.length > 1 then results ++ [current] else results)
  | p :: rest, i, ktot, current, results =>
    match curvatureOverIndex poly i with
    | .error e => .error e
    | .ok k =>
      let ktot := ktot + k
      let current := current ++ [p]
      if ktot > ksplit then
        if current.length > 1 then splitTotalLoop poly ksplit rest (i + 1) 0 [p] (results ++ [current])
        else splitTotalLoop poly ksplit rest (i + 1) 0 current results
      else splitTotalLoop poly ksplit rest (i + 1) ktot current results

/-- `split_by_total_curvature`: `curvature.hpp:235-266`. -/
noncomputable def splitTotal (poly : List (P2 ℝ)) (ksplit : ℝ) : Res (List (List (P2 ℝ))) :=
  match poly with
  | [] => .error .outOfRange
  | p :: rest => splitTotalLoop poly ksplit rest 1 0 [p] []

end Geometrix
