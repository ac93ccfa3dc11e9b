import Verif.Lemmas.ArcLength
import Verif.Props.PointSequence
import Verif.Props.PolylineSplit

/-!
# C50: arc length

The length itself is `C25_polyline_length`: the sum of the distances of consecutive points.
-/

namespace Geometrix

open Spec

/-- `polyline_length` is not negative; it is zero exactly when consecutive points are all equal. -/
theorem C50_nonneg (P : List (P2 ℝ)) : 0 ≤ polylineLength P ∧
    (polylineLength P = 0 ↔ ∀ l A B r, P = l ++ A :: B :: r → A = B) := by
  rw [C25_polyline_length]
  refine ⟨chainSum_nonneg P, fun h l A B r e => ?_, fun h => ?_⟩
  · rw [e, chainSum_join, chainSum_cons] at h
    have h1 := chainSum_nonneg (l ++ [A])
    have h2 := chainSum_nonneg (B :: r)
    have h3 := dist_nonneg' A B
    exact dist_eq_zero'.1 (by linarith)
  · induction P with
    | nil => rfl
    | cons A P ih =>
      cases P with
      | nil => rfl
      | cons B r =>
        rw [chainSum_cons, dist_eq_zero'.2 (h [] A B r rfl), zero_add]
        exact ih (fun l C D s e => h (A :: l) C D s (by rw [e]; rfl))

/-- Joining two polylines at a shared vertex adds the lengths. -/
theorem C50_additive (l r : List (P2 ℝ)) (p : P2 ℝ) :
    polylineLength (l ++ p :: r) = polylineLength (l ++ [p]) + polylineLength (p :: r) := by
  rw [C25_polyline_length, C25_polyline_length, C25_polyline_length, chainSum_join]

/-- The length does not change by reversal. -/
theorem C50_reverse (P : List (P2 ℝ)) : polylineLength P.reverse = polylineLength P :=
  C25_polyline_length_reverse P

/-- A polyline is not shorter than the distance of any two of its points, in particular of its ends. -/
theorem C50_at_least_distance (P l m r : List (P2 ℝ)) (A B : P2 ℝ) (h : P = l ++ A :: (m ++ B :: r)) :
    Spec.dist A B ≤ polylineLength P := by
  subst h
  rw [C25_polyline_length, chainSum_join]
  have e : chainSum Spec.dist (A :: (m ++ B :: r)) = chainSum Spec.dist ((A :: m) ++ [B]) + chainSum Spec.dist (B :: r) :=
    chainSum_join Spec.dist (A :: m) r B
  have h1 := chainSum_nonneg (l ++ [A])
  have h2 := chainSum_nonneg (B :: r)
  have h3 := dist_le_chainSum m A B
  rw [← List.cons_append] at h3
  linarith

example : ([⟨0, 0⟩, ⟨3, 4⟩, ⟨0, 1⟩, ⟨5, 5⟩] : List (P2 ℝ)) = [⟨0, 0⟩] ++ ⟨3, 4⟩ :: ([⟨0, 1⟩] ++ ⟨5, 5⟩ :: []) := rfl

/-- A single edge is exactly as long as its ends are apart. -/
theorem C50_segment (A B : P2 ℝ) : polylineLength [A, B] = Spec.dist A B := by
  rw [C25_polyline_length, chainSum_cons, chainSum_single, add_zero]

/-- `polyline_mid_point` of a polyline of positive length is a point of one of its edges that cuts it in two
polylines of the same length. -/
theorem C50_mid_point (P : List (P2 ℝ)) (h : 0 < polylineLength P) :
    ∃ l A B r M, P = l ++ A :: B :: r ∧ polylineMidPoint P = .ok M ∧ OnSegment A B M ∧
      polylineLength (l ++ [A, M]) = polylineLength P / 2 ∧ polylineLength (M :: B :: r) = polylineLength P / 2 := by
  rw [C25_polyline_length] at h
  obtain ⟨i, M, hM, l, A, B, r, e, _, hon, h1, h2⟩ := C56_mid_point P h
  exact ⟨l, A, B, r, M, e, hM, hon, by simpa only [C25_polyline_length] using h1,
    by simpa only [C25_polyline_length] using h2⟩

example : 0 < polylineLength [⟨0, 0⟩, ⟨1, 0⟩] := by
  rw [C50_segment, Spec.dist, show ((1 : ℝ) - 0) ^ 2 + (0 - 0) ^ 2 = 1 by norm_num, Real.sqrt_one]
  norm_num

end Geometrix
