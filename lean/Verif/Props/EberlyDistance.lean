import Verif.Lemmas.EberlyDistance

/-!
# Properties of Eberly's distance of two segments

`eberly_segment_segment_distance_sqrd` should return the squared distance of the two segments. It does not: see the
refutations. The theorems state where it does.
-/

set_option linter.unusedSectionVars false

namespace Geometrix

open Spec

variable {K : Type*} [Field K] [LinearOrder K] [IsStrictOrderedRing K]

/-- C102 for parallel segments: when the second segment has the opposite direction, or when the first does not start
beyond the start of the second, the result is the squared distance. Missing: the same direction with the first segment
starting beyond the start of the second, see `C102_parallel_refuted`. -/
theorem C102_parallel_partial (p1 p2 p3 p4 : P2 K) (h12 : p1 ≠ p2) (k : K) (hk : p4 - p3 = k • (p2 - p1))
    (h : k < 0 ∨ dot (p2 - p1) (p1 - p3) ≤ 0) :
    ∃ m, eberlyDistSq p1 p2 p3 p4 = .ok m ∧ IsMinDist (OnSegment p1 p2) (OnSegment p3 p4) m := by
  have ha := distSq_pos h12
  have hb : dot (-(p2 - p1)) (p4 - p3) = -(k * distSq p1 p2) := by
    rw [hk]; simp only [dot, distSq, normSq, P2.neg_x, P2.neg_y, P2.smul_x, P2.smul_y]; ring
  have hc : distSq p3 p4 = k ^ 2 * distSq p1 p2 := by
    unfold distSq; rw [hk]; simp only [dot, normSq, P2.smul_x, P2.smul_y]; ring
  have he : dot (-(p4 - p3)) (p1 - p3) = -(k * dot (p2 - p1) (p1 - p3)) := by
    rw [hk]; simp only [dot, P2.neg_x, P2.neg_y, P2.smul_x, P2.smul_y]; ring
  have hd : cross (p2 - p1) (p4 - p3) = 0 := by
    rw [hk]; simp only [cross, P2.smul_x, P2.smul_y]; ring
  obtain ⟨s, t, hr, s0, s1, t0, t1, gs, gt⟩ := eberlyParallel_signs ha h
  refine ⟨eberlyValue p1 p2 p3 p4 s t, ?_, box_min s0 s1 t0 t1 (sign_cond ?_) (sign_cond ?_)⟩
  · simp only [eberlyDistSq, eberlyParams, hd, hb, if_true, hr]
  · rw [hb]; exact gs
  · rw [hb, hc, he]; exact gt

/-- The hypotheses hold for two segments of opposite directions. -/
example : (⟨0, 0⟩ : P2 ℚ) ≠ ⟨4, 0⟩ ∧ (⟨6, 1⟩ : P2 ℚ) - ⟨8, 1⟩ = (-1 / 2 : ℚ) • ((⟨4, 0⟩ : P2 ℚ) - ⟨0, 0⟩) ∧
    eberlyDistSq (⟨0, 0⟩ : P2 ℚ) ⟨4, 0⟩ ⟨8, 1⟩ ⟨6, 1⟩ = .ok 5 := by decide +kernel

/-- C102 for segments whose lines cross beyond the ends of both: the result is the squared distance if the second
direction is clockwise from the first or the parallelogram of the two directions has at least the area 1. Missing: all
other positions of the crossing, see `C102_crossing_refuted`, and small areas. -/
theorem C102_beyond_partial (p1 p2 p3 p4 : P2 K) (S T : K) (hS : 1 < S) (hT : 1 < T)
    (hx : p1 + S • (p2 - p1) = p3 + T • (p4 - p3))
    (hdet : cross (p2 - p1) (p4 - p3) < 0 ∨ 1 ≤ cross (p2 - p1) (p4 - p3)) :
    ∃ m, eberlyDistSq p1 p2 p3 p4 = .ok m ∧ IsMinDist (OnSegment p1 p2) (OnSegment p3 p4) m := by
  have hne : cross (p2 - p1) (p4 - p3) ≠ 0 := by
    rcases hdet with h | h
    · exact h.ne
    · exact (lt_of_lt_of_le one_pos h).ne'
  have h12 : p1 ≠ p2 := by
    rintro rfl; apply hne; simp only [cross, P2.sub_x, P2.sub_y]; ring
  have h34 : p3 ≠ p4 := by
    rintro rfl; apply hne; simp only [cross, P2.sub_x, P2.sub_y]; ring
  have ha := distSq_pos h12
  have hc := distSq_pos h34
  have hD : distSq p1 p2 * distSq p3 p4 - dot (-(p2 - p1)) (p4 - p3) ^ 2 = cross (p2 - p1) (p4 - p3) ^ 2 := by
    simp only [distSq, normSq, dot, cross, P2.neg_x, P2.neg_y, P2.sub_x, P2.sub_y]; ring
  have hD0 : 0 < distSq p1 p2 * distSq p3 p4 - dot (-(p2 - p1)) (p4 - p3) ^ 2 := by
    rw [hD]; positivity
  have ex := congrArg P2.x hx
  have ey := congrArg P2.y hx
  simp only [P2.add_x, P2.add_y, P2.smul_x, P2.smul_y, P2.sub_x, P2.sub_y] at ex ey
  have h1 : distSq p1 p2 * S + dot (-(p2 - p1)) (p4 - p3) * T = -dot (p2 - p1) (p1 - p3) := by
    simp only [distSq, normSq, dot, P2.neg_x, P2.neg_y, P2.sub_x, P2.sub_y]
    linear_combination (p2.x - p1.x) * ex + (p2.y - p1.y) * ey
  have h2 : dot (-(p2 - p1)) (p4 - p3) * S + distSq p3 p4 * T = -dot (-(p4 - p3)) (p1 - p3) := by
    simp only [distSq, normSq, dot, P2.neg_x, P2.neg_y, P2.sub_x, P2.sub_y]
    linear_combination -(p4.x - p3.x) * ex - (p4.y - p3.y) * ey
  have hs : dot (-(p2 - p1)) (p4 - p3) * dot (-(p4 - p3)) (p1 - p3) - distSq p3 p4 * dot (p2 - p1) (p1 - p3) =
      cross (p2 - p1) (p4 - p3) ^ 2 * S := by
    rw [← hD]; linear_combination -distSq p3 p4 * h1 + dot (-(p2 - p1)) (p4 - p3) * h2
  have ht : dot (-(p2 - p1)) (p4 - p3) * dot (p2 - p1) (p1 - p3) - distSq p1 p2 * dot (-(p4 - p3)) (p1 - p3) =
      cross (p2 - p1) (p4 - p3) ^ 2 * T := by
    rw [← hD]; linear_combination -distSq p1 p2 * h2 + dot (-(p2 - p1)) (p4 - p3) * h1
  have big : ∀ W : K, 1 < W → cross (p2 - p1) (p4 - p3) < cross (p2 - p1) (p4 - p3) ^ 2 * W ∧
      0 ≤ cross (p2 - p1) (p4 - p3) ^ 2 * W := by
    intro W hW
    have hsq : 0 < cross (p2 - p1) (p4 - p3) ^ 2 := by positivity
    refine ⟨?_, (mul_pos hsq (by linarith)).le⟩
    rcases hdet with h | h
    · exact h.trans (mul_pos hsq (by linarith))
    · nlinarith
  obtain ⟨s, t, hr⟩ := eberlyCorner_ok (b := dot (-(p2 - p1)) (p4 - p3)) (d := dot (p2 - p1) (p1 - p3))
    (e := dot (-(p4 - p3)) (p1 - p3)) ha hc
  obtain ⟨s0, s1, t0, t1⟩ := eberlyCorner_range ha hc hr
  obtain ⟨gs, gt⟩ := eberlyCorner_signs ha hc hD0 hS.le hT.le h1 h2 hr
  refine ⟨eberlyValue p1 p2 p3 p4 s t, ?_, box_min s0 s1 t0 t1 (sign_cond gs) (sign_cond gt)⟩
  unfold eberlyDistSq
  simp only
  rw [hs, ht]
  unfold eberlyParams
  rw [if_neg hne, if_pos (big S hS).2, if_neg (not_le.2 (big S hS).1), if_pos (big T hT).2,
    if_neg (not_le.2 (big T hT).1), hr]

/-- The hypotheses hold for two segments on the axes that end before the origin. -/
example : (⟨0, 6⟩ : P2 ℚ) + (3 : ℚ) • ((⟨0, 4⟩ : P2 ℚ) - ⟨0, 6⟩) = ⟨3, 0⟩ + (3 / 2 : ℚ) • ((⟨1, 0⟩ : P2 ℚ) - ⟨3, 0⟩) ∧
    cross ((⟨0, 4⟩ : P2 ℚ) - ⟨0, 6⟩) ((⟨1, 0⟩ : P2 ℚ) - ⟨3, 0⟩) < 0 ∧
    eberlyDistSq (⟨0, 6⟩ : P2 ℚ) ⟨0, 4⟩ ⟨3, 0⟩ ⟨1, 0⟩ = .ok 17 := by decide +kernel

/-- C102: for segments that are not parallel the result is the squared distance of a point of the first and a point of
the second, so it is never less than the squared distance of the segments. -/
theorem C102_upper_partial (p1 p2 p3 p4 : P2 K) (hd : cross (p2 - p1) (p4 - p3) ≠ 0) :
    ∃ m, eberlyDistSq p1 p2 p3 p4 = .ok m ∧ ∃ P Q, OnSegment p1 p2 P ∧ OnSegment p3 p4 Q ∧ m = sqDist P Q := by
  have h12 : p1 ≠ p2 := by
    rintro rfl; apply hd; simp only [cross, P2.sub_x, P2.sub_y]; ring
  have h34 : p3 ≠ p4 := by
    rintro rfl; apply hd; simp only [cross, P2.sub_x, P2.sub_y]; ring
  obtain ⟨s, t, hr, s0, s1, t0, t1⟩ := eberlyParams_range (b := dot (-(p2 - p1)) (p4 - p3))
    (d := dot (p2 - p1) (p1 - p3)) (e := dot (-(p4 - p3)) (p1 - p3))
    (s := dot (-(p2 - p1)) (p4 - p3) * dot (-(p4 - p3)) (p1 - p3) - distSq p3 p4 * dot (p2 - p1) (p1 - p3))
    (t := dot (-(p2 - p1)) (p4 - p3) * dot (p2 - p1) (p1 - p3) - distSq p1 p2 * dot (-(p4 - p3)) (p1 - p3))
    (distSq_pos h12) (distSq_pos h34) hd
  exact ⟨_, by simp only [eberlyDistSq, hr], _, _, ⟨s, s0, s1, rfl⟩, ⟨t, t0, t1, rfl⟩, eberlyValue_eq _ _ _ _ _ _⟩

/-- The hypothesis holds for two segments that cross. -/
example : cross ((⟨2, 0⟩ : P2 ℚ) - ⟨0, 0⟩) ((⟨1, 1⟩ : P2 ℚ) - ⟨1, -1⟩) ≠ 0 := by decide +kernel

/-- Disagreement: two segments that cross in their midpoints get the squared distance 1. The determinant should be the
square of the exterior product. -/
theorem C102_crossing_refuted :
    eberlyDistSq (⟨0, 0⟩ : P2 ℚ) ⟨2, 0⟩ ⟨1, -1⟩ ⟨1, 1⟩ = .ok 1 ∧
      OnSegment (⟨0, 0⟩ : P2 ℚ) ⟨2, 0⟩ ⟨1, 0⟩ ∧ OnSegment (⟨1, -1⟩ : P2 ℚ) ⟨1, 1⟩ ⟨1, 0⟩ := by
  refine ⟨by decide +kernel, ⟨1 / 2, by norm_num, by norm_num, by decide +kernel⟩,
    ⟨1 / 2, by norm_num, by norm_num, by decide +kernel⟩⟩

/-- Disagreement: for parallel segments of one direction the result may be less than the squared distance: a point
beyond the end of the second segment is used. -/
theorem C102_parallel_refuted :
    eberlyDistSq (⟨3, 1⟩ : P2 ℚ) ⟨4, 1⟩ ⟨0, 0⟩ ⟨1, 0⟩ = .ok 2 ∧
      ∀ P Q, OnSegment (⟨3, 1⟩ : P2 ℚ) ⟨4, 1⟩ P → OnSegment (⟨0, 0⟩ : P2 ℚ) ⟨1, 0⟩ Q → 5 ≤ sqDist P Q := by
  refine ⟨by decide +kernel, ?_⟩
  rintro P Q ⟨s, s0, s1, rfl⟩ ⟨t, t0, t1, rfl⟩
  simp only [sqDist, P2.add_x, P2.add_y, P2.smul_x, P2.smul_y, P2.sub_x, P2.sub_y]
  nlinarith

/-- Disagreement: for a first segment that is a point the result is the squared distance to the start of the second
segment, not to the second segment. -/
theorem C102_point_refuted :
    eberlyDistSq (⟨5, 1⟩ : P2 ℚ) ⟨5, 1⟩ ⟨0, 0⟩ ⟨9, 0⟩ = .ok 26 ∧
      OnSegment (⟨0, 0⟩ : P2 ℚ) ⟨9, 0⟩ ⟨5, 0⟩ ∧ sqDist (⟨5, 1⟩ : P2 ℚ) ⟨5, 0⟩ = 1 := by
  refine ⟨by decide +kernel, ⟨5 / 9, by norm_num, by norm_num, by decide +kernel⟩, by norm_num [sqDist]⟩

/-- Disagreement: for a second segment that is a point behind the start of the first the code divides by zero. -/
theorem C102_division_refuted :
    eberlyDistSq (⟨2, 0⟩ : P2 ℚ) ⟨5, 0⟩ ⟨0, 0⟩ ⟨0, 0⟩ = .error .divByZero := by decide +kernel

end Geometrix
