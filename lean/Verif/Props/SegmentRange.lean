import Verif.Lemmas.SegmentRange

/-!
# C94: segments and cones

The cone of apex `O` between the directions `lo` and `hi` is the set of the points `O + a lo + b hi` with
`a, b ≥ 0`; it is less than half of the plane when `hi` is to the left of `lo`.
-/

set_option linter.unusedSectionVars false

namespace Geometrix

open Spec

/-- C94: `is_segment_in_range_2d` says whether the segment meets the cone, for a cone of less than half a turn and a segment
that does not go from the ray opposite to the first direction to the ray opposite to the second one.

Partial: the answer is wrong for such segments (`C94_opposite_refuted`) and cones of more than half a turn are not
handled (`C94_reflex_refuted`). -/
theorem C94_range_partial (A B lo hi O : P2 ℝ) (h : 0 < cross lo hi)
    (h1 : ¬ ∃ a b : ℝ, 0 < a ∧ 0 < b ∧ A = O - a • lo ∧ B = O - b • hi)
    (h2 : ¬ ∃ a b : ℝ, 0 < a ∧ 0 < b ∧ B = O - a • lo ∧ A = O - b • hi) :
    ∃ r, segInRange A B lo hi O = .ok r ∧ (r = true ↔ ∃ P, OnSegment A B P ∧ InConeOf O lo hi P) := by
  obtain ⟨r, e, hr⟩ := segInRange_spec (A := A) (B := B) (O := O) h
  refine ⟨r, e, ?_⟩
  rw [hr]
  constructor
  · rintro (h | h | h)
    · exact h
    · exact absurd h h1
    · exact absurd h h2
  · exact Or.inl

example : 0 < cross (⟨1, 0⟩ : P2 ℝ) ⟨0, 1⟩ ∧
    (¬ ∃ a b : ℝ, 0 < a ∧ 0 < b ∧ (⟨2, -1⟩ : P2 ℝ) = ⟨0, 0⟩ - a • ⟨1, 0⟩ ∧ (⟨-1, 2⟩ : P2 ℝ) = ⟨0, 0⟩ - b • ⟨0, 1⟩) ∧
    ¬ ∃ a b : ℝ, 0 < a ∧ 0 < b ∧ (⟨-1, 2⟩ : P2 ℝ) = ⟨0, 0⟩ - a • ⟨1, 0⟩ ∧ (⟨2, -1⟩ : P2 ℝ) = ⟨0, 0⟩ - b • ⟨0, 1⟩ := by
  refine ⟨by norm_num [cross], ?_, ?_⟩
  · rintro ⟨a, b, -, -, h, -⟩
    simp [P2.ext_iff] at h
  · rintro ⟨a, b, -, -, h, -⟩
    simp [P2.ext_iff] at h

/-- C94 refuted: every segment from the ray opposite to the first direction to the ray opposite to the second one is said to
be in the range, though it does not meet the cone. -/
theorem C94_opposite_refuted (lo hi O : P2 ℝ) (h : 0 < cross lo hi) (a b : ℝ) (ha : 0 < a) (hb : 0 < b) :
    segInRange (O - a • lo) (O - b • hi) lo hi O = .ok true ∧
      segInRange (O - b • hi) (O - a • lo) lo hi O = .ok true ∧
      ¬ ∃ P, OnSegment (O - a • lo) (O - b • hi) P ∧ InConeOf O lo hi P := by
  refine ⟨?_, ?_, ?_⟩
  · obtain ⟨r, e, hr⟩ := segInRange_spec (A := O - a • lo) (B := O - b • hi) (O := O) h
    rw [e, hr.2 (Or.inr (Or.inl ⟨a, b, ha, hb, rfl, rfl⟩))]
  · obtain ⟨r, e, hr⟩ := segInRange_spec (A := O - b • hi) (B := O - a • lo) (O := O) h
    rw [e, hr.2 (Or.inr (Or.inr ⟨a, b, ha, hb, rfl, rfl⟩))]
  · obtain ⟨h1, h2, h3, h4⟩ := (opposite_iff h).1 ⟨a, b, ha, hb, rfl, rfl⟩
    exact opposite_misses h h1 h2 h3 h4

example : 0 < cross (⟨1, 0⟩ : P2 ℝ) ⟨0, 1⟩ := by norm_num [cross]

/-- C94 refuted: the range from the direction (0,1) counterclockwise to (1,0) is three quarters of the plane; the
segment from (-1,1) to (-2,1) is in it, and the answer is false. -/
theorem C94_reflex_refuted : segInRange ⟨-1, 1⟩ ⟨-2, 1⟩ ⟨0, 1⟩ ⟨1, 0⟩ ⟨0, 0⟩ = .ok false := by
  norm_num [segInRange, cross]

/-- C94: the overload with points: for a cone of at least a quarter and less than half a turn, and a segment whose ends
are on neither of the two lines and that does not meet the ray opposite to the first direction, the answer is false exactly
when nothing of the segment is in the cone, and otherwise the two points are the ends of the part in the cone.

Partial: without the conditions the answers may be wrong (`C94_points_opposite_refuted`, `C94_points_acute_refuted`,
`C94_points_touch_refuted`). -/
theorem C94_points_partial (A B lo hi O : P2 ℝ) (h : 0 < cross lo hi) (hd : dot lo hi ≤ 0) (hAB : A ≠ B)
    (a1 : ¬ OnLine O (O + lo) A) (a2 : ¬ OnLine O (O + hi) A) (b1 : ¬ OnLine O (O + lo) B)
    (b2 : ¬ OnLine O (O + hi) B) (hop : ¬ ∃ t : ℝ, 0 < t ∧ OnSegment A B (O - t • lo)) :
    ∃ r, segInRangePoints Cmp.direct A B lo hi O = .ok r ∧
      (r = none ↔ ¬ ∃ P, OnSegment A B P ∧ InConeOf O lo hi P) ∧
      ∀ P Q, r = some (P, Q) → ∀ W, (OnSegment A B W ∧ InConeOf O lo hi W) ↔ OnSegment P Q W := by
  have hlo : lo ≠ 0 := by rintro rfl; simp [cross] at h
  have hhi : hi ≠ 0 := by rintro rfl; simp [cross] at h
  rw [onLine_dir hlo] at a1 b1
  rw [onLine_dir hhi] at a2 b2
  exact segInRangePoints_spec h hd hAB a1 a2 b1 b2 hop

example : 0 < cross (⟨1, 0⟩ : P2 ℝ) ⟨0, 1⟩ ∧ dot (⟨1, 0⟩ : P2 ℝ) ⟨0, 1⟩ ≤ 0 ∧ (⟨2, -1⟩ : P2 ℝ) ≠ ⟨-1, 2⟩ ∧
    ¬ OnLine (⟨0, 0⟩ : P2 ℝ) (⟨0, 0⟩ + ⟨1, 0⟩) ⟨2, -1⟩ ∧ ¬ OnLine (⟨0, 0⟩ : P2 ℝ) (⟨0, 0⟩ + ⟨0, 1⟩) ⟨2, -1⟩ ∧
    ¬ OnLine (⟨0, 0⟩ : P2 ℝ) (⟨0, 0⟩ + ⟨1, 0⟩) ⟨-1, 2⟩ ∧ ¬ OnLine (⟨0, 0⟩ : P2 ℝ) (⟨0, 0⟩ + ⟨0, 1⟩) ⟨-1, 2⟩ ∧
    ¬ ∃ t : ℝ, 0 < t ∧ OnSegment (⟨2, -1⟩ : P2 ℝ) ⟨-1, 2⟩ (⟨0, 0⟩ - t • ⟨1, 0⟩) := by
  refine ⟨by norm_num [cross], by norm_num [dot], by norm_num [P2.ext_iff], ?_, ?_, ?_, ?_, ?_⟩
  · rw [onLine_dir (by norm_num [P2.ext_iff])]; norm_num [cross]
  · rw [onLine_dir (by norm_num [P2.ext_iff])]; norm_num [cross]
  · rw [onLine_dir (by norm_num [P2.ext_iff])]; norm_num [cross]
  · rw [onLine_dir (by norm_num [P2.ext_iff])]; norm_num [cross]
  · rintro ⟨t, ht, s, s0, s1, hs⟩
    simp [P2.ext_iff] at hs
    linarith [hs.1, hs.2]

/-- C94 refuted: the segment from (1,3), in the first quadrant, to (-3,-1) leaves it at (0,2); the points given are (-2,0),
which is not in the cone, and (1,3). -/
theorem C94_points_opposite_refuted :
    segInRangePoints Cmp.direct ⟨1, 3⟩ ⟨-3, -1⟩ ⟨1, 0⟩ ⟨0, 1⟩ ⟨0, 0⟩ = .ok (some (⟨-2, 0⟩, ⟨1, 3⟩)) ∧
      ¬ InConeOf (⟨0, 0⟩ : P2 ℝ) ⟨1, 0⟩ ⟨0, 1⟩ ⟨-2, 0⟩ := by
  constructor
  · obtain ⟨P, e, ⟨t, t0, t1, hP⟩, hz⟩ := line_crossed (O := ⟨0, 0⟩) (v := (⟨1, 0⟩ : P2 ℝ)) (A := ⟨1, 3⟩) (B := ⟨-3, -1⟩)
      (Or.inl (by norm_num [cross]))
    have hP' : P = ⟨-2, 0⟩ := by
      rw [hP] at hz ⊢
      simp [cross] at hz
      simp [P2.ext_iff]
      constructor <;> linarith
    norm_num [segInRangePoints, cross, rangeMixed, e, hP']
  · rw [inConeOf_iff (by norm_num [cross])]
    norm_num [cross]

/-- C94 refuted: the segment from (-10,5) to (10,-1) crosses the cone between (1,0) and (1,1), and the answer is false. -/
theorem C94_points_acute_refuted : segInRangePoints Cmp.direct ⟨-10, 5⟩ ⟨10, -1⟩ ⟨1, 0⟩ ⟨1, 1⟩ ⟨0, 0⟩ = .ok none ∧
    ∃ P, OnSegment (⟨-10, 5⟩ : P2 ℝ) ⟨10, -1⟩ P ∧ InConeOf (⟨0, 0⟩ : P2 ℝ) ⟨1, 0⟩ ⟨1, 1⟩ P := by
  constructor
  · norm_num [segInRangePoints, cross, dot]
  · exact ⟨⟨5, 1 / 2⟩, ⟨3 / 4, by norm_num, by norm_num, by norm_num [P2.ext_iff]⟩, 9 / 2, 1 / 2, by norm_num, by norm_num,
      by norm_num [P2.ext_iff]⟩

/-- C94 refuted: the segment from (1,0) to (1,-1) touches the first quadrant with its start, and the answer is false;
the overload without points says true. -/
theorem C94_points_touch_refuted : segInRangePoints Cmp.direct ⟨1, 0⟩ ⟨1, -1⟩ ⟨1, 0⟩ ⟨0, 1⟩ ⟨0, 0⟩ = .ok none ∧
    segInRange ⟨1, 0⟩ ⟨1, -1⟩ ⟨1, 0⟩ ⟨0, 1⟩ ⟨0, 0⟩ = .ok true ∧ InConeOf (⟨0, 0⟩ : P2 ℝ) ⟨1, 0⟩ ⟨0, 1⟩ ⟨1, 0⟩ := by
  refine ⟨?_, by norm_num [segInRange, cross], 1, 0, by norm_num, by norm_num, by norm_num [P2.ext_iff]⟩
  norm_num [segInRangePoints, cross, rangeMixed, rangeHi, lineSegmentIntersect, xDenom, xNumS, xNumT, Cmp.direct, cdiv,
    isCollinear, getOrientation, P2.ext_iff]

end Geometrix
