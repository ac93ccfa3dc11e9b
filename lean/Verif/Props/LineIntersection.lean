import Verif.Lemmas.LineIntersection

/-!
# C10: lines with lines and segments
-/

set_option linter.unusedSectionVars false

namespace Geometrix

open Spec

variable {K : Type*} [Field K] [LinearOrder K] [IsStrictOrderedRing K]

/-- C10: lines that are not parallel cross, and the point and both parameters describe the only
common point. -/
theorem C10_line_line_crossing (A B C D : P2 K) (hAB : A ≠ B) (hn : ¬ Parallel (B - A) (D - C)) :
    ∃ P s t, lineLineIntersectST Cmp.direct A B C D = .ok (.crossing, some (P, s, t)) ∧
      lineLineIntersect Cmp.direct A B C D = .ok (.crossing, some P) ∧
      P = A + s • (B - A) ∧ P = C + t • (D - C) ∧
      ∀ Q, OnLine A B Q → OnLine C D Q → Q = P := by
  have hd : xDenom A B C D ≠ 0 := (not_parallel_of_denom hAB).mpr hn
  have hs := x_solves hd
  refine ⟨_, xNumS A C D / xDenom A B C D, xNumT A B C / xDenom A B C D,
    by simp [lineLineIntersectST, hd, cdiv], ?_, rfl, hs, ?_⟩
  · simp [lineLineIntersect, hd, cdiv, hs]
  · rintro Q ⟨s, h1⟩ ⟨t, h2⟩
    rw [h1] at h2
    rw [h1, (x_unique hd h2).1]

example : (⟨0, 0⟩ : P2 ℚ) ≠ ⟨2, 2⟩ ∧
    ¬ Parallel ((⟨2, 2⟩ : P2 ℚ) - ⟨0, 0⟩) ((⟨2, 0⟩ : P2 ℚ) - ⟨0, 2⟩) := by
  refine ⟨by decide, ?_⟩
  rw [parallel_iff_cross (by decide +kernel)]
  decide +kernel

/-- C10: parallel lines are reported as overlapping when they are the same line, and as not
crossing when they have no common point; no point is reported. -/
theorem C10_line_line_parallel (A B C D : P2 K) (hAB : A ≠ B) (hCD : C ≠ D)
    (hp : Parallel (B - A) (D - C)) :
    ∃ r, lineLineIntersectST Cmp.direct A B C D = .ok (r, none) ∧
      lineLineIntersect Cmp.direct A B C D = .ok (r, none) ∧
      (r = .overlapping ∨ r = .nonCrossing) ∧
      (r = .overlapping ↔ ∀ Q, OnLine A B Q ↔ OnLine C D Q) ∧
      (r = .nonCrossing ↔ ¬ ∃ Q, OnLine A B Q ∧ OnLine C D Q) := by
  have hd : xDenom A B C D = 0 := by
    by_contra h; exact (not_parallel_of_denom hAB).mp h hp
  obtain ⟨h1, h2⟩ := parallel_lines hAB hCD hd
  refine ⟨if isCollinear Cmp.direct A B C then .overlapping else .nonCrossing,
    by simp [lineLineIntersectST, hd], by simp [lineLineIntersect, hd], ?_⟩
  by_cases hc : isCollinear Cmp.direct A B C = true
  · have hl := (collinear_iff_onLine hAB).mp hc
    simp only [hc, if_true]
    refine ⟨Or.inl trivial, ?_, ?_⟩
    · simp only [true_iff]; exact h2 hl
    · simp only [reduceCtorEq, false_iff, not_not]; exact h1.mp hl
  · have hl : ¬ OnLine A B C := fun h => hc ((collinear_iff_onLine hAB).mpr h)
    simp only [hc]
    refine ⟨Or.inr rfl, ?_, ?_⟩
    · simp only [Bool.false_eq_true, if_false, reduceCtorEq, false_iff]
      intro h
      exact hl ((h C).mpr ⟨0, by ext <;> simp⟩)
    · simp only [Bool.false_eq_true, if_false, true_iff]
      rw [← h1]; exact hl

example : (⟨0, 0⟩ : P2 ℚ) ≠ ⟨2, 2⟩ ∧ (⟨1, 0⟩ : P2 ℚ) ≠ ⟨4, 3⟩ ∧
    Parallel ((⟨2, 2⟩ : P2 ℚ) - ⟨0, 0⟩) ((⟨4, 3⟩ : P2 ℚ) - ⟨1, 0⟩) :=
  ⟨by decide, by decide, Or.inl ⟨3 / 2, by ext <;> norm_num⟩⟩

/-- C10: the line `AB` and the segment `CD`: not crossing exactly when disjoint; crossing exactly
when not parallel and meeting inside the segment; endpoint exactly when not parallel and meeting at
an end of the segment; overlapping exactly when the segment is part of the line. A reported point
is the only common point. -/
theorem C10_line_segment (A B C D : P2 K) (hAB : A ≠ B) (hCD : C ≠ D) :
    ∃ r o, lineSegmentIntersect Cmp.direct A B C D = .ok (r, o) ∧
      (r = .nonCrossing ↔ ¬ ∃ P, OnLine A B P ∧ OnSegment C D P) ∧
      (r = .crossing ↔ ¬ Parallel (B - A) (D - C) ∧ ∃ P, OnLine A B P ∧ InsideSegment C D P) ∧
      (r = .endpoint ↔ ¬ Parallel (B - A) (D - C) ∧ (OnLine A B C ∨ OnLine A B D)) ∧
      (r = .overlapping ↔ OnLine A B C ∧ OnLine A B D) ∧
      ((r = .crossing ∨ r = .endpoint) ↔ o.isSome) ∧
      (∀ P, o = some P → OnLine A B P ∧ OnSegment C D P ∧
        ∀ Q, OnLine A B Q → OnSegment C D Q → Q = P) := by
  by_cases hd : xDenom A B C D = 0
  · obtain ⟨h1, h2⟩ := parallel_lines hAB hCD hd
    have hp : Parallel (B - A) (D - C) := by
      by_contra h; exact (not_parallel_of_denom hAB).mpr h hd
    refine ⟨if isCollinear Cmp.direct A B C then .overlapping else .nonCrossing, none,
      by simp [lineSegmentIntersect, hd], ?_⟩
    by_cases hc : isCollinear Cmp.direct A B C = true
    · have hl := (collinear_iff_onLine hAB).mp hc
      have hl2 : OnLine A B D := (h2 hl D).mpr ⟨1, by ext <;> simp⟩
      simp only [hc, if_true]
      refine ⟨?_, by simp [hp], by simp [hp], by simp [hl, hl2], by simp, by simp⟩
      simp only [reduceCtorEq, false_iff, not_not]
      exact ⟨C, hl, onSegment_start C D⟩
    · have hl : ¬ OnLine A B C := fun h => hc ((collinear_iff_onLine hAB).mpr h)
      simp only [hc]
      refine ⟨?_, by simp [hp], by simp [hp], by simp [hl], by simp, by simp⟩
      simp only [Bool.false_eq_true, if_false, true_iff]
      rintro ⟨P, hP1, hP2⟩
      exact hl (h1.mpr ⟨P, hP1, onSegment_onLine hP2⟩)
  · have hn := (not_parallel_of_denom hAB).mp hd
    have hs := x_solves hd
    set s := xNumS A C D / xDenom A B C D with hsdef
    set t := xNumT A B C / xDenom A B C D with htdef
    have hDC : D - C ≠ 0 := sub_ne_zero_P2 hCD
    have huniq : ∀ Q u, OnLine A B Q → Q = C + u • (D - C) → u = t := by
      rintro Q u ⟨s', h1⟩ h2
      rw [h1] at h2
      exact (x_unique hd h2).2
    have hX : OnLine A B (C + t • (D - C)) := ⟨s, hs.symm⟩
    have hnum3 : xNumT A B C = 0 ↔ t = 0 := by rw [htdef, div_eq_zero_iff, or_iff_left hd]
    have hnum4 : xNumT A B C = xDenom A B C D ↔ t = 1 := by rw [htdef, div_eq_one_iff_eq hd]
    have hc2 : cdiv (xNumT A B C) (xDenom A B C D) = .ok t := by simp [cdiv, hd, htdef]
    have hlC : OnLine A B C ↔ t = 0 := by
      constructor
      · intro h; exact (huniq C 0 h (by ext <;> simp)).symm
      · intro h; rw [h, P2.add_zero_param] at hX; exact hX
    have hlD : OnLine A B D ↔ t = 1 := by
      constructor
      · intro h; exact (huniq D 1 h (by ext <;> simp)).symm
      · intro h; rw [h, P2.add_sub_cancel_param] at hX; exact hX
    have hin : (∃ P, OnLine A B P ∧ InsideSegment C D P) ↔ 0 < t ∧ t < 1 := by
      constructor
      · rintro ⟨P, h1, u, h2, h3, h4⟩
        rw [← huniq P u h1 h4]; exact ⟨h2, h3⟩
      · rintro ⟨h1, h2⟩; exact ⟨_, hX, t, h1, h2, rfl⟩
    have hon : (∃ P, OnLine A B P ∧ OnSegment C D P) ↔ 0 ≤ t ∧ t ≤ 1 := by
      constructor
      · rintro ⟨P, h1, u, h2, h3, h4⟩
        rw [← huniq P u h1 h4]; exact ⟨h2, h3⟩
      · rintro ⟨h1, h2⟩; exact ⟨_, hX, t, h1, h2, rfl⟩
    have hpt : 0 ≤ t → t ≤ 1 → ∀ P, some (C + t • (D - C)) = some P →
        OnLine A B P ∧ OnSegment C D P ∧ ∀ Q, OnLine A B Q → OnSegment C D Q → Q = P := by
      intro h1 h2 P hP
      simp only [Option.some.injEq] at hP
      subst hP
      refine ⟨hX, ⟨t, h1, h2, rfl⟩, ?_⟩
      rintro Q hQ ⟨u, _, _, hu⟩
      rw [hu, huniq Q u hQ hu]
    simp only [hlC, hlD, hin, hon, hn, not_false_eq_true, true_and]
    by_cases h1 : t < 0 ∨ 1 < t
    · refine ⟨.nonCrossing, none, ?_, ?_, ?_, ?_, ?_, by simp, by simp⟩
      · simp [lineSegmentIntersect, hd, hc2, h1]
      · simp only [true_iff]; rintro ⟨h2, h3⟩; rcases h1 with h | h <;> linarith
      · simp only [reduceCtorEq, false_iff]; rintro ⟨h2, h3⟩; rcases h1 with h | h <;> linarith
      · simp only [reduceCtorEq, false_iff]
        rintro (h2 | h2) <;> rcases h1 with h | h <;> linarith
      · simp only [reduceCtorEq, false_iff]; rintro ⟨h2, h3⟩; linarith
    · have h1' := h1
      push Not at h1'
      by_cases h2 : 0 < t ∧ t < 1
      · refine ⟨.crossing, some (C + t • (D - C)), ?_, ?_, ?_, ?_, ?_, by simp, hpt h1'.1 h1'.2⟩
        · simp [lineSegmentIntersect, hd, hc2, h1, h2]
        · simp [h1']
        · simp [h2]
        · simp only [reduceCtorEq, false_iff]; rintro (h | h) <;> linarith
        · simp only [reduceCtorEq, false_iff]; rintro ⟨h3, h4⟩; linarith
      · have h3 : t = 0 ∨ t = 1 := by
          by_contra h; push Not at h
          exact h2 ⟨lt_of_le_of_ne h1'.1 (Ne.symm h.1), lt_of_le_of_ne h1'.2 h.2⟩
        refine ⟨.endpoint, some (C + t • (D - C)), ?_, ?_, ?_, ?_, ?_, by simp, hpt h1'.1 h1'.2⟩
        · simp [lineSegmentIntersect, hd, hc2, h1, h2, hnum3, hnum4, h3]
        · simp [h1']
        · simp [h2]
        · simp [h3]
        · simp only [reduceCtorEq, false_iff]; rintro ⟨h3, h4⟩; linarith

example : (⟨0, 0⟩ : P2 ℚ) ≠ ⟨2, 2⟩ ∧ (⟨0, 2⟩ : P2 ℚ) ≠ ⟨2, 0⟩ := by decide

end Geometrix
