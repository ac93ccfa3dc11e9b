import Verif.Lemmas.Box

/-!
# C19, C20: distances to boxes
-/

set_option linter.unusedSectionVars false

namespace Geometrix

open Spec

variable {K : Type*} [Field K] [LinearOrder K] [IsStrictOrderedRing K]

/-- C19: in the plane the squared distance is the minimum over the box, and the closest point is a
point of the box at that distance. -/
theorem C19_plane (p : P2 K) (b : Box K) (hb : ValidBox b) :
    IsMinOver (InBox b) (sqDist p) (pointAabbDistSq p b) ∧
      InBox b (pointAabbClosest p b) ∧ sqDist p (pointAabbClosest p b) = pointAabbDistSq p b := by
  obtain ⟨hb1, hb2⟩ := hb
  have hin : InBox b (pointAabbClosest p b) :=
    ⟨(axisClosest_mem hb1).1, (axisClosest_mem hb1).2, (axisClosest_mem hb2).1,
      (axisClosest_mem hb2).2⟩
  have hd : sqDist p (pointAabbClosest p b) = pointAabbDistSq p b := by
    unfold pointAabbDistSq pointAabbClosest sqDist
    rw [axisDistSq_eq hb1, axisDistSq_eq hb2]
  refine ⟨⟨⟨_, hin, hd⟩, ?_⟩, hin, hd⟩
  rintro P ⟨h1, h2, h3, h4⟩
  rw [← hd]
  have := axisClosest_le (x := p.x) hb1 h1 h2
  have := axisClosest_le (x := p.y) hb2 h3 h4
  unfold sqDist pointAabbClosest
  simp only
  linarith

example : pointAabbDistSq (⟨5, -2⟩ : P2 ℚ) ⟨⟨0, 0⟩, ⟨1, 1⟩⟩ = 20 ∧
    pointAabbClosest (⟨5, -2⟩ : P2 ℚ) ⟨⟨0, 0⟩, ⟨1, 1⟩⟩ = ⟨1, 0⟩ ∧
    ValidBox (⟨⟨0, 0⟩, ⟨1, 1⟩⟩ : Box ℚ) := by
  refine ⟨by decide +kernel, by decide +kernel, ?_⟩
  constructor <;> norm_num

/-- C19, in space. -/
theorem C19_space (p : P3 K) (b : Box3 K) (hb : ValidBox3 b) :
    IsMinOver (InBox3 b) (sqDist3 p) (pointAabbDistSq3 p b) ∧
      InBox3 b (pointAabbClosest3 p b) ∧
      sqDist3 p (pointAabbClosest3 p b) = pointAabbDistSq3 p b := by
  obtain ⟨hb1, hb2, hb3⟩ := hb
  have hin : InBox3 b (pointAabbClosest3 p b) :=
    ⟨(axisClosest_mem hb1).1, (axisClosest_mem hb1).2, (axisClosest_mem hb2).1,
      (axisClosest_mem hb2).2, (axisClosest_mem hb3).1, (axisClosest_mem hb3).2⟩
  have hd : sqDist3 p (pointAabbClosest3 p b) = pointAabbDistSq3 p b := by
    unfold pointAabbDistSq3 pointAabbClosest3 sqDist3
    rw [axisDistSq_eq hb1, axisDistSq_eq hb2, axisDistSq_eq hb3]
  refine ⟨⟨⟨_, hin, hd⟩, ?_⟩, hin, hd⟩
  rintro P ⟨h1, h2, h3, h4, h5, h6⟩
  rw [← hd]
  have := axisClosest_le (x := p.x) hb1 h1 h2
  have := axisClosest_le (x := p.y) hb2 h3 h4
  have := axisClosest_le (x := p.z) hb3 h5 h6
  unfold sqDist3 pointAabbClosest3
  simp only
  linarith

example : pointAabbDistSq3 (⟨5, -2, 1⟩ : P3 ℚ) ⟨⟨0, 0, 0⟩, ⟨1, 1, 1⟩⟩ = 20 ∧
    ValidBox3 (⟨⟨0, 0, 0⟩, ⟨1, 1, 1⟩⟩ : Box3 ℚ) := by
  refine ⟨by decide +kernel, ?_⟩
  refine ⟨?_, ?_, ?_⟩ <;> norm_num

/-- C20: the squared distance of two boxes is the minimum over the pairs of their points. -/
theorem C20_minimum (a b : Box K) (ha : ValidBox a) (hb : ValidBox b) :
    IsMinOver (fun PQ : P2 K × P2 K => InBox a PQ.1 ∧ InBox b PQ.2)
      (fun PQ => sqDist PQ.1 PQ.2) (aabbAabbDistSq a b) := by
  obtain ⟨p, q, h1, h2, h3, h4, h5⟩ := axisGapSq_attained ha.1 hb.1
  obtain ⟨p', q', k1, k2, k3, k4, k5⟩ := axisGapSq_attained ha.2 hb.2
  constructor
  · refine ⟨(⟨p, p'⟩, ⟨q, q'⟩), ⟨⟨h1, h2, k1, k2⟩, h3, h4, k3, k4⟩, ?_⟩
    simp only [sqDist, aabbAabbDistSq, h5, k5]
  · rintro ⟨P, Q⟩ ⟨⟨a1, a2, a3, a4⟩, b1, b2, b3, b4⟩
    exact add_le_add (axisGapSq_le a1 a2 b1 b2) (axisGapSq_le a3 a4 b3 b4)

example : aabbAabbDistSq (⟨⟨0, 0⟩, ⟨1, 1⟩⟩ : Box ℚ) ⟨⟨4, -5⟩, ⟨5, -4⟩⟩ = 25 := by decide +kernel

/-- C20: it is symmetric. -/
theorem C20_symmetric (a b : Box K) (ha : ValidBox a) (hb : ValidBox b) :
    aabbAabbDistSq a b = aabbAabbDistSq b a := by
  unfold aabbAabbDistSq
  rw [axisGapSq_comm ha.1 hb.1, axisGapSq_comm ha.2 hb.2]

/-- C20: it is zero exactly when the boxes share a point, which is when the box test is true. -/
theorem C20_zero (a b : Box K) (ha : ValidBox a) (hb : ValidBox b) :
    (aabbAabbDistSq a b = 0 ↔ ∃ P, InBox a P ∧ InBox b P) ∧
      (aabbAabbDistSq a b = 0 ↔ a.intersectsBox Cmp.direct b = true) := by
  obtain ⟨⟨⟨⟨P, Q⟩, ⟨hP, hQ⟩, hPQ⟩, hmin⟩, hz⟩ :=
    And.intro (C20_minimum a b ha hb) (add_eq_zero_iff_of_nonneg
      (axisGapSq_nonneg a.lo.x a.hi.x b.lo.x b.hi.x) (axisGapSq_nonneg a.lo.y a.hi.y b.lo.y b.hi.y))
  constructor
  · constructor
    · intro h
      simp only at hPQ
      rw [h] at hPQ
      have h1 : (P.x - Q.x) ^ 2 = 0 ∧ (P.y - Q.y) ^ 2 = 0 := by
        unfold sqDist at hPQ
        constructor <;> nlinarith [sq_nonneg (P.x - Q.x), sq_nonneg (P.y - Q.y)]
      have : P = Q := by
        ext
        · exact sub_eq_zero.mp (pow_eq_zero_iff (two_ne_zero)|>.mp h1.1)
        · exact sub_eq_zero.mp (pow_eq_zero_iff (two_ne_zero)|>.mp h1.2)
      exact ⟨P, hP, this ▸ hQ⟩
    · rintro ⟨R, h1, h2⟩
      have := hmin (R, R) ⟨h1, h2⟩
      have h0 : sqDist R R = 0 := by simp [sqDist]
      simp only [h0] at this
      refine le_antisymm this ?_
      exact add_nonneg (axisGapSq_nonneg _ _ _ _) (axisGapSq_nonneg _ _ _ _)
  · unfold aabbAabbDistSq Box.intersectsBox
    rw [hz, axisGapSq_eq_zero, axisGapSq_eq_zero]
    simp only [Bool.or_eq_true, direct_lt, direct_gt]
    split_ifs with h1
    · simp only [iff_false]; tauto
    · push Not at h1
      simp [h1]
      exact and_comm

end Geometrix
