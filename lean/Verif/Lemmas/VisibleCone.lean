import Verif.Model.VisibleSearch
import Verif.Lemmas.SegmentRange
import Verif.Lemmas.MeshAdjacency
import Verif.Lemmas.Convex
import Mathlib.Tactic.Linarith
import Mathlib.Tactic.LinearCombination
import Mathlib.Tactic.Positivity

/-!
# Cones and triangles seen from the origin
-/

set_option linter.unusedSectionVars false

namespace Geometrix
open Spec

/-! ## Identities -/

theorem plucker (a b c d : P2 ℝ) : cross a b * cross c d - cross a c * cross b d + cross a d * cross b c = 0 := by
  simp [cross]; ring

theorem cross_anti (a b : P2 ℝ) : cross a b = -cross b a := by simp [cross]; ring

theorem area_first (a b k X : P2 ℝ) : area2 a k X * cross a b = cross a X * area2 a k b + area2 a b X * cross a k := by
  simp [cross, area2]; ring

theorem area_second (a b k X : P2 ℝ) : area2 k b X * cross a b = cross X b * area2 k b a + area2 a b X * cross k b := by
  simp [cross, area2]; ring

theorem area_cross (a b X : P2 ℝ) : area2 a b X = cross a b + cross b X + cross X a := by
  simp [cross, area2]; ring

theorem area_rot (a b c : P2 ℝ) : area2 a b c = area2 b c a := by simp [area2]; ring

theorem area_flip (a b c : P2 ℝ) : area2 a b c = -area2 b a c := by simp [area2]; ring

theorem cross_sub_right (a b c : P2 ℝ) : cross a (b - c) = cross a b - cross a c := by simp [cross]; ring

/-- A point beyond the side and to the right of its first end is to the right of everything in the cone. -/
theorem right_of_cone {a b k X : P2 ℝ} (hD : 0 < cross a b) (hk : area2 a b k < 0) (hr : cross a k < 0)
    (h1 : 0 ≤ cross a X) (h2 : 0 < cross X b) : cross X k < 0 := by
  have e : cross X k * cross a b = cross X b * cross a k - cross a X * cross k b := by simp [cross]; ring
  have hkb : 0 < cross k b := by
    rw [area_cross] at hk
    have := cross_anti b k
    have := cross_anti k a
    linarith
  by_contra hc
  nlinarith [mul_nonneg (not_lt.1 hc) hD.le, mul_pos h2 (neg_pos.2 hr), mul_nonneg h1 hkb.le]

/-- A point beyond the side and to the left of its second end is to the left of everything in the cone. -/
theorem left_of_cone {a b k X : P2 ℝ} (hD : 0 < cross a b) (hk : area2 a b k < 0) (hr : cross k b < 0)
    (h1 : 0 < cross a X) (h2 : 0 ≤ cross X b) : 0 < cross X k := by
  have e : cross X k * cross a b = cross X b * cross a k - cross a X * cross k b := by simp [cross]; ring
  have hkb : 0 < cross a k := by
    rw [area_cross] at hk
    have := cross_anti b k
    have := cross_anti k a
    linarith
  by_contra hc
  nlinarith [mul_nonneg (neg_nonneg.2 (not_lt.1 hc)) hD.le, mul_pos h1 (neg_pos.2 hr), mul_nonneg h2 hkb.le]

/-- A point of the cone of a side, beyond it and not beyond the next side, is in the triangle. -/
theorem in_apex_first {a b k X : P2 ℝ} (hD : 0 < cross a b) (ht : 0 < area2 b a k) (hak : 0 < cross a k)
    (h1 : 0 ≤ cross X k) (h2 : 0 ≤ cross X b) (h3 : area2 a b X < 0) (h4 : 0 ≤ area2 a k X) :
    0 ≤ area2 b a X ∧ 0 ≤ area2 a k X ∧ 0 ≤ area2 k b X := by
  refine ⟨by rw [area_flip]; linarith, h4, ?_⟩
  have hkba : 0 < area2 k b a := by rwa [← area_rot]  at ht
  rcases le_or_gt 0 (cross k b) with h | h
  · have e : area2 k b X * cross a k = cross X k * area2 k b a + area2 a k X * cross k b := by
      simp [cross, area2]; ring
    by_contra hc
    nlinarith [mul_pos (neg_pos.2 (not_le.1 hc)) hak, mul_nonneg h1 hkba.le, mul_nonneg h4 h]
  · have e := area_second a b k X
    by_contra hc
    nlinarith [mul_pos (neg_pos.2 (not_le.1 hc)) hD, mul_nonneg h2 hkba.le, mul_pos_of_neg_of_neg h3 h]

theorem in_apex_second {a b k X : P2 ℝ} (hD : 0 < cross a b) (ht : 0 < area2 b a k) (hkb : 0 < cross k b)
    (h1 : 0 ≤ cross k X) (h2 : 0 ≤ cross a X) (h3 : area2 a b X < 0) (h4 : 0 ≤ area2 k b X) :
    0 ≤ area2 b a X ∧ 0 ≤ area2 a k X ∧ 0 ≤ area2 k b X := by
  refine ⟨by rw [area_flip]; linarith, ?_, h4⟩
  have hakb : 0 < area2 a k b := by rwa [area_rot] at ht
  rcases le_or_gt 0 (cross a k) with h | h
  · have e : area2 a k X * cross k b = cross k X * area2 a k b + area2 k b X * cross a k := by
      simp [cross, area2]; ring
    by_contra hc
    nlinarith [mul_pos (neg_pos.2 (not_le.1 hc)) hkb, mul_nonneg h1 hakb.le, mul_nonneg h4 h]
  · have e := area_first a b k X
    by_contra hc
    nlinarith [mul_pos (neg_pos.2 (not_le.1 hc)) hD, mul_nonneg h2 hakb.le, mul_pos_of_neg_of_neg h3 h]

/-- Beyond a front side of the triangle is beyond the side through which the triangle was entered. -/
theorem beyond_first {a b k X : P2 ℝ} (hD : 0 < cross a b) (ht : 0 < area2 b a k) (hak : 0 < cross a k)
    (h1 : 0 ≤ cross a X) (h : area2 a k X < 0) : area2 a b X < 0 := by
  have e := area_first a b k X
  have hakb : 0 < area2 a k b := by rwa [area_rot] at ht
  by_contra hc
  nlinarith [mul_pos (neg_pos.2 h) hD, mul_nonneg h1 hakb.le, mul_nonneg (not_lt.1 hc) hak.le]

theorem beyond_second {a b k X : P2 ℝ} (hD : 0 < cross a b) (ht : 0 < area2 b a k) (hkb : 0 < cross k b)
    (h1 : 0 ≤ cross X b) (h : area2 k b X < 0) : area2 a b X < 0 := by
  have e := area_second a b k X
  have hkba : 0 < area2 k b a := by rwa [← area_rot] at ht
  by_contra hc
  nlinarith [mul_pos (neg_pos.2 h) hD, mul_nonneg h1 hkba.le, mul_nonneg (not_lt.1 hc) hkb.le]

theorem before_first {a b k X : P2 ℝ} (hD : 0 < cross a b) (ht : 0 < area2 b a k) (hak : 0 < cross a k)
    (h1 : 0 ≤ cross a X) (h : 0 ≤ area2 a b X) : 0 ≤ area2 a k X :=
  not_lt.1 fun hc => absurd (beyond_first hD ht hak h1 hc) (not_lt.2 h)

theorem before_second {a b k X : P2 ℝ} (hD : 0 < cross a b) (ht : 0 < area2 b a k) (hkb : 0 < cross k b)
    (h1 : 0 ≤ cross X b) (h : 0 ≤ area2 a b X) : 0 ≤ area2 k b X :=
  not_lt.1 fun hc => absurd (beyond_second hD ht hkb h1 hc) (not_lt.2 h)

/-- If `a`, `b`, `c`, `d` are in one half plane and ascending in pairs, so are the outer two. -/
theorem cross_trans {a b c d : P2 ℝ} (hac : 0 < cross a c) (hab : 0 ≤ cross a b) (hcd : 0 < cross c d)
    (had : 0 < cross a d) (hbc : 0 < cross b c) : 0 < cross b d := by
  have e := plucker a b c d
  by_contra hc
  nlinarith [mul_nonneg hac.le (neg_nonneg.2 (not_lt.1 hc)), mul_nonneg hab hcd.le, mul_pos had hbc]

theorem cross_trans' {a b c d : P2 ℝ} (hbd : 0 < cross b d) (hcd : 0 ≤ cross c d) (hab : 0 < cross a b)
    (had : 0 < cross a d) (hbc : 0 < cross b c) : 0 < cross a c := by
  have e := plucker a b c d
  by_contra hc
  nlinarith [mul_nonneg hbd.le (neg_nonneg.2 (not_lt.1 hc)), mul_nonneg hcd hab.le, mul_pos had hbc]

/-! ## The test of a vector -/

theorem strictly_between_iff {lo hi c : P2 ℝ} (h : 0 < cross lo hi) :
    isVectorBetween Cmp.direct lo hi c false = true ↔ 0 < cross lo c ∧ 0 < cross c hi := by
  unfold isVectorBetween
  simp only [Bool.and_eq_true, direct_equals, direct_ge, direct_gt]
  split_ifs with h1 h2 h3 h4
  · simp only [Bool.false_eq_true, false_iff, not_and, not_lt]; intro _; exact h1.1.le
  · simp only [Bool.false_eq_true, false_iff, not_and, not_lt]; intro h'; linarith [h2.1]
  · linarith [h3.1]
  · have hac : 0 ≤ cross lo c := by
      by_contra hc
      nlinarith [mul_pos (neg_pos.2 (not_le.1 hc)) h]
    rw [direct_gt]
    refine ⟨fun hcb => ⟨lt_of_le_of_ne hac fun h0 => h2 ⟨h0.symm, ?_⟩, hcb⟩, fun h => h.2⟩
    by_contra hd
    have e : dot lo c * cross lo hi - cross c hi * dot lo lo = cross lo c * dot lo hi := by simp [cross, dot]; ring
    have hn : 0 ≤ dot lo lo := by simp only [dot]; nlinarith [mul_self_nonneg lo.x, mul_self_nonneg lo.y]
    rw [← h0] at e
    nlinarith [mul_pos (neg_pos.2 (not_le.1 hd)) h, mul_nonneg hcb.le hn]
  · rw [direct_gt]
    have hac : cross lo c < 0 := by
      by_contra hc
      exact h4 (mul_nonneg (not_lt.1 hc) h.le)
    exact ⟨fun h' => by linarith, fun h' => by linarith [h'.1]⟩

theorem between_iff {lo hi c : P2 ℝ} (h : 0 < cross lo hi) :
    isVectorBetween Cmp.direct lo hi c true = true ↔ 0 ≤ cross lo c ∧ 0 ≤ cross c hi := by
  have e : dot lo c * cross lo hi - cross c hi * dot lo lo = cross lo c * dot lo hi := by simp [cross, dot]; ring
  have e' : dot hi c * cross lo hi - cross lo c * dot hi hi = cross c hi * dot lo hi := by
    simp [cross, dot]; ring
  have hn : 0 ≤ dot lo lo := by simp only [dot]; nlinarith [mul_self_nonneg lo.x, mul_self_nonneg lo.y]
  have hn' : 0 ≤ dot hi hi := by simp only [dot]; nlinarith [mul_self_nonneg hi.x, mul_self_nonneg hi.y]
  have hp : 0 < dot lo lo := by
    refine lt_of_le_of_ne hn fun h0 => ?_
    have hx : lo.x = 0 := by simp only [dot] at h0; nlinarith [mul_self_nonneg lo.x, mul_self_nonneg lo.y]
    have hy : lo.y = 0 := by simp only [dot] at h0; nlinarith [mul_self_nonneg lo.x, mul_self_nonneg lo.y]
    simp [cross, hx, hy] at h
  have hp' : 0 < dot hi hi := by
    refine lt_of_le_of_ne hn' fun h0 => ?_
    have hx : hi.x = 0 := by simp only [dot] at h0; nlinarith [mul_self_nonneg hi.x, mul_self_nonneg hi.y]
    have hy : hi.y = 0 := by simp only [dot] at h0; nlinarith [mul_self_nonneg hi.x, mul_self_nonneg hi.y]
    simp [cross, hx, hy] at h
  unfold isVectorBetween
  simp only [Bool.and_eq_true, direct_equals, direct_ge, direct_gt]
  split_ifs with h1 h2 h3 h4
  · simp only [true_iff]
    refine ⟨?_, h1.1.ge⟩
    rw [h1.1] at e'
    by_contra hc
    nlinarith [mul_nonneg h1.2 h.le, mul_pos (neg_pos.2 (not_le.1 hc)) hp']
  · simp only [true_iff]
    refine ⟨h2.1.ge, ?_⟩
    rw [h2.1] at e
    by_contra hc
    nlinarith [mul_nonneg h2.2 h.le, mul_pos (neg_pos.2 (not_le.1 hc)) hp]
  · linarith [h3.1]
  · have hac : 0 ≤ cross lo c := by
      by_contra hc
      nlinarith [mul_pos (neg_pos.2 (not_le.1 hc)) h]
    rw [direct_gt]
    refine ⟨fun hcb => ⟨hac, hcb.le⟩, fun h' => lt_of_le_of_ne h'.2 fun h0 => h1 ⟨h0.symm, ?_⟩⟩
    rw [← h0] at e'
    by_contra hd
    nlinarith [mul_pos (neg_pos.2 (not_le.1 hd)) h, mul_nonneg hac hn']
  · rw [direct_gt]
    have hac : cross lo c < 0 := by
      by_contra hc
      exact h4 (mul_nonneg (not_lt.1 hc) h.le)
    exact ⟨fun h' => by linarith, fun h' => by linarith [h'.1]⟩

end Geometrix
