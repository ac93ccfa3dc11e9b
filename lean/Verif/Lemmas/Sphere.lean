import Verif.Spec.Sphere
import Verif.Lemmas.Policy
import Verif.Lemmas.Distance

/-!
# Lemmas on circles
-/

set_option linter.unusedSectionVars false

namespace Geometrix

open Spec

theorem csqrt_ok {x : ℝ} (h : 0 ≤ x) : csqrt x = .ok (Real.sqrt x) := by
  unfold csqrt; rw [if_neg (not_lt.mpr h)]

/-- The two common points of two circles, relative to the first centre. -/
theorem circle_core {v w : P2 ℝ} {d dinv rA rB a h : ℝ} (hd : 0 < d)
    (hdd : d * d = v.x * v.x + v.y * v.y) (hinv : d * dinv = 1)
    (ha : 2 * a * d = rA * rA - rB * rB + d * d) (hh : h * h = rA * rA - a * a) :
    (w.x ^ 2 + w.y ^ 2 = rA ^ 2 ∧ (w.x - v.x) ^ 2 + (w.y - v.y) ^ 2 = rB ^ 2) ↔
      (w.x = a * dinv * v.x + h * dinv * v.y ∧ w.y = a * dinv * v.y - h * dinv * v.x) ∨
      (w.x = a * dinv * v.x - h * dinv * v.y ∧ w.y = a * dinv * v.y + h * dinv * v.x) := by
  have hd2 : d * d ≠ 0 := (mul_pos hd hd).ne'
  constructor
  · rintro ⟨h1, h2⟩
    have hdot : w.x * v.x + w.y * v.y = a * d := by linear_combination (h1 - h2 - hdd - ha) / 2
    have hc : (v.x * w.y - v.y * w.x) ^ 2 = (d * h) ^ 2 := by
      have e : (v.x * w.y - v.y * w.x) ^ 2 + (w.x * v.x + w.y * v.y) ^ 2 =
        (v.x * v.x + v.y * v.y) * (w.x ^ 2 + w.y ^ 2) := by ring
      rw [hdot, ← hdd, h1] at e
      linear_combination e - d * d * hh
    have ex : d * d * w.x = (a * d) * v.x - (v.x * w.y - v.y * w.x) * v.y := by
      rw [hdd, ← hdot]; ring
    have ey : d * d * w.y = (a * d) * v.y + (v.x * w.y - v.y * w.x) * v.x := by
      rw [hdd, ← hdot]; ring
    rcases sq_eq_sq_iff_eq_or_eq_neg.mp hc with hc | hc
    · right
      rw [hc] at ex ey
      constructor
      · apply mul_left_cancel₀ hd2
        linear_combination ex - d * (a * v.x - h * v.y) * hinv
      · apply mul_left_cancel₀ hd2
        linear_combination ey - d * (a * v.y + h * v.x) * hinv
    · left
      rw [hc] at ex ey
      constructor
      · apply mul_left_cancel₀ hd2
        linear_combination ex - d * (a * v.x + h * v.y) * hinv
      · apply mul_left_cancel₀ hd2
        linear_combination ey - d * (a * v.y - h * v.x) * hinv
  · have hq : dinv * dinv * (v.x * v.x + v.y * v.y) = 1 := by
      rw [← hdd]; linear_combination (d * dinv + 1) * hinv
    have hq1 : dinv * (v.x * v.x + v.y * v.y) = d := by
      rw [← hdd]; linear_combination d * hinv
    rintro (⟨e1, e2⟩ | ⟨e1, e2⟩)
    · rw [e1, e2]
      constructor
      · linear_combination (a * a + h * h) * hq + hh
      · linear_combination (a * a + h * h) * hq + hh - 2 * a * hq1 - hdd - ha
    · rw [e1, e2]
      constructor
      · linear_combination (a * a + h * h) * hq + hh
      · linear_combination (a * a + h * h) * hq + hh - 2 * a * hq1 - hdd - ha

theorem sq_dist (a b : P2 ℝ) : Real.sqrt (distSq a b) * Real.sqrt (distSq a b) =
    (b.x - a.x) * (b.x - a.x) + (b.y - a.y) * (b.y - a.y) := by
  rw [Real.mul_self_sqrt]
  · simp [distSq, normSq, dot]
  · simp only [distSq, normSq, dot]; nlinarith [mul_self_nonneg (b - a).x, mul_self_nonneg (b - a).y]

/-- The triangle inequality as it is needed here. -/
theorem disc_triangle {v w : P2 ℝ} {d r s : ℝ} (hd : 0 ≤ d) (hdd : d * d = v.x * v.x + v.y * v.y)
    (hr : 0 ≤ r) (hs : d + r ≤ s) (hw : (w.x - v.x) ^ 2 + (w.y - v.y) ^ 2 ≤ r ^ 2) :
    w.x ^ 2 + w.y ^ 2 ≤ s ^ 2 := by
  have hcs : (w.x - v.x) * v.x + (w.y - v.y) * v.y ≤ d * r := by
    apply le_of_sq_le_sq _ (mul_nonneg hd hr)
    nlinarith [sq_nonneg ((w.x - v.x) * v.y - (w.y - v.y) * v.x), mul_self_nonneg v.x,
      mul_self_nonneg v.y, mul_le_mul_of_nonneg_left hw (mul_self_nonneg d)]
  nlinarith

/-- The quantities the routine computes when the circles meet and their centres differ. -/
theorem circle_quantities {d rA rB : ℝ} (hd : 0 < d) (h1 : d ≤ rA + rB) (h2 : |rA - rB| ≤ d) :
    0 ≤ rA * rA - (rA * rA - rB * rB + d * d) / (2 * d) *
      ((rA * rA - rB * rB + d * d) / (2 * d)) := by
  have hA := abs_le.mp h2
  have k : rA * rA - (rA * rA - rB * rB + d * d) / (2 * d) *
      ((rA * rA - rB * rB + d * d) / (2 * d)) =
      ((rA + rB - d) * (rA + rB + d) * ((d - (rA - rB)) * (d + (rA - rB)))) / (4 * (d * d)) := by
    field_simp
    ring
  rw [k]
  apply div_nonneg
  · exact mul_nonneg (mul_nonneg (by linarith) (by linarith))
      (mul_nonneg (by linarith) (by linarith))
  · positivity

theorem onCircle_self_right {c : P2 ℝ} {r : ℝ} : OnCircle c r ⟨c.x + r, c.y⟩ := by
  simp [OnCircle]

theorem inDisc_center {c : P2 ℝ} {r : ℝ} : InDisc c r c := by
  simp only [InDisc, sub_self]; nlinarith [sq_nonneg r]

theorem onCircle_inDisc {c P : P2 ℝ} {r : ℝ} (h : OnCircle c r P) : InDisc c r P := le_of_eq h

/-- Discs whose centres are not farther apart than the sum of the radii share a point. -/
theorem discs_meet {cA cB : P2 ℝ} {rA rB : ℝ} (hA : 0 ≤ rA) (hB : 0 ≤ rB)
    (h : Real.sqrt (distSq cA cB) ≤ rA + rB) : ∃ P, InDisc cA rA P ∧ InDisc cB rB P := by
  have hd := Real.sqrt_nonneg (distSq cA cB)
  have hdd := sq_dist cA cB
  set d := Real.sqrt (distSq cA cB)
  rcases eq_or_lt_of_le (add_nonneg hA hB) with h0 | h0
  · have hd0 : d = 0 := by linarith
    rw [hd0] at hdd
    refine ⟨cA, inDisc_center, ?_⟩
    unfold InDisc
    nlinarith [sq_nonneg rB]
  · have hs0 : 0 ≤ rA / (rA + rB) := by positivity
    have hs1 : (1 - rA / (rA + rB)) = rB / (rA + rB) := by field_simp; ring
    have hs2 : 0 ≤ rB / (rA + rB) := by positivity
    refine ⟨⟨cA.x + rA / (rA + rB) * (cB.x - cA.x), cA.y + rA / (rA + rB) * (cB.y - cA.y)⟩, ?_, ?_⟩
    · unfold InDisc
      have : rA / (rA + rB) * d ≤ rA := by
        rw [div_mul_eq_mul_div, div_le_iff₀ h0]; nlinarith
      have h2 := mul_self_le_mul_self (mul_nonneg hs0 hd) this
      have : (rA / (rA + rB) * d) * (rA / (rA + rB) * d) = (rA / (rA + rB)) ^ 2 *
        ((cB.x - cA.x) * (cB.x - cA.x) + (cB.y - cA.y) * (cB.y - cA.y)) := by
        rw [← hdd]; ring
      simp only
      nlinarith
    · unfold InDisc
      have : rB / (rA + rB) * d ≤ rB := by
        rw [div_mul_eq_mul_div, div_le_iff₀ h0]; nlinarith
      have h2 := mul_self_le_mul_self (mul_nonneg hs2 hd) this
      have e : (rB / (rA + rB) * d) * (rB / (rA + rB) * d) = (rB / (rA + rB)) ^ 2 *
        ((cB.x - cA.x) * (cB.x - cA.x) + (cB.y - cA.y) * (cB.y - cA.y)) := by
        rw [← hdd]; ring
      have e2 : (cA.x + rA / (rA + rB) * (cB.x - cA.x) - cB.x) ^ 2 +
          (cA.y + rA / (rA + rB) * (cB.y - cA.y) - cB.y) ^ 2 =
          (1 - rA / (rA + rB)) ^ 2 *
        ((cB.x - cA.x) * (cB.x - cA.x) + (cB.y - cA.y) * (cB.y - cA.y)) := by ring
      rw [e2, hs1]
      nlinarith

/-- Discs that share a point have centres not farther apart than the sum of the radii. -/
theorem dist_le_of_discs {cA cB P : P2 ℝ} {rA rB : ℝ} (hA : 0 ≤ rA) (hB : 0 ≤ rB)
    (h1 : InDisc cA rA P) (h2 : InDisc cB rB P) : Real.sqrt (distSq cA cB) ≤ rA + rB := by
  have hdd := sq_dist cA cB
  have hd := Real.sqrt_nonneg (distSq cA cB)
  set d := Real.sqrt (distSq cA cB)
  have e : Real.sqrt (distSq cA P) ≤ rA := by
    apply Real.sqrt_le_iff.mpr ⟨hA, ?_⟩
    simpa [distSq, normSq, dot, InDisc, sq] using h1
  have q := sq_dist cA P
  have q0 := Real.sqrt_nonneg (distSq cA P)
  have := disc_triangle (v := P - cA) (w := cB - cA) (r := rB) (s := rA + rB) q0
    (by simpa using q) hB (by linarith) (by
      unfold InDisc at h2; simp only [P2.sub_x, P2.sub_y]; nlinarith)
  simp only [P2.sub_x, P2.sub_y] at this
  apply abs_le_of_sq_le_sq' _ (by linarith) |>.2
  nlinarith

theorem disc_inside {cA cB : P2 ℝ} {rA rB : ℝ} (hB : 0 ≤ rB)
    (h : Real.sqrt (distSq cA cB) + rB < rA) :
    (∀ P, InDisc cB rB P → InDisc cA rA P) ∧ ¬ ∃ P, OnCircle cA rA P ∧ OnCircle cB rB P := by
  have hdd := sq_dist cA cB
  have hd := Real.sqrt_nonneg (distSq cA cB)
  set d := Real.sqrt (distSq cA cB)
  have key : ∀ P s, d + rB ≤ s → InDisc cB rB P → (P.x - cA.x) ^ 2 + (P.y - cA.y) ^ 2 ≤ s ^ 2 := by
    intro P s hs hP
    refine disc_triangle (v := cB - cA) (w := P - cA) (r := rB) (s := s) hd (by simpa using hdd) hB
      hs ?_
    unfold InDisc at hP
    simp only [P2.sub_x, P2.sub_y]
    nlinarith
  constructor
  · intro P hP
    exact key P rA h.le hP
  · rintro ⟨P, h1, h2⟩
    have := key P (d + rB) le_rfl (onCircle_inDisc h2)
    unfold OnCircle at h1
    rw [h1] at this
    nlinarith

theorem distSq_comm (a b : P2 ℝ) : distSq a b = distSq b a := by
  simp only [distSq, normSq, dot, P2.sub_x, P2.sub_y]; ring

end Geometrix
