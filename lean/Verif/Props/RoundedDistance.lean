import Verif.Lemmas.Rounded

/-!
# C114: products and squared distances with rounding
-/

set_option linter.unusedSectionVars false

namespace Geometrix

open Spec

variable {K : Type*} [Field K] [LinearOrder K] [IsStrictOrderedRing K]

/-- C114: the squared distance is not negative, and it does not depend on the order of the points. -/
theorem C114_symmetric {u : K} {fl : K → K} (h : RoundsWithin u fl) (a b : P2 K) :
    0 ≤ distSqR fl a b ∧ distSqR fl a b = distSqR fl b a := by
  have h0 : ∀ x, 0 ≤ x → 0 ≤ fl x := by
    intro x hx
    rw [← h.zero]
    exact h.mono hx
  refine ⟨h0 _ (add_nonneg (h0 _ (mul_self_nonneg _)) (h0 _ (mul_self_nonneg _))), ?_⟩
  unfold distSqR
  rw [← neg_sub a.x b.x, ← neg_sub a.y b.y, h.odd, h.odd, neg_mul_neg, neg_mul_neg]

/-- C114: the relative error of the squared distance is at most that of four operations. -/
theorem C114_error {u : K} {fl : K → K} (h : RoundsWithin u fl) (a b : P2 K) :
    |distSqR fl a b - sqDist a b| ≤ ((1 + u) ^ 4 - 1) * sqDist a b := by
  have h1 := rel_product h (b.x - a.x) (b.x - a.x)
  have h2 := rel_product h (b.y - a.y) (b.y - a.y)
  have e : sqDist a b = (b.x - a.x) * (b.x - a.x) + (b.y - a.y) * (b.y - a.y) := by
    unfold sqDist; ring
  have p1 := mul_self_nonneg (b.x - a.x)
  have p2 := mul_self_nonneg (b.y - a.y)
  have h3 : Rel ((1 + u) ^ 3 - 1) (sqDist a b)
      (fl (fl (b.x - a.x) * fl (b.x - a.x)) + fl (fl (b.y - a.y) * fl (b.y - a.y))) := by
    unfold Rel at *
    rw [e, abs_of_nonneg (add_nonneg p1 p2)]
    rw [abs_of_nonneg p1, abs_le] at h1
    rw [abs_of_nonneg p2, abs_le] at h2
    rw [abs_le]
    constructor <;> linarith [h1.1, h1.2, h2.1, h2.2]
  have h4 := h3.fl h
  unfold Rel at h4
  rw [abs_of_nonneg (by rw [e]; exact add_nonneg p1 p2 : 0 ≤ sqDist a b)] at h4
  have e4 : (1 + ((1 + u) ^ 3 - 1)) * (1 + u) - 1 = (1 + u) ^ 4 - 1 := by ring
  rw [e4] at h4
  exact h4

/-- C114: the squared distance is zero exactly if the points are equal, provided that the numbers are rounded well enough.
(There is no underflow in the model.) -/
theorem C114_zero {u : K} {fl : K → K} (h : RoundsWithin u fl) (hu : (1 + u) ^ 4 < 2) (a b : P2 K) :
    distSqR fl a b = 0 ↔ a = b := by
  have he := C114_error h a b
  constructor
  · intro h0
    rw [h0, zero_sub, abs_neg] at he
    have h1 : 0 ≤ sqDist a b := by unfold sqDist; positivity
    rw [abs_of_nonneg h1] at he
    have h2 : sqDist a b = 0 := by nlinarith
    unfold sqDist at h2
    have hx : (a.x - b.x) ^ 2 = 0 := by nlinarith [sq_nonneg (a.x - b.x), sq_nonneg (a.y - b.y)]
    have hy : (a.y - b.y) ^ 2 = 0 := by nlinarith [sq_nonneg (a.x - b.x), sq_nonneg (a.y - b.y)]
    ext
    · exact sub_eq_zero.1 (pow_eq_zero_iff (by norm_num) |>.1 hx)
    · exact sub_eq_zero.1 (pow_eq_zero_iff (by norm_num) |>.1 hy)
  · rintro rfl
    simp [distSqR, h.zero]

example : (1 + 1 / 2 ^ 53 : ℚ) ^ 4 < 2 := by norm_num

/-- C114: two distances that differ by a margin are compared correctly. -/
theorem C114_compare {u : K} {fl : K → K} (h : RoundsWithin u fl) (p a b : P2 K)
    (hab : (1 + u) ^ 4 * sqDist p a < (2 - (1 + u) ^ 4) * sqDist p b) : distSqR fl p a < distSqR fl p b := by
  have h1 := C114_error h p a
  have h2 := C114_error h p b
  rw [abs_le] at h1 h2
  linarith [h1.2, h2.1]

example : (1 + 1 / 2 ^ 53 : ℚ) ^ 4 * sqDist (⟨0, 0⟩ : P2 ℚ) ⟨3, 4⟩ <
    (2 - (1 + 1 / 2 ^ 53) ^ 4) * sqDist (⟨0, 0⟩ : P2 ℚ) ⟨3, 5⟩ := by
  norm_num [sqDist]

/-- C114: the dot product is near the exact one, relative to the absolute values of its terms, and it is symmetric. -/
theorem C114_dot {u : K} {fl : K → K} (h : RoundsWithin u fl) (v w : P2 K) :
    |dotR fl v w - (v.x * w.x + v.y * w.y)| ≤ ((1 + u) ^ 2 - 1) * (|v.x * w.x| + |v.y * w.y|) ∧
      dotR fl v w = dotR fl w v := by
  refine ⟨?_, by unfold dotR; rw [mul_comm v.x, mul_comm v.y]⟩
  have hu := h.u_nonneg
  have h1 := h.near (v.x * w.x)
  have h2 := h.near (v.y * w.y)
  unfold dotR
  generalize v.x * w.x = p at *
  generalize v.y * w.y = q at *
  have h3 := h.near (fl p + fl q)
  have h4 : |fl p + fl q| ≤ (1 + u) * (|p| + |q|) := by
    have a1 := abs_add_le (fl p) (fl q)
    have a2 := abs_add_le (fl p - p) p
    have a3 := abs_add_le (fl q - q) q
    rw [sub_add_cancel] at a2 a3
    linarith
  have h5 := mul_le_mul_of_nonneg_left h4 hu
  have e : fl (fl p + fl q) - (p + q) = (fl (fl p + fl q) - (fl p + fl q)) + ((fl p - p) + (fl q - q)) := by ring
  rw [e]
  calc _ ≤ |fl (fl p + fl q) - (fl p + fl q)| + (|fl p - p| + |fl q - q|) :=
        le_trans (abs_add_le _ _) (by gcongr; exact abs_add_le _ _)
    _ ≤ u * ((1 + u) * (|p| + |q|)) + (u * |p| + u * |q|) := by linarith
    _ = _ := by ring

/-- C114: the bound for the dot product is not relative to its value. With the numbers of the type `double` the sign of a dot product can be lost: it is zero for two vectors
that are not orthogonal. -/
theorem C114_cancellation :
    let v : P2 ℚ := ⟨1 + 1 / 2 ^ 52, 1⟩
    let w : P2 ℚ := ⟨1 - 1 / 2 ^ 52, -1⟩
    roundBits 53 v.x = v.x ∧ roundBits 53 w.x = w.x ∧ v.x * w.x + v.y * w.y ≠ 0 ∧ dotR (roundBits 53) v w = 0 := by
  decide +kernel

end Geometrix
