import Verif.Lemmas.Vec
import Verif.Spec.Angle
import Mathlib.Analysis.SpecialFunctions.Complex.Arg

/-!
# Helper lemmas about angles
-/

namespace Geometrix

open Spec Real

theorem cross_turn (a : P2 ℝ) (α β : ℝ) :
    cross (turn α a) (turn β a) = sin (β - α) * normSq a := by
  simp only [cross, turn, normSq, dot, sin_sub]; ring

theorem dot_turn (a : P2 ℝ) (α β : ℝ) :
    dot (turn α a) (turn β a) = cos (β - α) * normSq a := by
  simp only [turn, normSq, dot, cos_sub]; ring

theorem turn_zero (a : P2 ℝ) : turn 0 a = a := by
  ext <;> simp [turn]

theorem cross_turn' (a : P2 ℝ) (β : ℝ) : cross a (turn β a) = sin β * normSq a := by
  have := cross_turn a 0 β
  rwa [turn_zero, sub_zero] at this

theorem dot_turn' (a : P2 ℝ) (β : ℝ) : dot a (turn β a) = cos β * normSq a := by
  have := dot_turn a 0 β
  rwa [turn_zero, sub_zero] at this

theorem dot_smul_right (r : ℝ) (a b : P2 ℝ) : dot a (r • b) = r * dot a b := by
  simp only [dot, P2.smul_x, P2.smul_y]; ring

theorem dot_smul_left (r : ℝ) (a b : P2 ℝ) : dot (r • a) b = r * dot a b := by
  simp only [dot, P2.smul_x, P2.smul_y]; ring

theorem sin_pos_iff_lt_pi {x : ℝ} (h0 : 0 < x) (h1 : x < 2 * π) : 0 < sin x ↔ x < π := by
  constructor
  · intro h
    by_contra hn
    push Not at hn
    have : sin (x - π) ≥ 0 := sin_nonneg_of_nonneg_of_le_pi (by linarith) (by linarith)
    rw [sin_sub_pi] at this
    linarith
  · intro h; exact sin_pos_of_pos_of_lt_pi h0 h

theorem sin_neg_iff_pi_lt {x : ℝ} (h0 : 0 < x) (h1 : x < 2 * π) : sin x < 0 ↔ π < x := by
  constructor
  · intro h
    by_contra hn
    push Not at hn
    have := sin_nonneg_of_nonneg_of_le_pi h0.le hn
    linarith
  · intro h
    have : 0 < sin (x - π) := sin_pos_of_pos_of_lt_pi (by linarith) (by linarith)
    rw [sin_sub_pi] at this
    linarith

theorem sin_pos_iff_pos {x : ℝ} (h0 : -π < x) (h1 : x < π) : 0 < sin x ↔ 0 < x := by
  constructor
  · intro h
    by_contra hn
    push Not at hn
    have := sin_nonpos_of_nonpos_of_neg_pi_le hn h0.le
    linarith
  · intro h; exact sin_pos_of_pos_of_lt_pi h h1

theorem aligned_iff {x : ℝ} (h0 : 0 ≤ x) (h1 : x < 2 * π) : (sin x = 0 ∧ 0 ≤ cos x) ↔ x = 0 := by
  constructor
  · rintro ⟨hs, hc⟩
    by_contra hn
    have hx : 0 < x := lt_of_le_of_ne h0 (Ne.symm hn)
    have h2 : x = π := by
      rcases lt_trichotomy x π with h | h | h
      · have := (sin_pos_iff_lt_pi hx h1).mpr h; linarith
      · exact h
      · have := (sin_neg_iff_pi_lt hx h1).mpr h; linarith
    rw [h2, cos_pi] at hc
    linarith
  · rintro rfl; simp

theorem aligned_iff' {x : ℝ} (h0 : -(2 * π) < x) (h1 : x < 2 * π) :
    (sin x = 0 ∧ 0 ≤ cos x) ↔ x = 0 := by
  rcases le_or_gt 0 x with h | h
  · exact aligned_iff h h1
  · have := aligned_iff (x := -x) (by linarith) (by linarith)
    rw [sin_neg, cos_neg, neg_eq_zero, neg_eq_zero] at this
    exact this

/-- Every non zero vector has a counter-clockwise angle from every non zero reference. -/
theorem exists_ccwAngle {a c : P2 ℝ} (ha : a ≠ 0) (hc : c ≠ 0) : ∃ θ, IsCcwAngle a c θ := by
  have hna := normSq_pos ha
  have hnc := normSq_pos hc
  -- the complex number c / a
  let z : ℂ := ⟨dot a c / normSq a, cross a c / normSq a⟩
  have hz : z ≠ 0 := by
    intro h
    have h1 : dot a c / normSq a = 0 := congrArg Complex.re h
    have h2 : cross a c / normSq a = 0 := congrArg Complex.im h
    have h3 : dot a c = 0 := by
      rcases div_eq_zero_iff.mp h1 with h | h
      · exact h
      · exact absurd h hna.ne'
    have h4 : cross a c = 0 := by
      rcases div_eq_zero_iff.mp h2 with h | h
      · exact h
      · exact absurd h hna.ne'
    have := lagrange a c
    rw [h3, h4] at this
    have : 0 < normSq a * normSq c := by positivity
    linarith
  have hr : 0 < ‖z‖ := norm_pos_iff.mpr hz
  have hre : ‖z‖ * cos (Complex.arg z) = dot a c / normSq a := by
    rw [Complex.norm_mul_cos_arg]
  have him : ‖z‖ * sin (Complex.arg z) = cross a c / normSq a := by
    rw [Complex.norm_mul_sin_arg]
  have key : ∀ θ, cos θ = cos (Complex.arg z) → sin θ = sin (Complex.arg z) →
      c = ‖z‖ • turn θ a := by
    intro θ h1 h2
    have e1 : (‖z‖ * cos θ) * normSq a = dot a c := by
      rw [h1, hre]; field_simp
    have e2 : (‖z‖ * sin θ) * normSq a = cross a c := by
      rw [h2, him]; field_simp
    have hn := hna.ne'
    ext
    · simp only [P2.smul_x, turn]
      apply mul_right_cancel₀ hn
      have : c.x * normSq a = dot a c * a.x - cross a c * a.y := by
        simp only [dot, cross, normSq]; ring
      rw [this, ← e1, ← e2]; ring
    · simp only [P2.smul_y, turn]
      apply mul_right_cancel₀ hn
      have : c.y * normSq a = dot a c * a.y + cross a c * a.x := by
        simp only [dot, cross, normSq]; ring
      rw [this, ← e1, ← e2]; ring
  have hb := Complex.neg_pi_lt_arg z
  have hb' := Complex.arg_le_pi z
  rcases le_or_gt 0 (Complex.arg z) with h | h
  · exact ⟨Complex.arg z, h, by linarith [pi_pos], ‖z‖, hr, key _ rfl rfl⟩
  · refine ⟨Complex.arg z + 2 * π, by linarith, by linarith, ‖z‖, hr, key _ ?_ ?_⟩
    · exact cos_add_two_pi _
    · exact sin_add_two_pi _

theorem IsCcwAngle.ne_zero {a c : P2 ℝ} {θ : ℝ} (ha : a ≠ 0) (h : IsCcwAngle a c θ) : c ≠ 0 := by
  obtain ⟨_, _, r, hr, rfl⟩ := h
  intro h0
  have h1 : normSq (r • turn θ a) = r ^ 2 * normSq a := by
    simp only [normSq, dot, turn, P2.smul_x, P2.smul_y]
    linear_combination (r ^ 2 * (a.x ^ 2 + a.y ^ 2)) * sin_sq_add_cos_sq θ
  rw [h0] at h1
  have := normSq_pos ha
  have h2 : normSq (0 : P2 ℝ) = 0 := by simp [normSq, dot]
  rw [h2] at h1
  have : 0 < r ^ 2 * normSq a := by positivity
  linarith

theorem pointAngleCompare_eq (o a b : P2 ℝ) :
    pointAngleCompare Cmp.direct o a b =
      vectorAngleCompare Cmp.direct ⟨1, 0⟩ (a - o) (b - o) := rfl

theorem ref_ne : (⟨1, 0⟩ : P2 ℝ) ≠ 0 := by
  intro h; have := congrArg P2.x h; simp at this

theorem turn_add (α β : ℝ) (a : P2 ℝ) : turn (α + β) a = turn α (turn β a) := by
  ext <;> simp only [turn, sin_add, cos_add] <;> ring

end Geometrix
