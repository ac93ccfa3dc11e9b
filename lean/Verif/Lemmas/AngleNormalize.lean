import Verif.Model.AngleNormalize

/-!
# Lemmas on the normalisation of angles
-/

namespace Geometrix

open Real

theorem dropTurns_spec (a : ℝ) : dropTurns a = a - ⌊a / (2 * π)⌋ * (2 * π) ∧ 0 ≤ dropTurns a ∧ dropTurns a < 2 * π := by
  have hp : 0 < 2 * π := by positivity
  have e : dropTurns a = a - ⌊a / (2 * π)⌋ * (2 * π) := by
    unfold dropTurns
    simp only
    split_ifs with h
    · ring
    · have : ⌊a / (2 * π)⌋ = 0 := not_not.1 h
      rw [this]; simp
  refine ⟨e, ?_, ?_⟩
  · rw [e]
    have := Int.floor_le (a / (2 * π))
    have := (le_div_iff₀ hp).1 this
    linarith
  · rw [e]
    have := Int.lt_floor_add_one (a / (2 * π))
    have := (div_lt_iff₀ hp).1 this
    linarith

/-- Inside the interval nothing changes, outside whole turns are subtracted. -/
theorem normalizeAngle02pi_eq (a : ℝ) :
    (0 ≤ a ∧ a ≤ 2 * π ∧ normalizeAngle02pi a = a) ∨
    ((a > 2 * π ∨ a < 0) ∧ normalizeAngle02pi a = dropTurns a) := by
  unfold normalizeAngle02pi
  by_cases h : a > 2 * π ∨ a < 0
  · right
    refine ⟨h, ?_⟩
    obtain ⟨-, h0, h1⟩ := dropTurns_spec a
    rw [if_pos h]
    simp only
    rw [if_neg (by linarith), if_neg (by linarith)]
  · left
    rw [if_neg h]
    push Not at h
    exact ⟨h.2, h.1, rfl⟩

/-- Two numbers of a half open interval of length `p` that differ by a multiple of `p` are equal. -/
theorem eq_of_whole_turns {x y p : ℝ} {k : ℤ} (hp : 0 < p) (h : y = x + k * p) (h1 : |x - y| < p) : x = y := by
  have hk : k = 0 := by
    by_contra hk
    have : (1 : ℝ) ≤ |(k : ℝ)| := by
      have := Int.one_le_abs hk
      exact_mod_cast this
    have e : x - y = -(k * p) := by rw [h]; ring
    rw [e, abs_neg, abs_mul, abs_of_pos hp] at h1
    nlinarith
  rw [h, hk]; simp

end Geometrix
