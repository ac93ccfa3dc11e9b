import Verif.Lemmas.AngleNormalize

/-!
# C48: normalisation of angles
-/

namespace Geometrix

open Real

/-- `normalize_angle_0_2pi`: the result is in `[0, 2π]`, differs from the argument by whole turns, and stays
the same when normalised again. -/
theorem C48_0_2pi (a : ℝ) : 0 ≤ normalizeAngle02pi a ∧ normalizeAngle02pi a ≤ 2 * π ∧
    (∃ k : ℤ, normalizeAngle02pi a = a + k * (2 * π)) ∧
    normalizeAngle02pi (normalizeAngle02pi a) = normalizeAngle02pi a := by
  obtain ⟨e, h0, h1⟩ := dropTurns_spec a
  have hid : ∀ x, 0 ≤ x → x ≤ 2 * π → normalizeAngle02pi x = x := by
    intro x hx0 hx1
    unfold normalizeAngle02pi
    rw [if_neg (by push Not; exact ⟨hx1, hx0⟩)]
  rcases normalizeAngle02pi_eq a with ⟨ha0, ha1, h⟩ | ⟨-, h⟩
  · rw [h]; exact ⟨ha0, ha1, ⟨0, by simp⟩, h⟩
  · rw [h]
    exact ⟨h0, h1.le, ⟨-⌊a / (2 * π)⌋, by rw [e]; push_cast; ring⟩, hid _ h0 h1.le⟩

/-- An angle of minus a quarter turn becomes three quarters of a turn. -/
example : ∃ k : ℤ, 3 * π / 2 = -(π / 2) + k * (2 * π) := ⟨1, by push_cast; ring⟩

/-- The two ends of the interval stand for the same angle: a full turn stays a full turn, every other multiple
becomes zero; all other angles have exactly one value. -/
theorem C48_0_2pi_ends (a : ℝ) : (normalizeAngle02pi a = 2 * π ↔ a = 2 * π) ∧
    (a ≠ 2 * π → ∀ k : ℤ, a + k * (2 * π) ≠ 2 * π → normalizeAngle02pi (a + k * (2 * π)) = normalizeAngle02pi a) := by
  have hp : 0 < 2 * π := by positivity
  have hlt : ∀ x, x ≠ 2 * π → normalizeAngle02pi x < 2 * π := by
    intro x hx
    rcases normalizeAngle02pi_eq x with ⟨-, h1, h⟩ | ⟨-, h⟩
    · rw [h]; exact lt_of_le_of_ne h1 hx
    · rw [h]; exact (dropTurns_spec x).2.2
  constructor
  · constructor
    · intro h
      by_contra hne
      exact (hlt a hne).ne h
    · rintro rfl
      unfold normalizeAngle02pi
      rw [if_neg (by push Not; exact ⟨le_refl _, hp.le⟩)]
  · intro ha k hk
    obtain ⟨p0, -, ⟨m, hm⟩, -⟩ := C48_0_2pi a
    obtain ⟨q0, -, ⟨n, hn⟩, -⟩ := C48_0_2pi (a + k * (2 * π))
    have p1 := hlt a ha
    have q1 := hlt _ hk
    refine eq_of_whole_turns (k := m - k - n) hp ?_ ?_
    · rw [hm, hn]; push_cast; ring
    · rw [abs_lt]; constructor <;> linarith

example : (π : ℝ) ≠ 2 * π := by have := pi_pos; intro h; linarith

/-- `normalize_angle_minus_pi_to_pi`: the result is in `(-π, π]`, differs from the argument by whole turns,
stays the same when normalised again, and is the same for angles that differ by whole turns. -/
theorem C48_minus_pi_to_pi (a : ℝ) : -π < normalizeAnglePi a ∧ normalizeAnglePi a ≤ π ∧
    (∃ k : ℤ, normalizeAnglePi a = a + k * (2 * π)) ∧
    normalizeAnglePi (normalizeAnglePi a) = normalizeAnglePi a ∧
    ∀ k : ℤ, normalizeAnglePi (a + k * (2 * π)) = normalizeAnglePi a := by
  have hpi := pi_pos
  have hp : 0 < 2 * π := by positivity
  have main : ∀ x, -π < normalizeAnglePi x ∧ normalizeAnglePi x ≤ π ∧
      ∃ k : ℤ, normalizeAnglePi x = x + k * (2 * π) := by
    intro x
    obtain ⟨h0, h1, ⟨k, hk⟩, -⟩ := C48_0_2pi x
    unfold normalizeAnglePi
    simp only
    split_ifs with c1 c2
    · exact ⟨by linarith, by linarith, k - 1, by rw [hk]; push_cast; ring⟩
    · exact absurd h0 (by linarith)
    · exact ⟨by linarith, by linarith, k, hk⟩
  have huniq : ∀ x y, (∃ k : ℤ, y = x + k * (2 * π)) → normalizeAnglePi y = normalizeAnglePi x := by
    rintro x y ⟨k, hk⟩
    obtain ⟨p0, p1, m, hm⟩ := main x
    obtain ⟨q0, q1, n, hn⟩ := main y
    refine eq_of_whole_turns (k := m - k - n) hp ?_ ?_
    · rw [hm, hn, hk]; push_cast; ring
    · rw [abs_lt]; constructor <;> linarith
  obtain ⟨h0, h1, h2⟩ := main a
  exact ⟨h0, h1, h2, huniq _ _ h2, fun k => huniq _ _ ⟨k, rfl⟩⟩

example : ∃ k : ℤ, π = -π + k * (2 * π) := ⟨1, by push_cast; ring⟩

end Geometrix
