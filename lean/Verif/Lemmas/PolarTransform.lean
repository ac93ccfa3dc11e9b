import Verif.Model.PolarTransform
import Mathlib.Algebra.BigOperators.Intervals
import Mathlib.Algebra.Order.BigOperators.Group.Finset

/-!
# Lemmas about the transformations between Cartesian and polar coordinates
-/

namespace Geometrix

open Finset

theorem setAt_same (st : ℕ → ℝ) (i : ℕ) (v : ℝ) : setAt st i v i = v := by simp [setAt]

theorem setAt_ne (st : ℕ → ℝ) {i j : ℕ} (v : ℝ) (h : j ≠ i) : setAt st i v j = st j := by simp [setAt, h]

/-- What the loop leaves in the array. -/
theorem cartPolarTerm_spec (x : ℕ → ℝ) (k : ℕ) : ∀ (i : ℕ) (state : ℕ → ℝ), 2 ≤ i →
    cartPolarTerm x k i (∑ j ∈ range i, x j ^ 2) state 0 = Real.sqrt (∑ j ∈ range (i + k), x j ^ 2) ∧
    (∀ j, 1 ≤ j → j < i → cartPolarTerm x k i (∑ j ∈ range i, x j ^ 2) state j = state j) ∧
    ∀ j, i ≤ j → j < i + k → cartPolarTerm x k i (∑ j ∈ range i, x j ^ 2) state j =
      atan2 (Real.sqrt (∑ l ∈ range j, x l ^ 2)) (x j) := by
  induction k with
  | zero =>
    intro i state hi
    refine ⟨by rw [cartPolarTerm, setAt_same]; rfl, fun j h1 h2 => ?_, fun j h1 h2 => by omega⟩
    rw [cartPolarTerm, setAt_ne _ _ (by omega)]
  | succ k ih =>
    intro i state hi
    have hs : ∑ j ∈ range i, x j ^ 2 + x i * x i = ∑ j ∈ range (i + 1), x j ^ 2 := by
      rw [sum_range_succ]; ring
    obtain ⟨h1, h2, h3⟩ := ih (i + 1) (setAt state i (atan2 (Real.sqrt (∑ j ∈ range i, x j ^ 2)) (x i))) (by omega)
    have he : i + 1 + k = i + (k + 1) := by omega
    rw [he] at h1 h3
    refine ⟨by rw [cartPolarTerm, hs, h1], fun j hj1 hj2 => ?_, fun j hj1 hj2 => ?_⟩
    · rw [cartPolarTerm, hs, h2 j hj1 (by omega), setAt_ne _ _ (by omega)]
    · rw [cartPolarTerm, hs]
      rcases hj1.eq_or_lt with rfl | hlt
      · rw [h2 i (by omega) (by omega), setAt_same]
      · exact h3 j hlt hj2

theorem cartPolar_zero (n : ℕ) (x st : ℕ → ℝ) : cartPolar n x st 0 = Real.sqrt (∑ j ∈ range (n + 2), x j ^ 2) := by
  have hs : 0 + x 0 * x 0 + x 1 * x 1 = ∑ j ∈ range 2, x j ^ 2 := by
    rw [sum_range_succ, sum_range_one]; ring
  rw [cartPolar, hs, (cartPolarTerm_spec x n 2 _ (le_refl _)).1, add_comm]

theorem cartPolar_one (n : ℕ) (x st : ℕ → ℝ) : cartPolar n x st 1 = atan2 (x 1) (x 0) := by
  have hs : 0 + x 0 * x 0 + x 1 * x 1 = ∑ j ∈ range 2, x j ^ 2 := by
    rw [sum_range_succ, sum_range_one]; ring
  rw [cartPolar, hs, (cartPolarTerm_spec x n 2 _ (le_refl _)).2.1 1 (le_refl _) (by omega), setAt_same]

theorem cartPolar_ge (n : ℕ) (x st : ℕ → ℝ) {i : ℕ} (h1 : 2 ≤ i) (h2 : i < n + 2) :
    cartPolar n x st i = atan2 (Real.sqrt (∑ l ∈ range i, x l ^ 2)) (x i) := by
  have hs : 0 + x 0 * x 0 + x 1 * x 1 = ∑ j ∈ range 2, x j ^ 2 := by
    rw [sum_range_succ, sum_range_one]; ring
  rw [cartPolar, hs, (cartPolarTerm_spec x n 2 _ (le_refl _)).2.2 i h1 (by omega)]

/-- The standard formula. -/
theorem polarCartTerm_spec (p : ℕ → ℝ) (k : ℕ) : ∀ (s : ℝ) (st : ℕ → ℝ),
    polarCartTerm p k s st 0 = s * (∏ j ∈ Ico 2 (k + 2), Real.sin (p j)) * Real.cos (p 1) ∧
    polarCartTerm p k s st 1 = s * (∏ j ∈ Ico 2 (k + 2), Real.sin (p j)) * Real.sin (p 1) ∧
    ∀ i, 2 ≤ i → i < k + 2 →
      polarCartTerm p k s st i = s * (∏ j ∈ Ico (i + 1) (k + 2), Real.sin (p j)) * Real.cos (p i) := by
  induction k with
  | zero =>
    intro s st
    refine ⟨?_, ?_, fun i h1 h2 => by omega⟩
    · rw [polarCartTerm, setAt_same]; simp
    · rw [polarCartTerm, setAt_ne _ _ (by omega), setAt_same]; simp
  | succ k ih =>
    intro s st
    obtain ⟨h0, h1, h2⟩ := ih (s * Real.sin (p (k + 2))) st
    have hp : ∀ i, i ≤ k + 2 → ∏ j ∈ Ico i (k + 1 + 2), Real.sin (p j) =
        (∏ j ∈ Ico i (k + 2), Real.sin (p j)) * Real.sin (p (k + 2)) := by
      intro i hi
      rw [show k + 1 + 2 = (k + 2) + 1 by omega, prod_Ico_succ_top hi]
    refine ⟨?_, ?_, fun i hi1 hi2 => ?_⟩
    · rw [polarCartTerm, setAt_ne _ _ (by omega), h0, hp 2 (by omega)]; ring
    · rw [polarCartTerm, setAt_ne _ _ (by omega), h1, hp 2 (by omega)]; ring
    · rcases (by omega : i < k + 2 ∨ i = k + 2) with hlt | rfl
      · rw [polarCartTerm, setAt_ne _ _ (by omega), h2 i hi1 hlt, hp (i + 1) (by omega)]; ring
      · rw [polarCartTerm, setAt_same]
        rw [show k + 1 + 2 = (k + 2) + 1 by omega, Ico_self, prod_empty, mul_one]

theorem norm_cos_atan2 (y x : ℝ) : Real.sqrt (x ^ 2 + y ^ 2) * Real.cos (atan2 y x) = x := by
  have h := Complex.norm_mul_cos_arg (⟨x, y⟩ : ℂ)
  rw [Complex.norm_def, Complex.normSq_mk] at h
  rw [atan2, show x ^ 2 + y ^ 2 = x * x + y * y by ring]; exact h

theorem norm_sin_atan2 (y x : ℝ) : Real.sqrt (x ^ 2 + y ^ 2) * Real.sin (atan2 y x) = y := by
  have h := Complex.norm_mul_sin_arg (⟨x, y⟩ : ℂ)
  rw [Complex.norm_def, Complex.normSq_mk] at h
  rw [atan2, show x ^ 2 + y ^ 2 = x * x + y * y by ring]; exact h

theorem atan2_polar {r θ : ℝ} (hr : 0 < r) (h1 : -Real.pi < θ) (h2 : θ ≤ Real.pi) :
    atan2 (r * Real.sin θ) (r * Real.cos θ) = θ := by
  have h := Complex.arg_mul_cos_add_sin_mul_I hr ⟨h1, h2⟩
  rw [atan2]
  convert h using 2
  apply Complex.ext
  · simp [Complex.cos_ofReal_re, Complex.sin_ofReal_im]
  · simp [Complex.cos_ofReal_im, Complex.sin_ofReal_re]

theorem atan2_range (y x : ℝ) : -Real.pi < atan2 y x ∧ atan2 y x ≤ Real.pi :=
  ⟨Complex.neg_pi_lt_arg _, Complex.arg_le_pi _⟩

theorem atan2_nonneg {y : ℝ} (x : ℝ) (h : 0 ≤ y) : 0 ≤ atan2 y x := Complex.arg_nonneg_iff.2 h

/-- To polar coordinates and back. -/
theorem there_and_back (x : ℕ → ℝ) (p : ℕ → ℝ) (h1 : p 1 = atan2 (x 1) (x 0)) (n : ℕ)
    (hp : ∀ i, 2 ≤ i → i < n + 2 → p i = atan2 (Real.sqrt (∑ l ∈ range i, x l ^ 2)) (x i)) (st : ℕ → ℝ) :
    ∀ i, i < n + 2 → polarCartTerm p n (Real.sqrt (∑ l ∈ range (n + 2), x l ^ 2)) st i = x i := by
  induction n with
  | zero =>
    intro i hi
    have hs : ∑ l ∈ range (0 + 2), x l ^ 2 = x 0 ^ 2 + x 1 ^ 2 := by
      rw [sum_range_succ, sum_range_one]
    rw [hs, polarCartTerm, h1]
    rcases (by omega : i = 0 ∨ i = 1) with rfl | rfl
    · rw [setAt_same, norm_cos_atan2]
    · rw [setAt_ne _ _ (by omega), setAt_same, norm_sin_atan2]
  | succ n ih =>
    intro i hi
    have hpn := hp (n + 2) (by omega) (by omega)
    have h0 : 0 ≤ ∑ l ∈ range (n + 2), x l ^ 2 := sum_nonneg fun l _ => sq_nonneg _
    have hs : ∑ l ∈ range (n + 1 + 2), x l ^ 2 = x (n + 2) ^ 2 + Real.sqrt (∑ l ∈ range (n + 2), x l ^ 2) ^ 2 := by
      rw [Real.sq_sqrt h0, show n + 1 + 2 = (n + 2) + 1 by omega, sum_range_succ]; ring
    rw [polarCartTerm, hs, hpn, norm_sin_atan2, norm_cos_atan2]
    rcases (by omega : i < n + 2 ∨ i = n + 2) with hlt | rfl
    · rw [setAt_ne _ _ (by omega)]
      exact ih (fun j hj1 hj2 => hp j hj1 (by omega)) i hlt
    · rw [setAt_same]

/-- The partial sums of squares of the Cartesian coordinates. -/
theorem partial_sums (p q : ℕ → ℝ) (n : ℕ)
    (q0 : q 0 = p 0 * (∏ j ∈ Ico 2 (n + 2), Real.sin (p j)) * Real.cos (p 1))
    (q1 : q 1 = p 0 * (∏ j ∈ Ico 2 (n + 2), Real.sin (p j)) * Real.sin (p 1))
    (qi : ∀ i, 2 ≤ i → i < n + 2 → q i = p 0 * (∏ j ∈ Ico (i + 1) (n + 2), Real.sin (p j)) * Real.cos (p i)) :
    ∀ k, k ≤ n → ∑ j ∈ range (k + 2), q j ^ 2 = (p 0 * ∏ j ∈ Ico (k + 2) (n + 2), Real.sin (p j)) ^ 2 := by
  intro k
  induction k with
  | zero =>
    intro _
    rw [sum_range_succ, sum_range_one, q0, q1]
    have := Real.sin_sq_add_cos_sq (p 1)
    linear_combination (p 0 * ∏ j ∈ Ico 2 (n + 2), Real.sin (p j)) ^ 2 * this
  | succ k ih =>
    intro hk
    rw [show k + 1 + 2 = (k + 2) + 1 by omega, sum_range_succ, ih (by omega), qi (k + 2) (by omega) (by omega),
      prod_eq_prod_Ico_succ_bot (by omega : k + 2 < n + 2)]
    have := Real.sin_sq_add_cos_sq (p (k + 2))
    linear_combination (p 0 * ∏ j ∈ Ico (k + 2 + 1) (n + 2), Real.sin (p j)) ^ 2 * this

end Geometrix
