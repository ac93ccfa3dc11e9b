import Verif.Lemmas.PolarTransform

/-!
# Properties of the transformations between Cartesian and polar coordinates

In every dimension `n + 2`. The coordinate 0 of a polar point is the radius, the others are angles.
-/

namespace Geometrix

open Finset

/-- C103: a Cartesian point transformed to polar coordinates and back is the same point. -/
theorem C103_there_and_back (n : ℕ) (x st st' : ℕ → ℝ) :
    ∀ i, i < n + 2 → polarCart n (cartPolar n x st) st' i = x i := by
  intro i hi
  rw [polarCart, cartPolar_zero]
  exact there_and_back x _ (cartPolar_one n x st) n (fun j h1 h2 => cartPolar_ge n x st h1 h2) st' i hi

/-- C103: the radius is the length of the point and the angles are in the ranges of polar coordinates. -/
theorem C103_ranges (n : ℕ) (x st : ℕ → ℝ) :
    0 ≤ cartPolar n x st 0 ∧ cartPolar n x st 0 ^ 2 = ∑ i ∈ range (n + 2), x i ^ 2 ∧
      -Real.pi < cartPolar n x st 1 ∧ cartPolar n x st 1 ≤ Real.pi ∧
      ∀ i, 2 ≤ i → i < n + 2 → 0 ≤ cartPolar n x st i ∧ cartPolar n x st i ≤ Real.pi := by
  rw [cartPolar_zero, cartPolar_one]
  refine ⟨Real.sqrt_nonneg _, Real.sq_sqrt (sum_nonneg fun l _ => sq_nonneg _), (atan2_range _ _).1,
    (atan2_range _ _).2, fun i h1 h2 => ?_⟩
  rw [cartPolar_ge n x st h1 h2]
  exact ⟨atan2_nonneg _ (Real.sqrt_nonneg _), (atan2_range _ _).2⟩

/-- C103: the Cartesian coordinates are those of the standard formula. -/
theorem C103_formula (n : ℕ) (p st : ℕ → ℝ) :
    polarCart n p st 0 = p 0 * (∏ j ∈ Ico 2 (n + 2), Real.sin (p j)) * Real.cos (p 1) ∧
    polarCart n p st 1 = p 0 * (∏ j ∈ Ico 2 (n + 2), Real.sin (p j)) * Real.sin (p 1) ∧
    ∀ i, 2 ≤ i → i < n + 2 →
      polarCart n p st i = p 0 * (∏ j ∈ Ico (i + 1) (n + 2), Real.sin (p j)) * Real.cos (p i) :=
  polarCartTerm_spec p n (p 0) st

/-- C103: a polar point with a positive radius, an angle between `-π` and `π` and the others strictly between `0` and `π`
transformed to Cartesian coordinates and back is the same point. -/
theorem C103_back_and_there (n : ℕ) (p st st' : ℕ → ℝ) (h0 : 0 < p 0) (h1 : -Real.pi < p 1) (h1' : p 1 ≤ Real.pi)
    (h2 : ∀ i, 2 ≤ i → i < n + 2 → 0 < p i ∧ p i < Real.pi) :
    ∀ i, i < n + 2 → cartPolar n (polarCart n p st) st' i = p i := by
  obtain ⟨q0, q1, qi⟩ := C103_formula n p st
  have hsum := partial_sums p (polarCart n p st) n q0 q1 qi
  have hpos : ∀ k, 2 ≤ k → 0 < p 0 * ∏ j ∈ Ico k (n + 2), Real.sin (p j) := by
    intro k hk
    refine mul_pos h0 (prod_pos fun j hj => ?_)
    rw [mem_Ico] at hj
    have := h2 j (by omega) hj.2
    exact Real.sin_pos_of_pos_of_lt_pi this.1 this.2
  intro i hi
  rcases (by omega : i = 0 ∨ i = 1 ∨ 2 ≤ i) with rfl | rfl | hi2
  · rw [cartPolar_zero, hsum n (le_refl _), Real.sqrt_sq (hpos _ (by omega)).le, Ico_self, prod_empty, mul_one]
  · rw [cartPolar_one, q0, q1, atan2_polar (hpos 2 (le_refl _)) h1 h1']
  · have hk := hsum (i - 2) (by omega)
    rw [show i - 2 + 2 = i by omega] at hk
    rw [cartPolar_ge n _ _ hi2 hi, hk, Real.sqrt_sq (hpos i hi2).le, qi i hi2 hi,
      prod_eq_prod_Ico_succ_bot (by omega : i < n + 2)]
    have he : p 0 * (Real.sin (p i) * ∏ j ∈ Ico (i + 1) (n + 2), Real.sin (p j)) =
        (p 0 * ∏ j ∈ Ico (i + 1) (n + 2), Real.sin (p j)) * Real.sin (p i) := by ring
    have := h2 i hi2 hi
    rw [he, atan2_polar (hpos (i + 1) (by omega)) (by linarith [Real.pi_pos]) this.2.le]

/-- The hypotheses hold for a polar point in space. -/
example : ∃ p : ℕ → ℝ, 0 < p 0 ∧ -Real.pi < p 1 ∧ p 1 ≤ Real.pi ∧ ∀ i, 2 ≤ i → i < 1 + 2 → 0 < p i ∧ p i < Real.pi := by
  refine ⟨fun i => if i = 0 then 3 else Real.pi / 2, by norm_num, ?_, ?_, fun i h1 h2 => ?_⟩
  · norm_num; linarith [Real.pi_pos]
  · norm_num; linarith [Real.pi_pos]
  · have : i = 2 := by omega
    subst this
    norm_num; exact Real.pi_pos

/-- C103: the length of the Cartesian point is the radius, whatever the angles. -/
theorem C103_length (n : ℕ) (p st : ℕ → ℝ) : ∑ i ∈ range (n + 2), polarCart n p st i ^ 2 = p 0 ^ 2 := by
  obtain ⟨q0, q1, qi⟩ := C103_formula n p st
  rw [partial_sums p (polarCart n p st) n q0 q1 qi n (le_refl _), Ico_self, prod_empty, mul_one]

end Geometrix
