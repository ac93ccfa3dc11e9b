import Mathlib.Analysis.SpecialFunctions.Complex.Arg
import Mathlib.Analysis.SpecialFunctions.Sqrt

/-!
# Transformations between Cartesian and polar coordinates

`geometrix/space/cartesian_polar_transformation.hpp` and `geometrix/space/polar_cartesian_transformation.hpp`.
The dimension is `n + 2`; a dimension below 2 does not compile. A point of dimension `n + 2` is a function on the natural
numbers of which the first `n + 2` values count; the state is an array that is not initialised, so that the theorems hold
for whatever it has before. The numbers are reals.
-/

namespace Geometrix

/-- `std::atan2`, without the distinction of the two zeros. -/
noncomputable def atan2 (y x : ℝ) : ℝ := Complex.arg ⟨x, y⟩

/-- The entry `i` of an array is assigned. -/
def setAt (st : ℕ → ℝ) (i : ℕ) (v : ℝ) : ℕ → ℝ := fun j => if j = i then v else st j

/-- `term_calculator<D, I>::apply` for `2 ≤ I` and `term_calculator<D, D>::apply`:
`geometrix/space/cartesian_polar_transformation.hpp:38-59`. The first argument is `D - I`. -/
noncomputable def cartPolarTerm (x : ℕ → ℝ) : ℕ → ℕ → ℝ → (ℕ → ℝ) → ℕ → ℝ
  | 0, _, sum, state => setAt state 0 (Real.sqrt sum)
  | k + 1, i, sum, state =>
    cartPolarTerm x k (i + 1) (sum + x i * x i) (setAt state i (atan2 (Real.sqrt sum) (x i)))

/-- `transform` to polar coordinates with `term_calculator<D, 1>::apply`:
`cartesian_polar_transformation.hpp:61-71,89-98` and `transform_coordinate` at lines 100-112. -/
noncomputable def cartPolar (n : ℕ) (x state : ℕ → ℝ) : ℕ → ℝ :=
  cartPolarTerm x n 2 (0 + x 0 * x 0 + x 1 * x 1) (setAt state 1 (atan2 (x 1) (x 0)))

/-- `term_calculator<D, I>::apply` with `I = k + 2`:
`geometrix/space/polar_cartesian_transformation.hpp:38-62`. -/
noncomputable def polarCartTerm (p : ℕ → ℝ) : ℕ → ℝ → (ℕ → ℝ) → ℕ → ℝ
  | 0, sum, state => setAt (setAt state 1 (sum * Real.sin (p 1))) 0 (sum * Real.cos (p 1))
  | k + 1, sum, state =>
    setAt (polarCartTerm p k (sum * Real.sin (p (k + 2))) state) (k + 2) (sum * Real.cos (p (k + 2)))

/-- `transform` to Cartesian coordinates: `polar_cartesian_transformation.hpp:79-87` and `transform_coordinate` at lines
89-101. -/
noncomputable def polarCart (n : ℕ) (p state : ℕ → ℝ) : ℕ → ℝ := polarCartTerm p n (p 0) state

end Geometrix
