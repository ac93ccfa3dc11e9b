import Verif.Lemmas.Determinant

/-!
# C43: the determinant. C61: inverse, adjugate and product of matrices
-/

set_option linter.unusedSectionVars false

namespace Geometrix

open Spec Finset

variable {K : Type*} [Field K] [LinearOrder K] [IsStrictOrderedRing K]

/-- `determinant` is the sum over all permutations of signed products. -/
theorem C43_leibniz (n : Nat) (m : Nat → Nat → K) : determinant n m = leibniz (n + 1) m := by
  rw [determinant_eq, leibniz_eq]

/-- Size three. -/
example : determinant 2 (fun i j => ([[1, 2, 0], [2, 1, 1], [0, 3, 1]].getD i []).getD j (0 : ℚ)) = -6 := by
  decide +kernel

/-- The determinant of a product is the product of the determinants. -/
theorem C43_multiplicative (n : Nat) (a b : Nat → Nat → K) :
    determinant n (productEntry (n + 1) a b) = determinant n a * determinant n b := by
  rw [determinant_eq, determinant_eq, determinant_eq, toMat_mul, Matrix.det_mul]

example : productEntry 2 (fun i j => ([[1, 2], [3, 4]].getD i []).getD j (0 : ℚ))
    (fun i j => ([[0, 1], [1, 0]].getD i []).getD j (0 : ℚ)) 0 0 = 2 := by
  norm_num [productEntry, sum_range_succ]

/-- The determinant is zero exactly for a singular matrix. -/
theorem C43_singular (n : Nat) (a : Nat → Nat → K) : determinant n a = 0 ↔ SingularMatrix (n + 1) a := by
  rw [determinant_eq, singular_iff]

example : determinant 1 (fun i j => ([[1, 2], [2, 4]].getD i []).getD j (0 : ℚ)) = 0 := by decide +kernel

/-- An exchange of two rows changes the sign. -/
theorem C43_swap (n : Nat) (a : Nat → Nat → K) (r s : Nat) (hr : r < n + 1) (hs : s < n + 1) (hne : r ≠ s) :
    determinant n (fun i j => a (if i = r then s else if i = s then r else i) j) = - determinant n a := by
  rw [determinant_eq, determinant_eq]
  have : toMat (n + 1) (fun i j => a (if i = r then s else if i = s then r else i) j) =
      (toMat (n + 1) a).submatrix (Equiv.swap ⟨r, hr⟩ ⟨s, hs⟩) id := by
    ext i j
    simp only [toMat, Matrix.of_apply, Matrix.submatrix_apply, id_eq]
    congr 1
    by_cases h1 : (i : Nat) = r
    · have : i = ⟨r, hr⟩ := Fin.ext h1
      subst this; simp
    · by_cases h2 : (i : Nat) = s
      · have : i = ⟨s, hs⟩ := Fin.ext h2
        subst this
        simp [Ne.symm hne]
      · rw [if_neg h1, if_neg h2, Equiv.swap_apply_of_ne_of_ne]
        · intro h; exact h1 (by rw [h])
        · intro h; exact h2 (by rw [h])
  rw [this, Matrix.det_permute]
  rw [Equiv.Perm.sign_swap (by intro h; exact hne (by simpa using h))]
  simp

example : determinant 1 (fun i j => ([[3, 4], [1, 2]].getD i []).getD j (0 : ℚ)) =
    - determinant 1 (fun i j => ([[1, 2], [3, 4]].getD i []).getD j (0 : ℚ)) := by decide +kernel

/-- `matrix_product_element` is the sum of the products of the elements. -/
theorem C61_product (n : Nat) (a b : Nat → Nat → K) (i j : Nat) :
    matrixProductAt n a b i j = productEntry (n + 1) a b i j := product_eq n a b i j

example : matrixProductAt 1 (fun i j => ([[1, 2], [3, 4]].getD i []).getD j (0 : ℚ))
    (fun i j => ([[5, 6], [7, 8]].getD i []).getD j (0 : ℚ)) 1 0 = 43 := by decide +kernel

/-- A matrix times its adjugate is the determinant times the identity, on both sides. -/
theorem C61_adjugate (n : Nat) (m : Nat → Nat → K) (i j : Nat) (hi : i < n + 2) (hj : j < n + 2) :
    productEntry (n + 2) m (adjugateAt n m) i j = determinant (n + 1) m * identityEntry i j ∧
    productEntry (n + 2) (adjugateAt n m) m i j = determinant (n + 1) m * identityEntry i j := by
  have hadj : toMat (n + 2) (adjugateAt n m) = (toMat (n + 2) m).adjugate := by
    ext r c
    exact adjugateAt_eq n m r c
  have hid : ∀ (r c : Fin (n + 2)), ((1 : Matrix (Fin (n + 2)) (Fin (n + 2)) K) r c) = identityEntry (r : Nat) (c : Nat) := by
    intro r c
    unfold identityEntry
    rw [Matrix.one_apply]
    simp [Fin.ext_iff]
  constructor
  · have h := toMat_mul (n + 2) m (adjugateAt n m)
    rw [hadj, Matrix.mul_adjugate] at h
    have := congrFun (congrFun h ⟨i, hi⟩) ⟨j, hj⟩
    simp only [toMat, Matrix.of_apply, Matrix.smul_apply, smul_eq_mul] at this
    rw [this, hid, determinant_eq]; rfl
  · have h := toMat_mul (n + 2) (adjugateAt n m) m
    rw [hadj, Matrix.adjugate_mul] at h
    have := congrFun (congrFun h ⟨i, hi⟩) ⟨j, hj⟩
    simp only [toMat, Matrix.of_apply, Matrix.smul_apply, smul_eq_mul] at this
    rw [this, hid, determinant_eq]; rfl

example : adjugateAt 0 (fun i j => ([[1, 2], [3, 4]].getD i []).getD j (0 : ℚ)) 0 1 = -2 := by decide +kernel

/-- For a regular matrix the elements of `inverse_at_index` form the inverse on both sides; for a singular
matrix every element throws. -/
theorem C61_inverse (n : Nat) (m : Nat → Nat → K) :
    (¬ SingularMatrix (n + 2) m → ∃ w : Nat → Nat → K, (∀ i j, inverseAt n m i j = .ok (w i j)) ∧
      ∀ i < n + 2, ∀ j < n + 2, productEntry (n + 2) m w i j = identityEntry i j ∧
        productEntry (n + 2) w m i j = identityEntry i j) ∧
    (SingularMatrix (n + 2) m → ∀ i j, inverseAt n m i j = .error .thrown) := by
  have hd : determinant (n + 1) m = 0 ↔ SingularMatrix (n + 2) m := C43_singular (n + 1) m
  constructor
  · intro h
    have hne : determinant (n + 1) m ≠ 0 := fun h0 => h (hd.1 h0)
    refine ⟨fun i j => adjugateAt n m i j / determinant (n + 1) m, ?_, ?_⟩
    · intro i j
      unfold inverseAt
      simp only [ne_eq, hne, not_false_eq_true, if_true, cdiv_ok hne]
    · intro i hi j hj
      obtain ⟨h1, h2⟩ := C61_adjugate n m i j hi hj
      constructor
      · have : productEntry (n + 2) m (fun i j => adjugateAt n m i j / determinant (n + 1) m) i j =
            productEntry (n + 2) m (adjugateAt n m) i j / determinant (n + 1) m := by
          unfold productEntry
          rw [sum_div]
          exact sum_congr rfl fun k _ => by ring
        rw [this, h1]; field_simp
      · have : productEntry (n + 2) (fun i j => adjugateAt n m i j / determinant (n + 1) m) m i j =
            productEntry (n + 2) (adjugateAt n m) m i j / determinant (n + 1) m := by
          unfold productEntry
          rw [sum_div]
          exact sum_congr rfl fun k _ => by ring
        rw [this, h2]; field_simp
  · intro h i j
    unfold inverseAt
    simp only [hd.2 h, ne_eq, not_true_eq_false, if_false]

example : inverseAt 0 (fun i j => ([[1, 2], [3, 4]].getD i []).getD j (0 : ℚ)) 0 0 = .ok (-2) := by decide +kernel

end Geometrix
