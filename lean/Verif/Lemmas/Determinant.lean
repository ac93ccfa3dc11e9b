import Verif.Model.Determinant
import Verif.Spec.Determinant
import Verif.Lemmas.Distance
import Mathlib.LinearAlgebra.Matrix.Determinant.Basic
import Mathlib.LinearAlgebra.Matrix.Adjugate
import Mathlib.LinearAlgebra.Matrix.ToLinearEquiv
import Mathlib.Algebra.BigOperators.Field

/-!
# Lemmas on the determinant
-/

set_option linter.unusedSectionVars false

namespace Geometrix

open Spec Finset

variable {K : Type*} [Field K] [LinearOrder K] [IsStrictOrderedRing K]

/-- The matrix of the first `n` rows and columns. -/
def toMat (n : Nat) (m : Nat → Nat → K) : Matrix (Fin n) (Fin n) K := Matrix.of fun i j => m i j

theorem powerC_neg_one (p : Nat) : ((powerC (-1) p : Int) : K) = (-1) ^ p := by
  induction p with
  | zero => simp [powerC]
  | succ p ih => rw [powerC, Int.cast_mul, ih, pow_succ]; push_cast; ring

theorem offsetIndex_succAbove {n : Nat} (i : Fin n) (p : Fin (n + 1)) :
    ((p.succAbove i : Fin (n + 1)) : Nat) = offsetIndex i p := by
  unfold offsetIndex Fin.succAbove
  by_cases h : (i : Nat) < p
  · have : i.castSucc < p := by rw [Fin.lt_def]; simpa using h
    rw [if_pos this, if_neg (by omega)]; simp
  · have : ¬ i.castSucc < p := by rw [Fin.lt_def]; simpa using h
    rw [if_neg this, if_pos (by omega)]; simp

theorem minor_submatrix {n : Nat} (m : Nat → Nat → K) (r c : Fin (n + 1)) :
    toMat n (matrixMinor m r c) = (toMat (n + 1) m).submatrix r.succAbove c.succAbove := by
  ext i j
  simp only [toMat, matrixMinor, Matrix.of_apply, Matrix.submatrix_apply, offsetIndex_succAbove]

theorem foldl_from_first (n : Nat) (f : Nat → K) :
    (List.range n).foldl (fun s j => s + f (j + 1)) (f 0) = ∑ j : Fin (n + 1), f j := by
  rw [Fin.sum_univ_eq_sum_range]
  induction n with
  | zero => simp
  | succ n ih => rw [List.range_succ, List.foldl_append, ih, sum_range_succ f (n + 1)]; rfl

theorem determinant_eq : ∀ (n : Nat) (m : Nat → Nat → K), determinant n m = (toMat (n + 1) m).det
  | 0, m => by simp [determinant, toMat]
  | 1, m => by simp [determinant, toMat, Matrix.det_fin_two]; ring
  | n + 2, m => by
    rw [Matrix.det_succ_row_zero]
    simp only [determinant]
    rw [foldl_from_first (n + 2)
      (fun j => m 0 j * (powerC (-1) (0 + j) * determinant (n + 1) (matrixMinor m 0 j)))]
    refine sum_congr rfl fun j _ => ?_
    rw [determinant_eq (n + 1) (matrixMinor m 0 j)]
    have := minor_submatrix m (0 : Fin (n + 3)) j
    simp only [Fin.val_zero] at this
    rw [this, powerC_neg_one, Nat.zero_add, Fin.succAbove_zero]
    simp only [toMat, Matrix.of_apply, Fin.val_zero]
    ring

theorem leibniz_eq (n : Nat) (m : Nat → Nat → K) : leibniz n m = (toMat n m).det := by
  rw [← Matrix.det_transpose, Matrix.det_apply']
  rfl

theorem product_eq (n : Nat) (a b : Nat → Nat → K) (i j : Nat) :
    matrixProductAt n a b i j = productEntry (n + 1) a b i j := by
  unfold matrixProductAt productEntry
  rw [foldl_from_first n (fun k => a i k * b k j), Fin.sum_univ_eq_sum_range (fun k => a i k * b k j)]

theorem toMat_mul (n : Nat) (a b : Nat → Nat → K) :
    toMat n (productEntry n a b) = toMat n a * toMat n b := by
  ext i j
  simp only [toMat, Matrix.of_apply, Matrix.mul_apply, productEntry]
  rw [Fin.sum_univ_eq_sum_range (fun k => a i k * b k j)]

theorem singular_iff (n : Nat) (a : Nat → Nat → K) : SingularMatrix n a ↔ (toMat n a).det = 0 := by
  rw [← Matrix.exists_mulVec_eq_zero_iff]
  constructor
  · rintro ⟨v, ⟨i, hi, hne⟩, hv⟩
    refine ⟨fun j => v j, ?_, ?_⟩
    · intro h0
      exact hne (congrFun h0 ⟨i, hi⟩)
    · funext r
      have := hv r r.2
      simp only [Matrix.mulVec, dotProduct, toMat, Matrix.of_apply, Pi.zero_apply]
      rw [Fin.sum_univ_eq_sum_range (fun k => a r k * v k)]
      exact this
  · rintro ⟨v, hne, hv⟩
    obtain ⟨i, hi⟩ := Function.ne_iff.1 hne
    refine ⟨fun j => if h : j < n then v ⟨j, h⟩ else 0, ⟨i, i.2, ?_⟩, ?_⟩
    · simpa using hi
    · intro r hr
      have := congrFun hv ⟨r, hr⟩
      simp only [Matrix.mulVec, dotProduct, toMat, Matrix.of_apply, Pi.zero_apply] at this
      rw [← Fin.sum_univ_eq_sum_range (fun k => a r k * (if h : k < n then v ⟨k, h⟩ else 0))]
      simpa using this

theorem adjugateAt_eq (n : Nat) (m : Nat → Nat → K) (r c : Fin (n + 2)) :
    adjugateAt n m r c = (toMat (n + 2) m).adjugate r c := by
  rw [Matrix.adjugate_fin_succ_eq_det_submatrix]
  unfold adjugateAt
  rw [determinant_eq, minor_submatrix, powerC_neg_one, Nat.add_comm]

end Geometrix
