import Verif.Lemmas.ExpressionsTensor
import Mathlib.Data.Rat.Floor

/-!
# Property theorems: expressions of scalars, vectors, points and matrices
-/

set_option linter.unusedSectionVars false

namespace Geometrix

open Spec Finset

variable {K : Type*} [Field K] [LinearOrder K] [IsStrictOrderedRing K]

/-- **C123, partial.** `lhs <<= e` for a left side of the shape that linear algebra gives `e`: the statement compiles;
if `e` has a value, the left side has it afterwards and no other variable has changed; if somewhere in `e` there is a
division by zero, the inverse of a singular matrix or the direction of a null vector, the statement ends in an error.

The full property has no condition `Supported e`. That condition excludes expressions for which the property is false:
see the refutations below. -/
theorem C123_value_partial (sq : K → K) (env : Nat → Nat → Nat → K) (e : Tx) (s : Shape) (k : Nat)
    (he : meaningShape e = some s) (hs : Supported e) :
    ∃ r, assign sq env s k e = some r ∧
      match meaning sq env e with
      | some f => ∃ env', r = .ok env' ∧ (∀ i < s.rows, ∀ j < s.cols, env' k i j = f i j) ∧
          ∀ k', k' ≠ k → env' k' = env k'
      | none => ∃ err, r = .error err := by
  obtain ⟨h1, h2, h3, h4⟩ := good_of_supported sq env e s he hs
  have hc : assignCompiles s e = true := by
    simp only [assignCompiles, h1, sameKind_self, Bool.true_and]
    exact (allBelow_eq _ _ _).2 h3
  unfold assign
  rw [if_pos hc]
  refine ⟨_, rfl, ?_⟩
  cases hm : meaning sq env e with
  | some f =>
    rw [hm] at h4
    obtain ⟨w, hw, hw'⟩ := readAll_ok (f := value sq env e) h4
    refine ⟨Function.update env k w, ?_, ?_, ?_⟩
    · rw [hw]
    · intro i hi j hj
      rw [Function.update_self]
      exact hw' i hi j hj
    · intro k' hk'
      exact Function.update_of_ne hk' _ _
  | none =>
    rw [hm] at h4
    obtain ⟨err, herr⟩ := readAll_error (f := value sq env e) h4
    refine ⟨err, ?_⟩
    rw [herr]

/-- The elements of a matrix, a vector and a scalar as variables 0, 1 and 2. -/
def exampleVars : Nat → Nat → Nat → ℚ
  | 0, 0, 0 => 2
  | 0, 0, 1 => 1
  | 0, 1, 0 => 1
  | 0, 1, 1 => 1
  | 1, 0, 0 => 3
  | 1, 1, 0 => 5
  | 2, 0, 0 => 2
  | _, _, _ => 0

/-- `v <<= inv(A) * v - s * v`, the variable on the left also stands on the right. -/
def exampleExpression : Tx :=
  .sub (.mul (.inv (.var (.mat 2 2) 0)) (.var (.vec 2) 1)) (.mul (.var .scalar 2) (.var (.vec 2) 1))

example : meaningShape exampleExpression = some (.vec 2) := by decide

example : Supported exampleExpression := by
  simp [exampleExpression, Supported, meaningShape, SupportedProduct, Positive, Shape.rows]

example : (match assign id exampleVars (.vec 2) 1 exampleExpression with
    | some (.ok env) => some (env 1 0 0, env 1 1 0, env 2 0 0)
    | _ => none) = some (-8, -3, 2) := by decide +kernel

/-- Variable 3 is the null matrix; its inverse has no meaning, and the statement ends in an error. -/
example : (match assign id exampleVars (.mat 2 2) 3 (.inv (.var (.mat 2 2) 3)) with
    | some (.error _) => true
    | _ => false) = true := by decide +kernel

/-- **C123, refuted for matrices that are not square.** The size of a matrix times a vector is taken from the vector
(`functions/dot_product.hpp:100-119`). A 3×2 matrix times a vector of 2 cannot be assigned to a vector of 3. It can be
assigned to a vector of 2: the last element of the result is dropped without a message. A 2×3 matrix times a vector of
3 can be assigned to a vector of 2, but its magnitude does not compile. -/
theorem C123_rectangular_refuted :
    meaningShape (.mul (.var (.mat 3 2) 0) (.var (.vec 2) 1)) = some (.vec 3) ∧
    assignCompiles (.vec 3) (.mul (.var (.mat 3 2) 0) (.var (.vec 2) 1)) = false ∧
    assignCompiles (.vec 2) (.mul (.var (.mat 3 2) 0) (.var (.vec 2) 1)) = true ∧
    meaningShape (.mag (.mul (.var (.mat 2 3) 0) (.var (.vec 3) 1))) = some .scalar ∧
    assignCompiles (.vec 2) (.mul (.var (.mat 2 3) 0) (.var (.vec 3) 1)) = true ∧
    assignCompiles .scalar (.mag (.mul (.var (.mat 2 3) 0) (.var (.vec 3) 1))) = false := by
  decide

/-- **C123, refuted for a matrix times a scalar.** `multiplication.hpp:196` indexes the scalar instead of the matrix. The
scalar times the matrix compiles, and so does the matrix divided by the scalar. -/
theorem C123_matrix_scalar_refuted (r c : Nat) (hr : 1 ≤ r) (hc : 1 ≤ c) :
    meaningShape (.mul (.var (.mat r c) 0) (.var .scalar 1)) = some (.mat r c) ∧
    assignCompiles (.mat r c) (.mul (.var (.mat r c) 0) (.var .scalar 1)) = false ∧
    assignCompiles (.mat r c) (.mul (.var .scalar 1) (.var (.mat r c) 0)) = true ∧
    assignCompiles (.mat r c) (.div (.var (.mat r c) 0) (.var .scalar 1)) = true := by
  refine ⟨by simp [meaningShape, productShape, Positive, hr, hc], ?_, ?_, ?_⟩
  · rw [Bool.eq_false_iff]
    intro h
    simp only [assignCompiles, shapeOf, Option.bind_some, mulShape, Bool.and_eq_true] at h
    have := (allBelow_eq _ _ _).1 h.2 0 hr 0 hc
    simp [compiles, shapeOf] at this
  · simp only [assignCompiles, shapeOf, Option.bind_some, mulShape, sameKind_self, Bool.true_and]
    refine (allBelow_eq _ _ _).2 fun i hi j hj => ?_
    have hi' : i < r := hi
    have hj' : j < c := hj
    simp [compiles, inRange, shapeOf, mulShape, hi', hj', Shape.rows, Shape.cols]
  · simp only [assignCompiles, shapeOf, Option.bind_some, divShape, sameKind_self, Bool.true_and]
    refine (allBelow_eq _ _ _).2 fun i hi j hj => ?_
    have hi' : i < r := hi
    have hj' : j < c := hj
    simp [compiles, inRange, shapeOf, divShape, hi', hj', Shape.rows, Shape.cols]

example : (1 : Nat) ≤ 2 ∧ (1 : Nat) ≤ 3 := by decide

/-- **C123, refuted for sums of products with one term.** The product of a column and a row, of any size, does not compile:
`algebra/detail/preprocessed/dot_product.hpp` has no dimension 1. -/
theorem C123_outer_refuted (r c : Nat) (hr : 1 ≤ r) (hc : 1 ≤ c) :
    meaningShape (.mul (.var (.mat r 1) 0) (.var (.mat 1 c) 1)) = some (.mat r c) ∧
    assignCompiles (.mat r c) (.mul (.var (.mat r 1) 0) (.var (.mat 1 c) 1)) = false := by
  constructor
  · simp [meaningShape, productShape, Positive, hr, hc]
  · rw [Bool.eq_false_iff]
    intro h
    simp only [assignCompiles, shapeOf, Option.bind_some, mulShape, Bool.and_eq_true] at h
    have := (allBelow_eq _ _ _).1 h.2 0 hr 0 hc
    simp [compiles, shapeOf, dotCompiles] at this

/-- **C123, refuted for the tensor product of two vectors**, which does not compile (`tensor_product.hpp:27-42`), and for
that of a vector and a matrix with more columns than rows (`tensor_arithmetic.hpp:241-245`). -/
theorem C123_tensor_refuted :
    meaningShape (.tens (.var (.vec 2) 0) (.var (.vec 3) 1)) = some (.mat 2 3) ∧
    assignCompiles (.mat 2 3) (.tens (.var (.vec 2) 0) (.var (.vec 3) 1)) = false ∧
    meaningShape (.tens (.var (.vec 2) 0) (.var (.mat 2 3) 1)) = some (.mat 4 3) ∧
    assignCompiles (.mat 4 3) (.tens (.var (.vec 2) 0) (.var (.mat 2 3) 1)) = false := by
  decide

/-- **C123, refuted for operands that do not fit.** Sizes of operands are not compared: a vector of 3 plus a vector of 2
has no meaning, but compiles and is the sum of the first two elements. Nor is the size of the left side compared: a
matrix of size 3 can be assigned to one of size 2. -/
theorem C123_mismatch_refuted :
    meaningShape (.add (.var (.vec 3) 0) (.var (.vec 2) 1)) = none ∧
    assignCompiles (.vec 2) (.add (.var (.vec 3) 0) (.var (.vec 2) 1)) = true ∧
    (match assign (K := ℚ) id (fun k i _ => 10 * k + i) (.vec 2) 2 (.add (.var (.vec 3) 0) (.var (.vec 2) 1)) with
      | some (.ok env) => some (env 2 0 0, env 2 1 0)
      | _ => none) = some (10, 12) ∧
    assignCompiles (.mat 2 2) (.var (.mat 3 3) 0) = true := by
  refine ⟨by decide, by decide, by decide +kernel, by decide⟩

end Geometrix
