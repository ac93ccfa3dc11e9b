import Verif.Lemmas.InPlace
import Mathlib.Data.Rat.Floor
import Mathlib.Analysis.Real.Sqrt

/-!
# Property theorems: assignment to vectors and points, access to their elements
-/

set_option linter.unusedSectionVars false

namespace Geometrix

open Spec

variable {K : Type*} [Field K] [LinearOrder K] [IsStrictOrderedRing K]

/-- **C133, partial.** `lhs = e` and `assign(lhs, e)` for a vector or point of the shape that linear algebra gives `e`: the statement
compiles; if `e` has a value, the left side has it afterwards and no other variable has changed; if somewhere in `e` there is a division
by zero, the inverse of a singular matrix or the direction of a null vector, the statement ends in an error.

The full property has neither the condition `Supported e` (see C123) nor `Elementwise k e`. Without the latter it is false: see
the refutations below. -/
theorem C133_value_partial (sq : K → K) (env : Nat → Nat → Nat → K) (e : Tx) (s : Shape) (k : Nat) (he : meaningShape e = some s)
    (hv : (∃ n, s = .vec n) ∨ ∃ n, s = .point n) (hs : Supported e) (hk : Elementwise k e) :
    ∃ r, assignInPlace sq env s k e = some r ∧
      match meaning sq env e with
      | some f => ∃ env', r = .ok env' ∧ (∀ i < s.rows, env' k i 0 = f i 0) ∧ ∀ k', k' ≠ k → env' k' = env k'
      | none => ∃ err, r = .error err := by
  obtain ⟨h1, h2, h3, h4⟩ := good_of_supported sq env e s he hs
  have hq : IsSeq s := by rcases hv with ⟨n, rfl⟩ | ⟨n, rfl⟩ <;> trivial
  have hcol : s.cols = 1 := by rcases hv with ⟨n, rfl⟩ | ⟨n, rfl⟩ <;> rfl
  have hc : inPlaceCompiles s e = true := by
    rcases hv with ⟨n, rfl⟩ | ⟨n, rfl⟩ <;> simp only [inPlaceCompiles, h1] <;> exact (allBelow_eq _ _ _).2 h3
  have hl : ∀ i env', (∀ l, l ≠ k → env' l = env l) → env' k i 0 = env k i 0 → value sq env' e i 0 = value sq env e i 0 :=
    fun i env' a b => value_local sq a b e s he hq hs hk
  obtain ⟨w1, w2⟩ := writeElements_spec sq k e env hl s.rows 0 env (fun _ _ => rfl) (fun _ _ => rfl)
  unfold assignInPlace
  rw [if_pos hc]
  refine ⟨_, rfl, ?_⟩
  cases hm : meaning sq env e with
  | some f =>
    rw [hm] at h4
    have h4' : ∀ i < s.rows, value sq env e i 0 = .ok (f i 0) := fun i hi => h4 i hi 0 (by omega)
    obtain ⟨r, q1, q2, -, q4⟩ := w1 ⟨fun i => f i 0, fun i _ hi => h4' i (by omega)⟩
    refine ⟨r, q1, fun i hi => ?_, q2⟩
    have := q4 i (Nat.zero_le _) (by omega)
    rw [h4' i hi] at this
    exact (Except.ok.inj this).symm
  | none =>
    rw [hm] at h4
    obtain ⟨i, hi, j, hj, err, h5⟩ := h4
    obtain rfl : j = 0 := by omega
    exact w2 ⟨i, Nat.zero_le _, by omega, err, h5⟩

/-- `v = v - (u * w) * v + u`, with the vectors `v`, `u` and `w` as variables 0, 1 and 2. -/
def elementwiseExample : Tx :=
  .add (.sub (.var (.vec 2) 0) (.mul (.mul (.var (.vec 2) 1) (.var (.vec 2) 2)) (.var (.vec 2) 0))) (.var (.vec 2) 1)

example : meaningShape elementwiseExample = some (.vec 2) ∧ Supported elementwiseExample ∧ Elementwise 0 elementwiseExample := by
  refine ⟨by decide, ?_, ?_⟩
  · simp [elementwiseExample, Supported, meaningShape, SupportedProduct, Positive, productShape]
  · simp [elementwiseExample, Elementwise, meaningShape, Positive, productShape, Occurs]

example : (match assignInPlace (K := ℚ) id (fun k i _ => k + 2 * i) (.vec 2) 0 elementwiseExample with
    | some (.ok env) => some (env 0 0 0, env 0 1 0, env 1 1 0)
    | _ => none) = some (1, -23, 3) := by decide +kernel

/-- C133: an expression in which the left side does not occur is one of those. -/
theorem C133_fresh (k : Nat) : ∀ e : Tx, ¬ Occurs k e → Elementwise k e
  | .var _ _, _ => trivial
  | .neg a, h => C133_fresh k a h
  | .abs a, h => C133_fresh k a h
  | .recip a, h => C133_fresh k a h
  | .add a b, h => ⟨C133_fresh k a (not_or.mp h).1, C133_fresh k b (not_or.mp h).2⟩
  | .sub a b, h => ⟨C133_fresh k a (not_or.mp h).1, C133_fresh k b (not_or.mp h).2⟩
  | .mul _ _, h => .inr (.inr (not_or.mp h))
  | .div a _, h => ⟨C133_fresh k a (not_or.mp h).1, (not_or.mp h).2⟩
  | .trans _, h => h
  | .det _, h => h
  | .inv _, h => h
  | .mag _, h => h
  | .norm _, h => h
  | .cross _ _, h => h
  | .tens _ _, h => h

example : ¬ Occurs 0 (.cross (.var (.vec 3) 1) (.norm (.var (.vec 3) 2))) := by simp [Occurs]

/-- **C133, refuted for the cross product with the left side.** `v = v ^ w` for `v = (1, 2, 3)` and `w = (4, 5, 6)` gives
`(-3, 30, -135)`; the cross product, which `v <<= v ^ w` gives, is `(-3, 6, -3)`. -/
theorem C133_cross_refuted :
    (match assignInPlace (K := ℚ) id (fun k i _ => 3 * k + i + 1) (.vec 3) 0 (.cross (.var (.vec 3) 0) (.var (.vec 3) 1)) with
      | some (.ok env) => some (env 0 0 0, env 0 1 0, env 0 2 0)
      | _ => none) = some (-3, 30, -135) ∧
    (match assign (K := ℚ) id (fun k i _ => 3 * k + i + 1) (.vec 3) 0 (.cross (.var (.vec 3) 0) (.var (.vec 3) 1)) with
      | some (.ok env) => some (env 0 0 0, env 0 1 0, env 0 2 0)
      | _ => none) = some (-3, 6, -3) := by
  constructor <;> decide +kernel

/-- The elements of a rotation by a right angle and of the point `(1, 2)`. -/
def rotationVars : Nat → Nat → Nat → ℚ
  | 0, 0, 1 => -1
  | 0, 1, 0 => 1
  | 1, 0, 0 => 1
  | 1, 1, 0 => 2
  | _, _, _ => 0

/-- **C133, refuted for a matrix times the left side.** `p = m * p` for the rotation `m` by a right angle maps `(1, 2)` to `(-2, -2)`
instead of `(-2, 1)`. -/
theorem C133_matrix_refuted :
    (match assignInPlace id rotationVars (.point 2) 1 (.mul (.var (.mat 2 2) 0) (.var (.point 2) 1)) with
      | some (.ok env) => some (env 1 0 0, env 1 1 0)
      | _ => none) = some (-2, -2) ∧
    (match assign id rotationVars (.point 2) 1 (.mul (.var (.mat 2 2) 0) (.var (.point 2) 1)) with
      | some (.ok env) => some (env 1 0 0, env 1 1 0)
      | _ => none) = some (-2, 1) := by
  constructor <;> decide +kernel

/-- **C133, refuted for the direction of the left side.** `v = norm(v)` in the plane, as in the program's own test
(`geometry_test/product_tests.hpp:87-88`, which does not look at the result), gives the direction of `v` only if `v` is on an axis or
is a unit vector before. -/
theorem C133_norm_refuted (env : Nat → Nat → Nat → ℝ) (x y : ℝ) (hx : env 0 0 0 = x) (hy : env 0 1 0 = y)
    (h : x ≠ 0 ∨ y ≠ 0) : ∃ env', assignInPlace Real.sqrt env (.vec 2) 0 (.norm (.var (.vec 2) 0)) = some (.ok env') ∧
      env' 0 0 0 = x / √(x * x + y * y) ∧ (env' 0 1 0 = y / √(x * x + y * y) ↔ x = 0 ∨ y = 0 ∨ √(x * x + y * y) = 1) := by
  have hr0 : 0 < x * x + y * y := by
    rcases h with h | h
    · nlinarith [mul_self_pos.mpr h, mul_self_nonneg y]
    · nlinarith [mul_self_pos.mpr h, mul_self_nonneg x]
  have hr : 0 < √(x * x + y * y) := Real.sqrt_pos.mpr hr0
  obtain ⟨r, er⟩ : ∃ r, r = √(x * x + y * y) := ⟨_, rfl⟩
  have hrr : r * r = x * x + y * y := by rw [er]; exact Real.mul_self_sqrt hr0.le
  rw [← er] at hr ⊢
  have e1 : ∀ (env : Nat → Nat → Nat → ℝ) (i : Nat), i < 2 → √(env 0 0 0 * env 0 0 0 + env 0 1 0 * env 0 1 0) ≠ 0 →
      value Real.sqrt env (.norm (.var (.vec 2) 0)) i 0 = .ok (env 0 i 0 / √(env 0 0 0 * env 0 0 0 + env 0 1 0 * env 0 1 0)) := by
    intro env i hi h0
    obtain ⟨w, hw, hw'⟩ := readAll_ok (r := 2) (c := 1) (f := fun i j => .ok (env 0 i j)) (g := env 0) (fun _ _ _ _ => rfl)
    have hv : (value Real.sqrt env (.var (.vec 2) 0)) = fun i j => .ok (env 0 i j) := by funext i j; rfl
    have hm : magnitudeSqrdUpTo (fun k => w k 0) (2 - 1) = env 0 0 0 * env 0 0 0 + env 0 1 0 * env 0 1 0 := by
      show w 0 0 * w 0 0 + w 1 0 * w 1 0 = _
      rw [hw' 0 (by omega) 0 (by omega), hw' 1 (by omega) 0 (by omega)]
    simp only [value, shapeOf, hv, hw, hm, hw' i hi 0 (by omega)]
    rw [if_neg h0, cdiv, if_neg h0]
  have hz : √(x / r * (x / r) + y * y) ≠ 0 := by
    rw [Real.sqrt_ne_zero']
    rcases h with h | h
    · have := div_ne_zero h hr.ne'
      nlinarith [mul_self_pos.mpr this, mul_self_nonneg y]
    · nlinarith [mul_self_pos.mpr h, mul_self_nonneg (x / r)]
  have s0 : value Real.sqrt env (.norm (.var (.vec 2) 0)) 0 0 = .ok (x / r) := by
    rw [e1 env 0 (by omega) (by rw [hx, hy, ← er]; exact hr.ne'), hx, hy, ← er]
  have s1 : value Real.sqrt (setElement env 0 0 (x / r)) (.norm (.var (.vec 2) 0)) 1 0 = .ok (y / √(x / r * (x / r) + y * y)) := by
    have a0 : setElement env 0 0 (x / r) 0 0 0 = x / r := by simp [setElement]
    have a1 : setElement env 0 0 (x / r) 0 1 0 = y := by simp [setElement, hy]
    rw [e1 _ 1 (by omega) (by rw [a0, a1]; exact hz), a0, a1]
  have hc : inPlaceCompiles (.vec 2) (.norm (.var (.vec 2) 0)) = true := by decide
  refine ⟨setElement (setElement env 0 0 (x / r)) 0 1 (y / √(x / r * (x / r) + y * y)), ?_, ?_, ?_⟩
  · rw [assignInPlace, if_pos hc]
    simp only [Shape.rows, writeElements, s0, s1]
  · simp [setElement]
  · have a1 : setElement (setElement env 0 0 (x / r)) 0 1 (y / √(x / r * (x / r) + y * y)) 0 1 0 = y / √(x / r * (x / r) + y * y) := by
      simp [setElement]
    rw [a1]
    constructor
    · intro h2
      by_cases h3 : y = 0
      · exact .inr (.inl h3)
      · have h4 : √(x / r * (x / r) + y * y) = r := by
          rw [div_eq_div_iff hz hr.ne'] at h2
          exact (mul_left_cancel₀ h3 h2).symm
        have h5 : x / r * (x / r) + y * y = r * r := by
          have h9 : 0 ≤ x / r * (x / r) + y * y := by nlinarith [mul_self_nonneg (x / r), mul_self_nonneg y]
          have := Real.mul_self_sqrt h9
          rw [h4] at this
          exact this.symm
        have h6 : x * x = x * x * (r * r) := by
          rw [hrr, add_left_inj] at h5
          field_simp at h5
          nlinarith
        by_cases h7 : x = 0
        · exact .inl h7
        · refine .inr (.inr ?_)
          have h8 : r * r = 1 := by
            have : x * x * (r * r) = x * x * 1 := by rw [mul_one]; exact h6.symm
            exact mul_left_cancel₀ (mul_ne_zero h7 h7) this
          nlinarith
    · rintro (h2 | h2 | h2)
      · rw [er, h2]; simp
      · rw [h2]; simp
      · have h3 : x / r * (x / r) + y * y = x * x + y * y := by rw [h2, div_one]
        rw [h3, ← er]

/-- The vector `(3, 4)`. -/
example : ((3 : ℝ) ≠ 0 ∨ (4 : ℝ) ≠ 0) ∧ ¬ ((3 : ℝ) = 0 ∨ (4 : ℝ) = 0 ∨ √((3 : ℝ) * 3 + 4 * 4) = 1) := by
  have : √((3 : ℝ) * 3 + 4 * 4) = 5 := by
    rw [show (3 : ℝ) * 3 + 4 * 4 = 5 * 5 by norm_num, Real.sqrt_mul_self (by norm_num)]
  rw [this]; norm_num

/-- **C133, refuted for operands of another kind.** A point can be assigned to a vector, and a vector to a point, with `=`, but not
with `<<=`. -/
theorem C133_kind_refuted (n : Nat) :
    (inPlaceCompiles (.vec n) (.var (.point n) 0) = true ∧ assignCompiles (.vec n) (.var (.point n) 0) = false) ∧
    inPlaceCompiles (.point n) (.var (.vec n) 0) = true ∧ assignCompiles (.point n) (.var (.vec n) 0) = false := by
  refine ⟨⟨?_, by simp [assignCompiles, shapeOf, sameKind]⟩, ?_, by simp [assignCompiles, shapeOf, sameKind]⟩ <;>
  · simp only [inPlaceCompiles, shapeOf]
    refine (allBelow_eq _ _ _).2 fun i hi j hj => ?_
    obtain rfl : j = 0 := by omega
    simp [compiles, inRange, shapeOf, Shape.rows, Shape.cols, hi]

/-- **C134, partial.** Reading and writing the element at an index below 2^31 gives or changes that element, if there is one, and fails
an assertion otherwise. The full property is for all indices: see the refutation. -/
theorem C134_access_partial {α : Type*} (a : Array α) (i : Nat) (hi : i < 2 ^ 31) :
    (∀ h : i < a.size, elementAt a i = .ok a[i]) ∧ (a.size ≤ i → elementAt a i = .error .assertFailed) := by
  have hs : sizeToInt i = i := by
    norm_num at hi
    unfold sizeToInt
    split_ifs <;> omega
  constructor
  · intro h
    simp only [elementAt, hs, Nat.cast_lt, h, if_true, Array.getElem?_eq_getElem]
  · intro h
    have : ¬ (sizeToInt i < a.size) := by rw [hs]; omega
    simp only [elementAt, this, if_false]

example : (1 : Nat) < 2 ^ 31 ∧ 1 < (#[5, 7] : Array ℚ).size := by norm_num

/-- C134: writing at any index changes that element and no other, or fails an assertion. -/
theorem C134_set {α : Type*} (a : Array α) (i : Nat) (x : α) :
    (i < a.size → ∃ b, setElementAt a i x = .ok b ∧ b.size = a.size ∧ b[i]? = some x ∧ ∀ j, j ≠ i → b[j]? = a[j]?) ∧
    (a.size ≤ i → setElementAt a i x = .error .assertFailed) := by
  constructor
  · intro h
    refine ⟨a.setIfInBounds i x, by simp only [setElementAt, h, if_true], by simp, by simp [h], fun j hj => ?_⟩
    rw [Array.getElem?_setIfInBounds, if_neg (Ne.symm hj)]
  · intro h
    simp only [setElementAt, not_lt.mpr h, if_false]

example : 1 < (#[5, 7] : Array ℚ).size := by decide

/-- **C134, refuted for large indices.** The index is converted to `int` before it is compared
(`tensor/detail/numeric_sequence_n.hpp:100`). From 2^31 to 2^32 - 1, for example for `unsigned(-1)`, the check passes and memory
behind the array is read. -/
theorem C134_large_refuted {α : Type*} (a : Array α) (i : Nat) (ha : 1 ≤ a.size) (hb : a.size < 2 ^ 31) (h1 : 2 ^ 31 ≤ i)
    (h2 : i < 2 ^ 32) : elementAt a i = .error .outOfRange := by
  have hs : sizeToInt i < a.size := by
    norm_num at hb h1 h2
    unfold sizeToInt
    split_ifs <;> omega
  have hn : a[i]? = none := by
    rw [Array.getElem?_eq_none_iff]; omega
  simp only [elementAt, hs, if_true, hn]

example : (2 : Nat) ^ 31 ≤ 4294967295 ∧ 4294967295 < 2 ^ 32 := by norm_num

end Geometrix
