import Mathlib.Data.Rat.Floor
import Verif.Lemmas.Orient2d

/-!
# C118: the exact orientation predicate
-/

set_option linter.unusedSectionVars false

namespace Geometrix

open Spec

variable {K : Type*} [Field K] [LinearOrder K] [IsStrictOrderedRing K] [FloorRing K]

/-- C118, if there is something to read behind the arrays: after `exactinit`, `orient2d` returns a number that has the sign of
the exact determinant. So it is positive if the points make a left turn, negative if they make a right turn, and zero if and
only if they are collinear. Not proved for arrays that end where they are declared to end, because it is false. -/
theorem C118_sign_partial {p turns : Nat} (hp : 6 ≤ p) (ht : p ≤ turns) {c : ExactConsts K}
    (hc : exactInit (roundBits p) turns = .ok c) {A B C : P2 K} (hA : FloatPoint p A) (hB : FloatPoint p B)
    (hC : FloatPoint p C) :
    ∃ d, orient2d (roundBits p) true c A B C = .ok d ∧
      (0 < d ↔ 0 < (A.x - C.x) * (B.y - C.y) - (A.y - C.y) * (B.x - C.x)) ∧
      (d < 0 ↔ (A.x - C.x) * (B.y - C.y) - (A.y - C.y) * (B.x - C.x) < 0) ∧
      (d = 0 ↔ (A.x - C.x) * (B.y - C.y) - (A.y - C.y) * (B.x - C.x) = 0) := by
  rw [exactInit_eq hp ht, Except.ok.injEq] at hc
  subst hc
  obtain ⟨d, h1, h2⟩ := orient2d_sign hp hA.1 hA.2 hB.1 hB.2 hC.1 hC.2
  refine ⟨d, h1, ?_⟩
  unfold orientDet at h2
  rw [← sign_eq_one_iff, h2, sign_eq_one_iff, ← sign_eq_neg_one_iff, h2, sign_eq_neg_one_iff, ← sign_eq_zero_iff, h2,
    sign_eq_zero_iff]
  exact ⟨Iff.rfl, Iff.rfl, Iff.rfl⟩

/-- C118: the same for `orient2dexact`. Its value differs from the determinant by at most three quarters of itself. -/
theorem C118_exact_partial {p turns : Nat} (hp : 6 ≤ p) (ht : p ≤ turns) {c : ExactConsts K}
    (hc : exactInit (roundBits p) turns = .ok c) {A B C : P2 K} (hA : FloatPoint p A) (hB : FloatPoint p B)
    (hC : FloatPoint p C) :
    ∃ d, orient2dExact (roundBits p) true c A B C = .ok d ∧
      (0 < d ↔ 0 < (A.x - C.x) * (B.y - C.y) - (A.y - C.y) * (B.x - C.x)) ∧
      (d < 0 ↔ (A.x - C.x) * (B.y - C.y) - (A.y - C.y) * (B.x - C.x) < 0) ∧
      (d = 0 ↔ (A.x - C.x) * (B.y - C.y) - (A.y - C.y) * (B.x - C.x) = 0) ∧
      |(A.x - C.x) * (B.y - C.y) - (A.y - C.y) * (B.x - C.x) - d| ≤ 3 / 4 * |d| := by
  rw [exactInit_eq hp ht, Except.ok.injEq] at hc
  subst hc
  obtain ⟨d, h1, h3, h2⟩ := orient2dExact_sign hp hA.1 hA.2 hB.1 hB.2 hC.1 hC.2
  refine ⟨d, h1, ?_⟩
  unfold orientDet at h2 h3
  rw [← sign_eq_one_iff, h2, sign_eq_one_iff, ← sign_eq_neg_one_iff, h2, sign_eq_neg_one_iff, ← sign_eq_zero_iff, h2,
    sign_eq_zero_iff]
  exact ⟨Iff.rfl, Iff.rfl, Iff.rfl, h3⟩

/-- Three points on a line, for which the rounded differences are not exact. -/
example : FloatPoint 53 (⟨1, 1⟩ : P2 ℚ) ∧ FloatPoint 53 (⟨2, 2⟩ : P2 ℚ) ∧ FloatPoint 53 (⟨1 / 2 ^ 53, 1 / 2 ^ 53⟩ : P2 ℚ) :=
  ⟨⟨⟨1, 0, by decide +kernel, by norm_num⟩, ⟨1, 0, by decide +kernel, by norm_num⟩⟩,
    ⟨⟨1, 1, by decide +kernel, by norm_num⟩, ⟨1, 1, by decide +kernel, by norm_num⟩⟩,
    ⟨⟨1, -53, by decide +kernel, by norm_num⟩, ⟨1, -53, by decide +kernel, by norm_num⟩⟩⟩

/-- The next point above the line is to its left, though `orient2dfast` says right. -/
example : orient2d (roundBits 53) true (exactConsts ℚ 53) ⟨1, 1⟩ ⟨2, 2⟩ ⟨1 / 2 ^ 53, 1 / 2 ^ 53⟩ = .ok 0 ∧
    orient2d (roundBits 53) true (exactConsts ℚ 53) ⟨1, 1⟩ ⟨2, 2⟩ ⟨1 / 2 ^ 53, 1 / 2 ^ 53 + 1 / 2 ^ 105⟩ = .ok (1 / 2 ^ 105) ∧
    orient2dExact (roundBits 53) true (exactConsts ℚ 53) ⟨1, 1⟩ ⟨2, 2⟩ ⟨1 / 2 ^ 53, 1 / 2 ^ 53 + 1 / 2 ^ 105⟩ =
      .ok (1 / 2 ^ 105) ∧
    orient2dFast (roundBits 53 : ℚ → ℚ) ⟨1, 1⟩ ⟨2, 2⟩ ⟨1 / 2 ^ 53, 1 / 2 ^ 53 + 1 / 2 ^ 105⟩ = -1 / 2 ^ 52 := by decide +kernel

/-- C118, full statement with arrays that end where they are declared to end: `orient2d` returns for all points. It does not:
for `(1, 1)`, `(2, 2)` and `(2^-53, 2^-53)` an element behind the end of an array of `orient2dadapt` is read. -/
theorem C118_bounds_refuted : ¬ ∀ (c : ExactConsts ℚ) (A B C : P2 ℚ), exactInit (roundBits 53) 53 = .ok c →
    FloatPoint 53 A → FloatPoint 53 B → FloatPoint 53 C → ∃ d, orient2d (roundBits 53) false c A B C = .ok d := by
  intro h
  obtain ⟨d, hd⟩ := h (exactConsts ℚ 53) ⟨1, 1⟩ ⟨2, 2⟩ ⟨1 / 2 ^ 53, 1 / 2 ^ 53⟩ (exactInit_eq (by norm_num) le_rfl)
    ⟨⟨1, 0, by decide +kernel, by norm_num⟩, ⟨1, 0, by decide +kernel, by norm_num⟩⟩
    ⟨⟨1, 1, by decide +kernel, by norm_num⟩, ⟨1, 1, by decide +kernel, by norm_num⟩⟩
    ⟨⟨1, -53, by decide +kernel, by norm_num⟩, ⟨1, -53, by decide +kernel, by norm_num⟩⟩
  have hr : orient2d (roundBits 53) false (exactConsts ℚ 53) ⟨1, 1⟩ ⟨2, 2⟩ ⟨1 / 2 ^ 53, 1 / 2 ^ 53⟩ = .error .outOfRange := by
    decide +kernel
  rw [hr] at hd
  exact absurd hd (by simp)

/-- C118: even with such arrays what `orient2d` returns is never wrong: if it returns, then what it returns has the sign of the
determinant. -/
theorem C118_returns {p turns : Nat} (hp : 6 ≤ p) (ht : p ≤ turns) {c : ExactConsts K}
    (hc : exactInit (roundBits p) turns = .ok c) {A B C : P2 K} (hA : FloatPoint p A) (hB : FloatPoint p B)
    (hC : FloatPoint p C) {r : K} (h : orient2d (roundBits p) false c A B C = .ok r) :
    (0 < r ↔ 0 < (A.x - C.x) * (B.y - C.y) - (A.y - C.y) * (B.x - C.x)) ∧
      (r < 0 ↔ (A.x - C.x) * (B.y - C.y) - (A.y - C.y) * (B.x - C.x) < 0) ∧
      (r = 0 ↔ (A.x - C.x) * (B.y - C.y) - (A.y - C.y) * (B.x - C.x) = 0) := by
  obtain ⟨d, h1, h2⟩ := C118_sign_partial hp ht hc hA hB hC
  rw [orient2d_slack h, Except.ok.injEq] at h1
  rw [h1]
  exact h2

/-- C118: and with such arrays `orient2d` returns if the differences of the coordinates are floating point numbers, for example
for points whose coordinates are integers of less than `p` bits. -/
theorem C118_exact_differences {p turns : Nat} (hp : 6 ≤ p) (ht : p ≤ turns) {c : ExactConsts K}
    (hc : exactInit (roundBits p) turns = .ok c) {A B C : P2 K} (hA : FloatPoint p A) (hB : FloatPoint p B)
    (hC : FloatPoint p C) (hAC : FloatPoint p (A - C)) (hBC : FloatPoint p (B - C)) :
    ∃ r, orient2d (roundBits p) false c A B C = .ok r ∧
      (0 < r ↔ 0 < (A.x - C.x) * (B.y - C.y) - (A.y - C.y) * (B.x - C.x)) ∧
      (r < 0 ↔ (A.x - C.x) * (B.y - C.y) - (A.y - C.y) * (B.x - C.x) < 0) ∧
      (r = 0 ↔ (A.x - C.x) * (B.y - C.y) - (A.y - C.y) * (B.x - C.x) = 0) := by
  obtain ⟨r, hr⟩ := orient2d_exact_diff hp (c := c) hA.1 hA.2 hB.1 hB.2 hC.1 hC.2 hAC.1 hAC.2 hBC.1 hBC.2
  exact ⟨r, hr, C118_returns hp ht hc hA hB hC hr⟩

/-- Three points on a line, the first and the last far away from each other. -/
example : orient2d (roundBits 53) false (exactConsts ℚ 53) ⟨0, 0⟩ ⟨2 ^ 52, 2 ^ 52⟩ ⟨-2 ^ 52 + 1, -2 ^ 52 + 1⟩ = .ok 0 := by
  decide +kernel

/-- C118: with such arrays `orient2dexact` never returns without reading behind the end of one. -/
theorem C118_exact_bounds_refuted (fl : K → K) (c : ExactConsts K) (A B C : P2 K) :
    orient2dExact fl false c A B C = .error .outOfRange := by
  unfold orient2dExact
  simp only [fastExpansionSumZ, fastExpansionSum_no_slack]

/-- C118: what `orient2dfast` computes is off by at most a few units of rounding of the sizes of the two products. -/
theorem C118_fast {fl : K → K} {u : K} (hfl : RoundsWithin u fl) (hu : 0 ≤ u) (A B C : P2 K) :
    |orient2dFast fl A B C - ((A.x - C.x) * (B.y - C.y) - (A.y - C.y) * (B.x - C.x))| ≤
      ((1 + u) ^ 4 - 1) * (|(A.x - C.x) * (B.y - C.y)| + |(A.y - C.y) * (B.x - C.x)|) := by
  have prod : ∀ x y : K, |fl (fl x * fl y) - x * y| ≤ ((1 + u) ^ 3 - 1) * |x * y| := by
    intro x y
    have h1 := hfl.near x
    have h2 := hfl.near y
    have h3 := hfl.near (fl x * fl y)
    have hx : |fl x| ≤ (1 + u) * |x| := by
      have := abs_add_le (fl x - x) x
      rw [sub_add_cancel] at this
      linarith
    have hy : |fl y| ≤ (1 + u) * |y| := by
      have := abs_add_le (fl y - y) y
      rw [sub_add_cancel] at this
      linarith
    have h4 : |fl x * fl y| ≤ (1 + u) ^ 2 * |x * y| := by
      rw [abs_mul, abs_mul]
      calc |fl x| * |fl y| ≤ ((1 + u) * |x|) * ((1 + u) * |y|) := mul_le_mul hx hy (abs_nonneg _) (by positivity)
        _ = _ := by ring
    have h5 : |fl x * fl y - x * y| ≤ ((1 + u) ^ 2 - 1) * |x * y| := by
      have e : fl x * fl y - x * y = (fl x - x) * fl y + x * (fl y - y) := by ring
      rw [e]
      have a1 := abs_add_le ((fl x - x) * fl y) (x * (fl y - y))
      rw [abs_mul, abs_mul] at a1
      have a2 : |fl x - x| * |fl y| ≤ (u * |x|) * ((1 + u) * |y|) := mul_le_mul h1 hy (abs_nonneg _) (by positivity)
      have a3 : |x| * |fl y - y| ≤ |x| * (u * |y|) := mul_le_mul_of_nonneg_left h2 (abs_nonneg _)
      rw [abs_mul]
      linarith
    have a1 := abs_add_le (fl (fl x * fl y) - fl x * fl y) (fl x * fl y - x * y)
    rw [sub_add_sub_cancel] at a1
    have a2 := mul_le_mul_of_nonneg_left h4 hu
    linarith
  have p1 := prod (A.x - C.x) (B.y - C.y)
  have p2 := prod (A.y - C.y) (B.x - C.x)
  unfold orient2dFast
  simp only
  generalize fl (fl (A.x - C.x) * fl (B.y - C.y)) = q1 at *
  generalize fl (fl (A.y - C.y) * fl (B.x - C.x)) = q2 at *
  generalize (A.x - C.x) * (B.y - C.y) = X at *
  generalize (A.y - C.y) * (B.x - C.x) = Y at *
  have h := hfl.near (q1 - q2)
  have a0 : |(q1 - q2) - (X - Y)| ≤ ((1 + u) ^ 3 - 1) * (|X| + |Y|) := by
    have := abs_sub (q1 - X) (q2 - Y)
    rw [show q1 - X - (q2 - Y) = q1 - q2 - (X - Y) by ring] at this
    linarith
  have a1 := abs_add_le (fl (q1 - q2) - (q1 - q2)) (q1 - q2 - (X - Y))
  rw [sub_add_sub_cancel] at a1
  have a2 : |q1 - q2| ≤ (1 + u) ^ 3 * (|X| + |Y|) := by
    have b1 := abs_add_le (q1 - q2 - (X - Y)) (X - Y)
    rw [sub_add_cancel] at b1
    have b2 := abs_sub X Y
    linarith
  have a3 := mul_le_mul_of_nonneg_left a2 hu
  linarith

example : RoundsWithin (1 / 2 ^ 53 : ℚ) (roundBits 53) := roundBits_rounds (by norm_num)

end Geometrix
