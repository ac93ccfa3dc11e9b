import Mathlib.Data.Rat.Floor
import Verif.Lemmas.InspherePredicate
import Verif.Props.ExactPredicates

/-!
# C126: the adaptive test for spheres
-/

set_option linter.unusedSectionVars false

namespace Geometrix

open Spec

variable {K : Type*} [Field K] [LinearOrder K] [IsStrictOrderedRing K] [FloorRing K]

/-- C126, if there is something to read behind the arrays: after `exactinit`, `insphere` returns a number. If the exact
determinant is not so small that it is lost in the second order of rounding, the number has its sign. It is zero only if the
determinant is. The full statement is that it always has the sign of the determinant. This is neither proved nor refuted: the
error bounds `isperrboundB` and `isperrboundC` are smaller than what one gets by counting roundings, and they are wrong only if
the errors of nearly all of these roundings are as large as they may be and point the same way. -/
theorem C126_sign_partial {p turns : Nat} (hp : 10 ≤ p) (ht : p ≤ turns) {c : ExactConsts K}
    (hc : exactInit (roundBits p) turns = .ok c) {A B C D E : P3 K} (hA : FloatPoint3 p A) (hB : FloatPoint3 p B)
    (hC : FloatPoint3 p C) (hD : FloatPoint3 p D) (hE : FloatPoint3 p E) :
    ∃ r, insphere (roundBits p) true c A B C D E = .ok r ∧ (r = 0 → sphereDet A B C D E = 0) ∧
      (20 * (1 / 2 ^ p) ^ 2 * sphereSize A B C D E < |sphereDet A B C D E| →
        (0 < r ↔ 0 < sphereDet A B C D E) ∧ (r < 0 ↔ sphereDet A B C D E < 0)) := by
  rw [exactInit_eq (by omega) ht, Except.ok.injEq] at hc
  subst hc
  obtain ⟨r, h1, h2, h3, -⟩ := insphere_sign hp hA hB hC hD hE
  refine ⟨r, h1, h3, fun hw => ?_⟩
  rw [← sign_eq_one_iff, h2 hw, sign_eq_one_iff, ← sign_eq_neg_one_iff, h2 hw, sign_eq_neg_one_iff]
  exact ⟨Iff.rfl, Iff.rfl⟩

/-- C126, if there is something to read behind the arrays: if the differences of the coordinates are floating point numbers,
the number that `insphere` returns has the sign of the exact determinant. -/
theorem C126_exact_differences {p turns : Nat} (hp : 10 ≤ p) (ht : p ≤ turns) {c : ExactConsts K}
    (hc : exactInit (roundBits p) turns = .ok c) {A B C D E : P3 K} (hA : FloatPoint3 p A) (hB : FloatPoint3 p B)
    (hC : FloatPoint3 p C) (hD : FloatPoint3 p D) (hE : FloatPoint3 p E) (dA : FloatPoint3 p (A - E))
    (dB : FloatPoint3 p (B - E)) (dC : FloatPoint3 p (C - E)) (dD : FloatPoint3 p (D - E)) :
    ∃ r, insphere (roundBits p) true c A B C D E = .ok r ∧ (0 < r ↔ 0 < sphereDet A B C D E) ∧
      (r < 0 ↔ sphereDet A B C D E < 0) ∧ (r = 0 ↔ sphereDet A B C D E = 0) := by
  rw [exactInit_eq (by omega) ht, Except.ok.injEq] at hc
  subst hc
  obtain ⟨r, h1, -, -, h2⟩ := insphere_sign hp hA hB hC hD hE
  have h2 := h2 dA dB dC dD
  refine ⟨r, h1, ?_⟩
  rw [← sign_eq_one_iff, h2, sign_eq_one_iff, ← sign_eq_neg_one_iff, h2, sign_eq_neg_one_iff, ← sign_eq_zero_iff, h2,
    sign_eq_zero_iff]
  exact ⟨Iff.rfl, Iff.rfl, Iff.rfl⟩

/-- The differences of the coordinates of points of the unit sphere. -/
example : FloatPoint3 53 ((⟨1, 0, 0⟩ : P3 ℚ) - ⟨0, 0, -1⟩) ∧ FloatPoint3 53 ((⟨0, 0, 1⟩ : P3 ℚ) - ⟨0, 0, -1⟩) :=
  ⟨⟨⟨1, 0, by decide +kernel, by decide +kernel⟩, ⟨0, 0, by decide +kernel, by decide +kernel⟩,
      ⟨1, 0, by decide +kernel, by decide +kernel⟩⟩,
    ⟨⟨0, 0, by decide +kernel, by decide +kernel⟩, ⟨0, 0, by decide +kernel, by decide +kernel⟩,
      ⟨2, 0, by decide +kernel, by decide +kernel⟩⟩⟩

/-- C126, if there is something to read behind the arrays: if the vectors from `D` to `A`, `B` and `C` have a positive
determinant, `insphere` returns zero only if `E` lies on the sphere through the four points. If `E` is not so close to this
sphere that the determinant is lost in the second order of rounding, `insphere` returns a positive number just if `E` lies
inside of the sphere, and a negative number just if it lies outside. -/
theorem C126_sphere_partial {p turns : Nat} (hp : 10 ≤ p) (ht : p ≤ turns) {c : ExactConsts K}
    (hc : exactInit (roundBits p) turns = .ok c) {O A B C D E : P3 K} (hA : FloatPoint3 p A) (hB : FloatPoint3 p B)
    (hC : FloatPoint3 p C) (hD : FloatPoint3 p D) (hE : FloatPoint3 p E) (hO : Circumcentre3 O A B C D)
    (hl : 0 < det3 (A - D) (B - D) (C - D)) :
    ∃ r, insphere (roundBits p) true c A B C D E = .ok r ∧ (r = 0 → sqDist3 E O = sqDist3 A O) ∧
      (20 * (1 / 2 ^ p) ^ 2 * sphereSize A B C D E < |sphereDet A B C D E| →
        (0 < r ↔ sqDist3 E O < sqDist3 A O) ∧ (r < 0 ↔ sqDist3 A O < sqDist3 E O)) := by
  obtain ⟨r, h1, h2, h3⟩ := C126_sign_partial hp ht hc hA hB hC hD hE
  obtain ⟨k1, k2, k3⟩ := C120_sphere (E := E) hO hl
  exact ⟨r, h1, fun h => k2.1 (h2 h), fun hw => ⟨(h3 hw).1.trans k1, (h3 hw).2.trans k3⟩⟩

/-- Four points of the unit sphere and one that is outside by next to nothing. -/
example : FloatPoint3 53 (⟨1, 0, 0⟩ : P3 ℚ) ∧ FloatPoint3 53 (⟨0, 1, 0⟩ : P3 ℚ) ∧ FloatPoint3 53 (⟨0, 0, 1⟩ : P3 ℚ) ∧
    FloatPoint3 53 (⟨-1, 0, 0⟩ : P3 ℚ) ∧ FloatPoint3 53 (⟨0, 1 / 2 ^ 45, -1⟩ : P3 ℚ) :=
  have h0 : IsFloat 53 (0 : ℚ) := ⟨0, 0, by decide +kernel, by norm_num⟩
  have h1 : IsFloat 53 (1 : ℚ) := ⟨1, 0, by decide +kernel, by norm_num⟩
  have h2 : IsFloat 53 (-1 : ℚ) := ⟨-1, 0, by decide +kernel, by norm_num⟩
  have h3 : IsFloat 53 (1 / 2 ^ 45 : ℚ) := ⟨1, -45, by decide +kernel, by norm_num⟩
  ⟨⟨h1, h0, h0⟩, ⟨h0, h1, h0⟩, ⟨h0, h0, h1⟩, ⟨h2, h0, h0⟩, ⟨h0, h3, h2⟩⟩

/-- The determinant is small, but not too small. For `inspherefast` it is zero. -/
example : Circumcentre3 (⟨0, 0, 0⟩ : P3 ℚ) ⟨1, 0, 0⟩ ⟨0, 1, 0⟩ ⟨0, 0, 1⟩ ⟨-1, 0, 0⟩ ∧
    0 < det3 ((⟨1, 0, 0⟩ : P3 ℚ) - ⟨-1, 0, 0⟩) ((⟨0, 1, 0⟩ : P3 ℚ) - ⟨-1, 0, 0⟩) ((⟨0, 0, 1⟩ : P3 ℚ) - ⟨-1, 0, 0⟩) ∧
    20 * (1 / 2 ^ 53) ^ 2 * sphereSize ⟨1, 0, 0⟩ ⟨0, 1, 0⟩ ⟨0, 0, 1⟩ ⟨-1, 0, 0⟩ (⟨0, 1 / 2 ^ 45, -1⟩ : P3 ℚ) <
      |sphereDet ⟨1, 0, 0⟩ ⟨0, 1, 0⟩ ⟨0, 0, 1⟩ ⟨-1, 0, 0⟩ (⟨0, 1 / 2 ^ 45, -1⟩ : P3 ℚ)| ∧
    insphereFast (roundBits 53 : ℚ → ℚ) ⟨1, 0, 0⟩ ⟨0, 1, 0⟩ ⟨0, 0, 1⟩ ⟨-1, 0, 0⟩ ⟨0, 1 / 2 ^ 45, -1⟩ = 0 := by
  unfold Circumcentre3
  decide +kernel

/-- A point on the sphere, two that are outside by next to nothing, and one that is inside. -/
example : insphere (roundBits 53) true (exactConsts ℚ 53) ⟨1, 0, 0⟩ ⟨0, 1, 0⟩ ⟨0, 0, 1⟩ ⟨-1, 0, 0⟩ ⟨0, 0, -1⟩ = .ok 0 ∧
    insphere (roundBits 53) true (exactConsts ℚ 53) ⟨1, 0, 0⟩ ⟨0, 1, 0⟩ ⟨0, 0, 1⟩ ⟨-1, 0, 0⟩ ⟨0, 1 / 2 ^ 45, -1⟩ =
      .ok (-1 / 2 ^ 89) ∧
    insphere (roundBits 53) true (exactConsts ℚ 53) ⟨1, 0, 0⟩ ⟨0, 1, 0⟩ ⟨0, 0, 1⟩ ⟨-1, 0, 0⟩ ⟨0, 1 / 2 ^ 60, -1⟩ =
      .ok (-1 / 2 ^ 119) ∧
    insphere (roundBits 53) true (exactConsts ℚ 53) ⟨1, 0, 0⟩ ⟨0, 1, 0⟩ ⟨0, 0, 1⟩ ⟨-1, 0, 0⟩ ⟨0, 0, 0⟩ = .ok 2 := by
  decide +kernel

/-- C126, full statement with arrays that end where they are declared to end: `insphere` returns for all points. It does not:
for five points that are on one sphere an element behind the end of an array of `insphereadapt` is read. -/
theorem C126_bounds_refuted : ¬ ∀ (c : ExactConsts ℚ) (A B C D E : P3 ℚ), exactInit (roundBits 53) 53 = .ok c →
    FloatPoint3 53 A → FloatPoint3 53 B → FloatPoint3 53 C → FloatPoint3 53 D → FloatPoint3 53 E →
    ∃ d, insphere (roundBits 53) false c A B C D E = .ok d := by
  intro h
  have h0 : IsFloat 53 (0 : ℚ) := ⟨0, 0, by decide +kernel, by norm_num⟩
  have h1 : IsFloat 53 (1 : ℚ) := ⟨1, 0, by decide +kernel, by norm_num⟩
  have h2 : IsFloat 53 (-1 : ℚ) := ⟨-1, 0, by decide +kernel, by norm_num⟩
  obtain ⟨d, hd⟩ := h (exactConsts ℚ 53) ⟨1, 0, 0⟩ ⟨0, 1, 0⟩ ⟨0, 0, 1⟩ ⟨-1, 0, 0⟩ ⟨0, 0, -1⟩ (exactInit_eq (by norm_num) le_rfl)
    ⟨h1, h0, h0⟩ ⟨h0, h1, h0⟩ ⟨h0, h0, h1⟩ ⟨h2, h0, h0⟩ ⟨h0, h0, h2⟩
  have hr : insphere (roundBits 53) false (exactConsts ℚ 53) ⟨1, 0, 0⟩ ⟨0, 1, 0⟩ ⟨0, 0, 1⟩ ⟨-1, 0, 0⟩ ⟨0, 0, -1⟩ =
      .error .outOfRange := by
    decide +kernel
  rw [hr] at hd
  exact absurd hd (by simp)

/-- C126: even with such arrays what `insphere` returns is never wrong: if it returns, then what it returns has the sign of the
determinant, however small this is. It is never zero. -/
theorem C126_returns {p turns : Nat} (hp : 10 ≤ p) (ht : p ≤ turns) {c : ExactConsts K}
    (hc : exactInit (roundBits p) turns = .ok c) {A B C D E : P3 K} {r : K}
    (h : insphere (roundBits p) false c A B C D E = .ok r) :
    (0 < r ↔ 0 < sphereDet A B C D E) ∧ (r < 0 ↔ sphereDet A B C D E < 0) ∧ r ≠ 0 := by
  rw [exactInit_eq (by omega) ht, Except.ok.injEq] at hc
  subst hc
  obtain ⟨g1, g2⟩ := insphere_no_slack hp h
  rw [← sign_eq_one_iff, g1, sign_eq_one_iff, ← sign_eq_neg_one_iff, g1, sign_eq_neg_one_iff]
  exact ⟨Iff.rfl, Iff.rfl, g2⟩

/-- The centre of the unit sphere. -/
example : insphere (roundBits 53) false (exactConsts ℚ 53) ⟨1, 0, 0⟩ ⟨0, 1, 0⟩ ⟨0, 0, 1⟩ ⟨-1, 0, 0⟩ ⟨0, 0, 0⟩ = .ok 2 := by
  decide +kernel

end Geometrix
