import Mathlib.Data.Rat.Floor
import Verif.Lemmas.Orient3d

/-!
# C121: the adaptive orientation predicate in space
-/

set_option linter.unusedSectionVars false

namespace Geometrix

open Spec

variable {K : Type*} [Field K] [LinearOrder K] [IsStrictOrderedRing K] [FloorRing K]

/-- C121, if there is something to read behind the arrays: after `exactinit`, `orient3d` returns a number that has the sign of
the exact determinant of the differences to the last point. So it is zero if and only if the four points are in one plane.
Not proved for arrays that end where they are declared to end, because it is false. -/
theorem C121_sign_partial {p turns : Nat} (hp : 10 ≤ p) (ht : p ≤ turns) {c : ExactConsts K}
    (hc : exactInit (roundBits p) turns = .ok c) {A B C D : P3 K} (hA : FloatPoint3 p A) (hB : FloatPoint3 p B)
    (hC : FloatPoint3 p C) (hD : FloatPoint3 p D) :
    ∃ r, orient3d (roundBits p) true c A B C D = .ok r ∧
      (0 < r ↔ 0 < det3 (A - D) (B - D) (C - D)) ∧ (r < 0 ↔ det3 (A - D) (B - D) (C - D) < 0) ∧
      (r = 0 ↔ det3 (A - D) (B - D) (C - D) = 0) := by
  rw [exactInit_eq (by omega) ht, Except.ok.injEq] at hc
  subst hc
  obtain ⟨r, h1, h2⟩ := orient3d_sign hp hA hB hC hD
  refine ⟨r, h1, ?_⟩
  rw [← sign_eq_one_iff, h2, sign_eq_one_iff, ← sign_eq_neg_one_iff, h2, sign_eq_neg_one_iff, ← sign_eq_zero_iff, h2,
    sign_eq_zero_iff]
  exact ⟨Iff.rfl, Iff.rfl, Iff.rfl⟩

/-- Four points that are not in one plane, though `orient3dfast` says that they are; the rounded differences are not exact. -/
example : FloatPoint3 53 (⟨1, 0, 1⟩ : P3 ℚ) ∧ FloatPoint3 53 (⟨0, 1, -1⟩ : P3 ℚ) ∧
    FloatPoint3 53 (⟨0, 0, 1 / 2 ^ 60⟩ : P3 ℚ) ∧ FloatPoint3 53 (⟨1, 1, 0⟩ : P3 ℚ) :=
  ⟨⟨⟨1, 0, by decide +kernel, by norm_num⟩, ⟨0, 0, by decide +kernel, by norm_num⟩, ⟨1, 0, by decide +kernel, by norm_num⟩⟩,
    ⟨⟨0, 0, by decide +kernel, by norm_num⟩, ⟨1, 0, by decide +kernel, by norm_num⟩, ⟨-1, 0, by decide +kernel, by norm_num⟩⟩,
    ⟨⟨0, 0, by decide +kernel, by norm_num⟩, ⟨0, 0, by decide +kernel, by norm_num⟩, ⟨1, -60, by decide +kernel, by norm_num⟩⟩,
    ⟨⟨1, 0, by decide +kernel, by norm_num⟩, ⟨1, 0, by decide +kernel, by norm_num⟩, ⟨0, 0, by decide +kernel, by norm_num⟩⟩⟩

/-- The same points; the same with one coordinate changed, so that differences have to be rounded; and four points in one
plane. -/
example : orient3d (roundBits 53) true (exactConsts ℚ 53) ⟨1, 0, 1⟩ ⟨0, 1, -1⟩ ⟨0, 0, 1 / 2 ^ 60⟩ ⟨1, 1, 0⟩ =
      .ok (-1 / 2 ^ 60) ∧
    orient3d (roundBits 53) true (exactConsts ℚ 53) ⟨1, 0, 1⟩ ⟨0, 1, -1⟩ ⟨0, 0, 1 / 2 ^ 60⟩ ⟨1, 1, 1 / 2 ^ 60⟩ =
      .ok (-1 / 2 ^ 59) ∧
    orient3d (roundBits 53) true (exactConsts ℚ 53) ⟨1, 0, 1⟩ ⟨0, 1, -1⟩ ⟨0, 0, 1 / 2 ^ 60⟩ ⟨1, 1, -1 / 2 ^ 60⟩ = .ok 0 ∧
    orient3dFast (roundBits 53 : ℚ → ℚ) ⟨1, 0, 1⟩ ⟨0, 1, -1⟩ ⟨0, 0, 1 / 2 ^ 60⟩ ⟨1, 1, 0⟩ = 0 := by decide +kernel

/-- C121, full statement with arrays that end where they are declared to end: `orient3d` returns for all points. It does not:
for four points that are nearly in one plane an element behind the end of an array of `orient3dadapt` is read. -/
theorem C121_bounds_refuted : ¬ ∀ (c : ExactConsts ℚ) (A B C D : P3 ℚ), exactInit (roundBits 53) 53 = .ok c →
    FloatPoint3 53 A → FloatPoint3 53 B → FloatPoint3 53 C → FloatPoint3 53 D →
    ∃ d, orient3d (roundBits 53) false c A B C D = .ok d := by
  intro h
  obtain ⟨d, hd⟩ := h (exactConsts ℚ 53) ⟨1, 0, 1⟩ ⟨0, 1, -1⟩ ⟨0, 0, 1 / 2 ^ 60⟩ ⟨1, 1, 0⟩
    (exactInit_eq (by norm_num) le_rfl)
    ⟨⟨1, 0, by decide +kernel, by norm_num⟩, ⟨0, 0, by decide +kernel, by norm_num⟩, ⟨1, 0, by decide +kernel, by norm_num⟩⟩
    ⟨⟨0, 0, by decide +kernel, by norm_num⟩, ⟨1, 0, by decide +kernel, by norm_num⟩, ⟨-1, 0, by decide +kernel, by norm_num⟩⟩
    ⟨⟨0, 0, by decide +kernel, by norm_num⟩, ⟨0, 0, by decide +kernel, by norm_num⟩, ⟨1, -60, by decide +kernel, by norm_num⟩⟩
    ⟨⟨1, 0, by decide +kernel, by norm_num⟩, ⟨1, 0, by decide +kernel, by norm_num⟩, ⟨0, 0, by decide +kernel, by norm_num⟩⟩
  have hr : orient3d (roundBits 53) false (exactConsts ℚ 53) ⟨1, 0, 1⟩ ⟨0, 1, -1⟩ ⟨0, 0, 1 / 2 ^ 60⟩ ⟨1, 1, 0⟩ =
      .error .outOfRange := by decide +kernel
  rw [hr] at hd
  exact absurd hd (by simp)

/-- C121: even with such arrays what `orient3d` returns is never wrong: if it returns, then what it returns has the sign of the
determinant. It is never zero. -/
theorem C121_returns {p turns : Nat} (hp : 10 ≤ p) (ht : p ≤ turns) {c : ExactConsts K}
    (hc : exactInit (roundBits p) turns = .ok c) {A B C D : P3 K} (hA : FloatPoint3 p A) (hB : FloatPoint3 p B)
    (hC : FloatPoint3 p C) (hD : FloatPoint3 p D) {r : K} (h : orient3d (roundBits p) false c A B C D = .ok r) :
    (0 < r ↔ 0 < det3 (A - D) (B - D) (C - D)) ∧ (r < 0 ↔ det3 (A - D) (B - D) (C - D) < 0) ∧ r ≠ 0 := by
  obtain ⟨r', h1, h2, h3, -⟩ := C121_sign_partial hp ht hc hA hB hC hD
  rw [exactInit_eq (by omega) ht, Except.ok.injEq] at hc
  subst hc
  obtain ⟨g1, g2⟩ := orient3d_no_slack (by simp only [exactConsts]; positivity) h
  rw [g1, Except.ok.injEq] at h1
  subst h1
  exact ⟨h2, h3, g2⟩

/-- Four points that are clearly not in one plane. -/
example : orient3d (roundBits 53) false (exactConsts ℚ 53) ⟨1, 0, 1⟩ ⟨0, 1, -1⟩ ⟨0, 0, 1 / 4⟩ ⟨1, 1, 0⟩ = .ok (-1 / 4) := by
  decide +kernel

end Geometrix
