import Mathlib.Data.Rat.Floor
import Verif.Lemmas.Incircle
import Verif.Props.ExactPredicates

/-!
# C122: the adaptive test for circles
-/

set_option linter.unusedSectionVars false

namespace Geometrix

open Spec

variable {K : Type*} [Field K] [LinearOrder K] [IsStrictOrderedRing K] [FloorRing K]

/-- C122, if there is something to read behind the arrays: after `exactinit`, `incircle` returns a number that has the sign of
the exact determinant. Not proved for arrays that end where they are declared to end, because it is false. -/
theorem C122_sign_partial {p turns : Nat} (hp : 10 ≤ p) (ht : p ≤ turns) {c : ExactConsts K}
    (hc : exactInit (roundBits p) turns = .ok c) {A B C D : P2 K} (hA : FloatPoint p A) (hB : FloatPoint p B)
    (hC : FloatPoint p C) (hD : FloatPoint p D) :
    ∃ r, incircle (roundBits p) true c A B C D = .ok r ∧
      (0 < r ↔ 0 < circleDet A B C D) ∧ (r < 0 ↔ circleDet A B C D < 0) ∧ (r = 0 ↔ circleDet A B C D = 0) := by
  rw [exactInit_eq (by omega) ht, Except.ok.injEq] at hc
  subst hc
  obtain ⟨r, h1, h2⟩ := incircle_sign hp hA hB hC hD
  rw [circleForm_eq] at h2
  refine ⟨r, h1, ?_⟩
  rw [← sign_eq_one_iff, h2, sign_eq_one_iff, ← sign_eq_neg_one_iff, h2, sign_eq_neg_one_iff, ← sign_eq_zero_iff, h2,
    sign_eq_zero_iff]
  exact ⟨Iff.rfl, Iff.rfl, Iff.rfl⟩

/-- C122, if there is something to read behind the arrays: if `A`, `B` and `C` turn left, `incircle` returns a positive number
just if `D` lies inside the circle through them, zero just if it lies on the circle, and a negative number just if it lies
outside. -/
theorem C122_circle_partial {p turns : Nat} (hp : 10 ≤ p) (ht : p ≤ turns) {c : ExactConsts K}
    (hc : exactInit (roundBits p) turns = .ok c) {O A B C D : P2 K} (hA : FloatPoint p A) (hB : FloatPoint p B)
    (hC : FloatPoint p C) (hD : FloatPoint p D) (hO : Circumcentre O A B C) (hl : 0 < area2 A B C) :
    ∃ r, incircle (roundBits p) true c A B C D = .ok r ∧
      (0 < r ↔ sqDist D O < sqDist A O) ∧ (r < 0 ↔ sqDist A O < sqDist D O) ∧ (r = 0 ↔ sqDist D O = sqDist A O) := by
  obtain ⟨r, h1, h2, h3, h4⟩ := C122_sign_partial hp ht hc hA hB hC hD
  obtain ⟨k1, k2, k3⟩ := C120_circle (D := D) hO hl
  exact ⟨r, h1, h2.trans k1, h3.trans k3, h4.trans k2⟩

/-- Three points of the unit circle and one that is outside by next to nothing. -/
example : FloatPoint 53 (⟨1, 0⟩ : P2 ℚ) ∧ FloatPoint 53 (⟨0, 1⟩ : P2 ℚ) ∧ FloatPoint 53 (⟨-1, 0⟩ : P2 ℚ) ∧
    FloatPoint 53 (⟨1 / 2 ^ 60, -1⟩ : P2 ℚ) :=
  ⟨⟨⟨1, 0, by decide +kernel, by norm_num⟩, ⟨0, 0, by decide +kernel, by norm_num⟩⟩,
    ⟨⟨0, 0, by decide +kernel, by norm_num⟩, ⟨1, 0, by decide +kernel, by norm_num⟩⟩,
    ⟨⟨-1, 0, by decide +kernel, by norm_num⟩, ⟨0, 0, by decide +kernel, by norm_num⟩⟩,
    ⟨⟨1, -60, by decide +kernel, by norm_num⟩, ⟨-1, 0, by decide +kernel, by norm_num⟩⟩⟩

example : Circumcentre (⟨0, 0⟩ : P2 ℚ) ⟨1, 0⟩ ⟨0, 1⟩ ⟨-1, 0⟩ ∧ 0 < area2 (⟨1, 0⟩ : P2 ℚ) ⟨0, 1⟩ ⟨-1, 0⟩ := by
  unfold Circumcentre
  decide +kernel

/-- A point on the circle, one that is outside by next to nothing, for which `incirclefast` says that it is on the circle, and
one that is inside. -/
example : incircle (roundBits 53) true (exactConsts ℚ 53) ⟨1, 0⟩ ⟨0, 1⟩ ⟨-1, 0⟩ ⟨0, -1⟩ = .ok 0 ∧
    incircle (roundBits 53) true (exactConsts ℚ 53) ⟨1, 0⟩ ⟨0, 1⟩ ⟨-1, 0⟩ ⟨1 / 2 ^ 60, -1⟩ = .ok (-1 / 2 ^ 119) ∧
    incircleFast (roundBits 53 : ℚ → ℚ) ⟨1, 0⟩ ⟨0, 1⟩ ⟨-1, 0⟩ ⟨1 / 2 ^ 60, -1⟩ = 0 ∧
    incircle (roundBits 53) true (exactConsts ℚ 53) ⟨1, 0⟩ ⟨0, 1⟩ ⟨-1, 0⟩ ⟨1 / 2 ^ 60, -1 + 1 / 2 ^ 53⟩ = .ok (1 / 2 ^ 51) := by
  decide +kernel

/-- C122, full statement with arrays that end where they are declared to end: `incircle` returns for all points. It does not:
for four points that are nearly on one circle an element behind the end of an array of `incircleadapt` is read. -/
theorem C122_bounds_refuted : ¬ ∀ (c : ExactConsts ℚ) (A B C D : P2 ℚ), exactInit (roundBits 53) 53 = .ok c →
    FloatPoint 53 A → FloatPoint 53 B → FloatPoint 53 C → FloatPoint 53 D →
    ∃ d, incircle (roundBits 53) false c A B C D = .ok d := by
  intro h
  obtain ⟨d, hd⟩ := h (exactConsts ℚ 53) ⟨1, 0⟩ ⟨0, 1⟩ ⟨-1, 0⟩ ⟨1 / 2 ^ 60, -1⟩ (exactInit_eq (by norm_num) le_rfl)
    ⟨⟨1, 0, by decide +kernel, by norm_num⟩, ⟨0, 0, by decide +kernel, by norm_num⟩⟩
    ⟨⟨0, 0, by decide +kernel, by norm_num⟩, ⟨1, 0, by decide +kernel, by norm_num⟩⟩
    ⟨⟨-1, 0, by decide +kernel, by norm_num⟩, ⟨0, 0, by decide +kernel, by norm_num⟩⟩
    ⟨⟨1, -60, by decide +kernel, by norm_num⟩, ⟨-1, 0, by decide +kernel, by norm_num⟩⟩
  have hr : incircle (roundBits 53) false (exactConsts ℚ 53) ⟨1, 0⟩ ⟨0, 1⟩ ⟨-1, 0⟩ ⟨1 / 2 ^ 60, -1⟩ = .error .outOfRange := by
    decide +kernel
  rw [hr] at hd
  exact absurd hd (by simp)

/-- C122: even with such arrays what `incircle` returns is never wrong: if it returns, then what it returns has the sign of the
determinant. It is never zero. -/
theorem C122_returns {p turns : Nat} (hp : 10 ≤ p) (ht : p ≤ turns) {c : ExactConsts K}
    (hc : exactInit (roundBits p) turns = .ok c) {A B C D : P2 K} (hA : FloatPoint p A) (hB : FloatPoint p B)
    (hC : FloatPoint p C) (hD : FloatPoint p D) {r : K} (h : incircle (roundBits p) false c A B C D = .ok r) :
    (0 < r ↔ 0 < circleDet A B C D) ∧ (r < 0 ↔ circleDet A B C D < 0) ∧ r ≠ 0 := by
  obtain ⟨r', h1, h2, h3, -⟩ := C122_sign_partial hp ht hc hA hB hC hD
  rw [exactInit_eq (by omega) ht, Except.ok.injEq] at hc
  subst hc
  obtain ⟨g1, g2⟩ := incircle_no_slack (by simp only [exactConsts]; positivity) h
  rw [g1, Except.ok.injEq] at h1
  subst h1
  exact ⟨h2, h3, g2⟩

/-- The centre of the unit circle. -/
example : incircle (roundBits 53) false (exactConsts ℚ 53) ⟨1, 0⟩ ⟨0, 1⟩ ⟨-1, 0⟩ ⟨0, 0⟩ = .ok 2 := by decide +kernel

end Geometrix
