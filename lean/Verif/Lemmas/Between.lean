import Verif.Lemmas.Vec

/-!
# Helpers for Between.lean
-/

set_option linter.unusedSectionVars false

namespace Geometrix

open Spec

variable {K : Type*} [Field K] [LinearOrder K] [IsStrictOrderedRing K]

theorem scaled_between_closed {a b c t : K} (hab : a ≠ b) (hc : c = a + t * (b - a)) :
    ((a ≤ c ∧ c ≤ b) ∨ (c ≤ a ∧ b ≤ c)) ↔ (0 ≤ t ∧ t ≤ 1) := by
  subst hc
  rcases lt_or_gt_of_ne hab with h | h
  · have hd : 0 < b - a := by linarith
    constructor
    · rintro (⟨h1, h2⟩ | ⟨h1, h2⟩)
      · constructor
        · by_contra hn; push Not at hn; nlinarith
        · by_contra hn; push Not at hn; nlinarith
      · exfalso; linarith
    · rintro ⟨h1, h2⟩
      left; constructor <;> nlinarith
  · have hd : 0 < a - b := by linarith
    constructor
    · rintro (⟨h1, h2⟩ | ⟨h1, h2⟩)
      · exfalso; linarith
      · constructor
        · by_contra hn; push Not at hn; nlinarith
        · by_contra hn; push Not at hn; nlinarith
    · rintro ⟨h1, h2⟩
      right; constructor <;> nlinarith

theorem scaled_between_open {a b c t : K} (hab : a ≠ b) (hc : c = a + t * (b - a)) :
    ((a < c ∧ c < b) ∨ (c < a ∧ b < c)) ↔ (0 < t ∧ t < 1) := by
  subst hc
  rcases lt_or_gt_of_ne hab with h | h
  · have hd : 0 < b - a := by linarith
    constructor
    · rintro (⟨h1, h2⟩ | ⟨h1, h2⟩)
      · constructor
        · by_contra hn; push Not at hn; nlinarith
        · by_contra hn; push Not at hn; nlinarith
      · exfalso; linarith
    · rintro ⟨h1, h2⟩
      left; constructor <;> nlinarith
  · have hd : 0 < a - b := by linarith
    constructor
    · rintro (⟨h1, h2⟩ | ⟨h1, h2⟩)
      · exfalso; linarith
      · constructor
        · by_contra hn; push Not at hn; nlinarith
        · by_contra hn; push Not at hn; nlinarith
    · rintro ⟨h1, h2⟩
      right; constructor <;> nlinarith

theorem param_unique {A B : P2 K} (hAB : A ≠ B) {s t : K}
    (h : A + s • (B - A) = A + t • (B - A)) : s = t := by
  have hx := congrArg P2.x h
  have hy := congrArg P2.y h
  simp only [P2.add_x, P2.add_y, P2.smul_x, P2.smul_y, P2.sub_x, P2.sub_y] at hx hy
  have : A.x ≠ B.x ∨ A.y ≠ B.y := by
    by_contra hn; push Not at hn; exact hAB (P2.ext hn.1 hn.2)
  rcases this with h1 | h1
  · have : (s - t) * (B.x - A.x) = 0 := by linear_combination hx
    rcases mul_eq_zero.mp this with h2 | h2
    · linarith
    · exact absurd (by linarith) h1
  · have : (s - t) * (B.y - A.y) = 0 := by linear_combination hy
    rcases mul_eq_zero.mp this with h2 | h2
    · linarith
    · exact absurd (by linarith) h1

theorem collinear_iff_onLine {A B C : P2 K} (hAB : A ≠ B) :
    isCollinear Cmp.direct A B C = true ↔ OnLine A B C := by
  unfold isCollinear OnLine
  rw [direct_equals, cross_eq_zero_iff (sub_ne_zero_P2 hAB)]
  constructor
  · rintro ⟨r, hr⟩
    refine ⟨r, ?_⟩
    rw [← hr]; ext <;> simp
  · rintro ⟨r, rfl⟩
    exact ⟨r, by ext <;> simp⟩

/-- The body of the test, for a point known to be `A + t (B - A)`. -/
theorem betweenCore_param {A B : P2 K} (hAB : A ≠ B) (t : K) :
    (betweenCore Cmp.direct A B (A + t • (B - A)) true = true ↔ (0 ≤ t ∧ t ≤ 1)) ∧
    (betweenCore Cmp.direct A B (A + t • (B - A)) false = true ↔ (0 < t ∧ t < 1)) := by
  unfold betweenCore
  by_cases hx : A.x = B.x
  · have hy : A.y ≠ B.y := fun h => hAB (P2.ext hx h)
    simp only [Bool.not_eq_true', direct_equals_f, hx, ne_eq, not_true_eq_false, if_false,
      if_true, Bool.or_eq_true, Bool.and_eq_true, direct_le, direct_ge, direct_lt, direct_gt,
      Bool.false_eq_true]
    exact ⟨scaled_between_closed hy (by simp), scaled_between_open hy (by simp)⟩
  · simp only [Bool.not_eq_true', direct_equals_f, ne_eq, hx, not_false_eq_true, if_false,
      if_true, Bool.or_eq_true, Bool.and_eq_true, direct_le, direct_ge, direct_lt, direct_gt,
      Bool.false_eq_true]
    exact ⟨scaled_between_closed hx (by simp), scaled_between_open hx (by simp)⟩

theorem isBetween_iff_onSegment {A B C : P2 K} (hAB : A ≠ B) :
    isBetween Cmp.direct A B C true = true ↔ OnSegment A B C := by
  unfold isBetween
  rw [Bool.and_eq_true, collinear_iff_onLine hAB]
  constructor
  · rintro ⟨⟨t, rfl⟩, h⟩
    obtain ⟨h0, h1⟩ := (betweenCore_param hAB t).1.mp h
    exact ⟨t, h0, h1, rfl⟩
  · rintro ⟨t, h0, h1, rfl⟩
    exact ⟨⟨t, rfl⟩, (betweenCore_param hAB t).1.mpr ⟨h0, h1⟩⟩

end Geometrix
