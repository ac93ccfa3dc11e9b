import Verif.Model.LineCoordinate
import Mathlib.Tactic.FieldSimp
import Mathlib.Tactic.Ring
import Mathlib.Tactic.Linarith
import Mathlib.Tactic.LinearCombination
import Mathlib.Tactic.NormNum

/-!
# C108: the line through two points: one coordinate from the other
-/

set_option linter.unusedSectionVars false

namespace Geometrix

variable {K : Type*} [Field K] [LinearOrder K] [IsStrictOrderedRing K]

/-- C108: the point with the given abscissa on the line through two points that is not vertical: the result is the only
ordinate for which the point is on the line; on a vertical line there is a division by zero. -/
theorem C108_y_of_x (s e : P2 K) (x : K) :
    (s.x ≠ e.x → ∃ y m, yOfX s e x = .ok (y, m) ∧ getSlope s e = .ok m ∧ m * (e.x - s.x) = e.y - s.y ∧
      ∀ y', (x - s.x) * (e.y - s.y) = (y' - s.y) * (e.x - s.x) ↔ y' = y) ∧
    (s.x = e.x → yOfX s e x = .error .divByZero) := by
  constructor
  · intro h
    have hne : e.x - s.x ≠ 0 := fun h0 => h (by linarith)
    refine ⟨(x - s.x) * ((e.y - s.y) / (e.x - s.x)) + s.y, (e.y - s.y) / (e.x - s.x), ?_, ?_, ?_, fun y' => ?_⟩
    · simp [yOfX, cdiv, hne]
    · simp [getSlope, cdiv, hne]
    · field_simp
    · rw [mul_div_assoc', div_add' _ _ _ hne, eq_div_iff hne]
      constructor <;> intro h1 <;> linear_combination -h1
  · intro h
    simp [yOfX, cdiv, h]

example : yOfX (⟨1, 2⟩ : P2 ℚ) ⟨3, 8⟩ 2 = .ok (5, 3) ∧ getSlope (⟨1, 2⟩ : P2 ℚ) ⟨3, 8⟩ = .ok 3 := by decide +kernel

/-- C108: the point with the given ordinate on the line through two points that is neither vertical nor horizontal. The
full statement is for every line that is not horizontal. Missing: vertical lines. -/
theorem C108_x_of_y_partial (s e : P2 K) (y : K) (hx : s.x ≠ e.x) (hy : s.y ≠ e.y) :
    ∃ x m, xOfY s e y = .ok (x, m) ∧ getSlope s e = .ok m ∧
      ∀ x', (x' - s.x) * (e.y - s.y) = (y - s.y) * (e.x - s.x) ↔ x' = x := by
  have hx' : e.x - s.x ≠ 0 := fun h0 => hx (by linarith)
  have hy' : e.y - s.y ≠ 0 := fun h0 => hy (by linarith)
  refine ⟨(y - s.y) / ((e.y - s.y) / (e.x - s.x)) + s.x, (e.y - s.y) / (e.x - s.x), ?_, ?_, fun x' => ?_⟩
  · simp [xOfY, cdiv, hx', hy']
  · simp [getSlope, cdiv, hx']
  · rw [div_div_eq_mul_div, div_add' _ _ _ hy', eq_div_iff hy']
    constructor <;> intro h1 <;> linear_combination h1

example : xOfY (⟨1, 2⟩ : P2 ℚ) ⟨3, 8⟩ 5 = .ok (2, 3) := by decide +kernel

/-- C108, disagreement: on a vertical line, where the abscissa is known, there is a division by zero, for every
ordinate. -/
theorem C108_vertical_refuted (s e : P2 K) (y : K) (hx : s.x = e.x) : xOfY s e y = .error .divByZero := by
  simp [xOfY, cdiv, hx]

/-- C108: on a horizontal line, where the abscissa is not determined, there is a division by zero. -/
theorem C108_horizontal (s e : P2 K) (y : K) (hy : s.y = e.y) : xOfY s e y = .error .divByZero := by
  by_cases hx : e.x - s.x = 0
  · simp [xOfY, cdiv, hx]
  · simp [xOfY, cdiv, hx, hy]

example : xOfY (⟨1, 2⟩ : P2 ℚ) ⟨1, 8⟩ 5 = .error .divByZero := by decide +kernel

/-- C108, disagreement: for integer coordinates the slope is rounded: the line from (0, 0) to (2, 3) is taken to have the
slope one, so that the point with the ordinate 3 has the abscissa 3; on the line from (0, 0) to (2, 5) the point with the
ordinate 7 has the abscissa 3; and a line that rises less steeply than the diagonal leads to a division by zero. -/
theorem C108_integer_refuted : xOfYInt ⟨0, 0⟩ ⟨2, 3⟩ 3 = .ok 3 ∧ xOfYInt ⟨0, 0⟩ ⟨2, 5⟩ 7 = .ok 3 ∧
    xOfYInt ⟨0, 0⟩ ⟨3, 2⟩ 2 = .error .divByZero := by
  decide

/-- C108: with rational numbers the ordinate is exact also for integer coordinates; a vertical line leads to an
exception. -/
theorem C108_rational_y_of_x (s e : PZ) (x : ℤ) :
    (s.x ≠ e.x → ∃ y m, rationalYOfX s e x = .ok (y, m) ∧ m * ((e.x : ℚ) - s.x) = e.y - s.y ∧
      ∀ y' : ℚ, ((x : ℚ) - s.x) * (e.y - s.y) = (y' - s.y) * (e.x - s.x) ↔ y' = y) ∧
    (s.x = e.x → rationalYOfX s e x = .error .thrown) := by
  constructor
  · intro h
    have hz : e.x - s.x ≠ 0 := fun h0 => h (by linarith)
    have hq : (e.x : ℚ) - s.x ≠ 0 := by exact_mod_cast hz
    refine ⟨_, _, by simp only [rationalYOfX, makeRational, if_neg hz]; rfl, ?_, fun y' => ?_⟩
    · push_cast; field_simp
    · push_cast
      rw [div_mul_eq_mul_div, div_add' _ _ _ hq, eq_div_iff hq]
      constructor <;> intro h1 <;> linear_combination -h1
  · intro h
    simp [rationalYOfX, makeRational, h]

example : rationalYOfX ⟨0, 0⟩ ⟨3, 2⟩ 1 = .ok (2 / 3, 2 / 3) := by decide +kernel

/-- C108: with rational numbers the abscissa is exact also for integer coordinates, on a line that is neither vertical
nor horizontal. The full statement is for every line that is not horizontal. Missing: vertical lines, which lead to an
exception. -/
theorem C108_rational_x_of_y_partial (s e : PZ) (y : ℤ) (hx : s.x ≠ e.x) (hy : s.y ≠ e.y) :
    ∃ x m, rationalXOfY s e y = .ok (x, m) ∧
      ∀ x' : ℚ, (x' - s.x) * (e.y - s.y) = ((y : ℚ) - s.y) * (e.x - s.x) ↔ x' = x := by
  have hx' : e.x - s.x ≠ 0 := fun h0 => hx (by linarith)
  have hy' : e.y - s.y ≠ 0 := fun h0 => hy (by linarith)
  have hqx : (e.x : ℚ) - s.x ≠ 0 := by exact_mod_cast hx'
  have hqy : (e.y : ℚ) - s.y ≠ 0 := by exact_mod_cast hy'
  have hm : (((e.y - s.y : ℤ) : ℚ) / ((e.x - s.x : ℤ) : ℚ)) ≠ 0 := by
    push_cast; exact div_ne_zero hqy hqx
  refine ⟨_, _, by simp only [rationalXOfY, makeRational, if_neg hx', if_neg hm]; rfl, fun x' => ?_⟩
  push_cast
  rw [div_div_eq_mul_div, div_add' _ _ _ hqy, eq_div_iff hqy]
  constructor <;> intro h1 <;> linear_combination h1

/-- C108: with rational numbers the abscissa for a line that is vertical or horizontal is an exception. -/
theorem C108_rational_throws (s e : PZ) (y : ℤ) (h : s.x = e.x ∨ s.y = e.y) :
    rationalXOfY s e y = .error .thrown := by
  by_cases hx : e.x - s.x = 0
  · simp [rationalXOfY, makeRational, hx]
  · have hy : s.y = e.y := h.resolve_left fun h => hx (by rw [h, sub_self])
    simp [rationalXOfY, makeRational, hx, hy]

example : rationalXOfY ⟨0, 0⟩ ⟨2, 3⟩ 1 = .ok (2 / 3, 3 / 2) := by decide +kernel

end Geometrix
