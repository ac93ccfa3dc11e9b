import Verif.Lemmas.Line

/-!
# C58: distance of a point from a line
-/

set_option linter.unusedSectionVars false

namespace Geometrix

open Spec

/-- The line through two different points is constructed, and `point_line_distance` is the least
distance of the point from the points of the line. -/
theorem C58_point_line_distance (a b p : P2 ℝ) (h : a ≠ b) :
    ∃ l, makeLine a b = .ok l ∧ IsLineDistance a b p (pointLineDist p l) :=
  ⟨_, makeLine_ok h, lineDistance_spec h (makeLine_ok h) p⟩

/-- The signed distance is positive to the left of the direction from `a` to `b`, negative to the right
and zero on the line, and its absolute value is the distance. -/
theorem C58_signed (a b p : P2 ℝ) (h : a ≠ b) :
    ∃ l, makeLine a b = .ok l ∧ (0 < signedPointLineDist p l ↔ 0 < area2 a b p) ∧
      (signedPointLineDist p l < 0 ↔ area2 a b p < 0) ∧
      |signedPointLineDist p l| = pointLineDist p l := by
  have hd : 0 < Spec.dist a b :=
    lt_of_le_of_ne (dist_nonneg' a b) (fun h' => h (dist_eq_zero'.mp h'.symm))
  refine ⟨_, makeLine_ok h, ?_, ?_, rfl⟩
  · rw [signedDist_eq h (makeLine_ok h), div_pos_iff_of_pos_right hd]
  · rw [signedDist_eq h (makeLine_ok h), div_neg_iff]
    constructor
    · rintro (⟨_, h2⟩ | ⟨h1, _⟩)
      · linarith
      · exact h1
    · intro h1; exact Or.inr ⟨h1, hd⟩

example : (⟨0, 0⟩ : P2 ℝ) ≠ ⟨3, 4⟩ := by simp [P2.ext_iff]

/-- A line through twice the same point fails an assertion. -/
theorem C58_degenerate (a : P2 ℝ) : makeLine a a = .error .assertFailed := makeLine_same a

end Geometrix
