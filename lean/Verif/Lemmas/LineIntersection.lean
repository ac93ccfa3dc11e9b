import Verif.Lemmas.SegmentIntersection

/-!
# Helper lemmas for lines
-/

set_option linter.unusedSectionVars false

namespace Geometrix

open Spec

variable {K : Type*} [Field K] [LinearOrder K] [IsStrictOrderedRing K]

/-- Parallel lines with a common point coincide. -/
theorem parallel_lines {A B C D : P2 K} (hAB : A ≠ B) (hCD : C ≠ D) (hd : xDenom A B C D = 0) :
    (OnLine A B C ↔ ∃ Q, OnLine A B Q ∧ OnLine C D Q) ∧
    (OnLine A B C → ∀ Q, OnLine A B Q ↔ OnLine C D Q) := by
  have hv : B - A ≠ 0 := sub_ne_zero_P2 hAB
  have hcross : cross (B - A) (D - C) = 0 := by
    rw [xDenom_eq] at hd; linarith
  obtain ⟨k, hk⟩ := (cross_eq_zero_iff hv).mp hcross
  have hk0 : k ≠ 0 := by
    rintro rfl; apply sub_ne_zero_P2 hCD; rw [hk]; ext <;> simp
  refine ⟨⟨?_, ?_⟩, ?_⟩
  · intro h; exact ⟨C, h, ⟨0, by ext <;> simp⟩⟩
  · rintro ⟨Q, ⟨s, h1⟩, ⟨t, h2⟩⟩
    refine ⟨s - t * k, ?_⟩
    rw [h1, hk] at h2
    have hx := congrArg P2.x h2
    have hy := congrArg P2.y h2
    simp only [P2.add_x, P2.smul_x, P2.sub_x, P2.add_y, P2.smul_y, P2.sub_y] at hx hy
    ext
    · simp only [P2.add_x, P2.smul_x, P2.sub_x]; linear_combination -hx
    · simp only [P2.add_y, P2.smul_y, P2.sub_y]; linear_combination -hy
  · rintro ⟨c, hc⟩ Q
    unfold OnLine
    rw [hk, hc]
    constructor
    · rintro ⟨s, rfl⟩
      refine ⟨(s - c) / k, ?_⟩
      ext <;> simp <;> field_simp <;> ring
    · rintro ⟨s, rfl⟩
      refine ⟨c + s * k, ?_⟩
      ext <;> simp <;> ring

theorem not_parallel_of_denom {A B C D : P2 K} (hAB : A ≠ B) :
    xDenom A B C D ≠ 0 ↔ ¬ Parallel (B - A) (D - C) := by
  rw [parallel_iff_cross (sub_ne_zero_P2 hAB), xDenom_eq, neg_ne_zero]

theorem onSegment_start (A B : P2 K) : OnSegment A B A := ⟨0, le_rfl, zero_le_one, by ext <;> simp⟩

end Geometrix
