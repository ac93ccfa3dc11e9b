import Verif.Lemmas.Between

/-!
# C06: betweenness is membership of the segment
-/

set_option linter.unusedSectionVars false

namespace Geometrix

open Spec

variable {K : Type*} [Field K] [LinearOrder K] [IsStrictOrderedRing K]

/-- C06: for a non degenerate segment, `is_between` with bounds included is exactly membership of
the closed segment. -/
theorem C06_isBetween_closed (A B C : P2 K) (hAB : A ≠ B) :
    isBetween Cmp.direct A B C true = true ↔ OnSegment A B C :=
  isBetween_iff_onSegment hAB

/-- C06: with bounds excluded it is membership of the open segment. -/
theorem C06_isBetween_open (A B C : P2 K) (hAB : A ≠ B) :
    isBetween Cmp.direct A B C false = true ↔ InsideSegment A B C := by
  unfold isBetween
  rw [Bool.and_eq_true, collinear_iff_onLine hAB]
  constructor
  · rintro ⟨⟨t, rfl⟩, h⟩
    obtain ⟨h0, h1⟩ := (betweenCore_param hAB t).2.mp h
    exact ⟨t, h0, h1, rfl⟩
  · rintro ⟨t, h0, h1, rfl⟩
    exact ⟨⟨t, rfl⟩, (betweenCore_param hAB t).2.mpr ⟨h0, h1⟩⟩

example : (⟨0, 0⟩ : P2 ℚ) ≠ ⟨4, 2⟩ := by decide

/-- C06: `is_collinear_point_between` fails its assertion exactly for points off the line, and
otherwise answers whether the point is on the closed segment. -/
theorem C06_collinear_point_between (A B C : P2 K) (hAB : A ≠ B) :
    (¬ OnLine A B C → isCollinearPointBetween Cmp.direct A B C true = .error .assertFailed) ∧
    (OnLine A B C → ∃ b, isCollinearPointBetween Cmp.direct A B C true = .ok b ∧
      (b = true ↔ OnSegment A B C)) := by
  have h := collinear_iff_onLine (C := C) hAB
  constructor
  · intro hn
    have : isCollinear Cmp.direct A B C = false := by
      rw [← Bool.not_eq_true, h]; exact hn
    simp [isCollinearPointBetween, this]
  · intro hl
    have hc := h.mpr hl
    refine ⟨betweenCore Cmp.direct A B C true, by simp [isCollinearPointBetween, hc], ?_⟩
    have := C06_isBetween_closed A B C hAB
    rw [← this]; simp [isBetween, hc]

example : OnLine (⟨0, 0⟩ : P2 ℚ) ⟨4, 2⟩ ⟨2, 1⟩ :=
  ⟨1 / 2, by ext <;> norm_num⟩

/-- C06 is false for degenerate segments: with `A = B` only the ordinates are compared, so any
point of the horizontal line through `A` counts as being between `A` and `A`. -/
theorem C06_degenerate_refuted :
    ¬ ∀ A B C : P2 ℚ, (isBetween Cmp.direct A B C true = true ↔ OnSegment A B C) := by
  intro h
  have h1 := (h ⟨0, 0⟩ ⟨0, 0⟩ ⟨5, 0⟩).mp (by decide +kernel)
  obtain ⟨t, _, _, ht⟩ := h1
  have := congrArg P2.x ht
  simp at this

end Geometrix
