import Verif.Lemmas.SolidBsp
import Verif.Lemmas.MovingSphereSegment

/-!
# The hyperplane of a segment over the reals
-/

set_option linter.unusedSectionVars false

namespace Geometrix
open Spec

theorem makeHyperplane_spec {a b : P2 ℝ} (h : a ≠ b) : ∃ pl, makeHyperplane a b = .ok pl ∧ NormalForm a b pl.n pl.d := by
  obtain ⟨D, w, hD, hw, rfl, he⟩ := seg_frame h
  refine ⟨⟨leftNormal w, dot a (leftNormal w)⟩, by unfold makeHyperplane; rw [he], D, hD, ?_, ?_, ?_, ?_⟩
  · simp only [dot] at hw
    simp only [sqDist, P2.add_x, P2.add_y, P2.smul_x, P2.smul_y]
    linear_combination (-D ^ 2) * hw
  · simp only [leftNormal, P2.add_y, P2.smul_y]; ring
  · simp only [leftNormal, P2.add_x, P2.smul_x]; ring
  · simp only [dot]; ring

end Geometrix
