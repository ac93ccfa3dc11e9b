import Verif.Lemmas.Vec

/-!
# Helpers for Orientation.lean
-/

set_option linter.unusedSectionVars false

namespace Geometrix

open Spec

variable {K : Type*} [Field K] [LinearOrder K] [IsStrictOrderedRing K]

theorem orientation_sign (A B C : P2 K) :
    (getOrientation Cmp.direct A B C = .left ↔ 0 < area2 A B C) ∧
    (getOrientation Cmp.direct A B C = .right ↔ area2 A B C < 0) ∧
    (getOrientation Cmp.direct A B C = .collinear ↔ area2 A B C = 0) := by
  simp only [getOrientation, getOrientationV, orientationOf, direct_lt, direct_gt, P2.sub_x,
    P2.sub_y, area2]
  generalize (B.x - A.x) * (C.y - A.y) = a
  generalize (B.y - A.y) * (C.x - A.x) = b
  rcases lt_trichotomy a b with h | h | h
  · refine ⟨?_, ?_, ?_⟩ <;> simp [h, h.le, sub_eq_zero, h.ne]
  · refine ⟨?_, ?_, ?_⟩ <;> simp [h]
  · refine ⟨?_, ?_, ?_⟩ <;> simp [h, h.not_gt, sub_eq_zero, h.ne']

theorem orientation_eq_of_sign {A B C A' B' C' : P2 K}
    (h1 : 0 < area2 A B C ↔ 0 < area2 A' B' C') (h2 : area2 A B C < 0 ↔ area2 A' B' C' < 0) :
    getOrientation Cmp.direct A B C = getOrientation Cmp.direct A' B' C' := by
  have h := orientation_sign A B C
  have h' := orientation_sign A' B' C'
  cases ho : getOrientation Cmp.direct A B C
  · exact (h'.2.1.mpr (h2.mp (h.2.1.mp ho))).symm
  · symm
    rw [h'.2.2]
    have h0 := h.2.2.mp ho
    rcases lt_trichotomy (area2 A' B' C') 0 with hh | hh | hh
    · have := h2.mpr hh; linarith
    · exact hh
    · have := h1.mpr hh; linarith
  · exact (h'.1.mpr (h1.mp (h.1.mp ho))).symm

end Geometrix
