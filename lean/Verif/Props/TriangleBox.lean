import Verif.Lemmas.TriangleBox

/-!
# C89: the test of a triangle and a box
-/

set_option linter.unusedSectionVars false

namespace Geometrix
open Spec

/-- C89: for three different vertices, also on one line, the test tells whether the triangle and the box have a common
point. -/
theorem C89_exact {A B C : P2 ℝ} (hAB : A ≠ B) (hBC : B ≠ C) (hCA : C ≠ A) {b : Box ℝ} (hb : ValidBox b) :
    ((∃ X, InTriangle A B C X ∧ InBox b X) → triangleBox Cmp.direct A B C b = .ok true) ∧
    ((¬ ∃ X, InTriangle A B C X ∧ InBox b X) → triangleBox Cmp.direct A B C b = .ok false) := by
  obtain ⟨r, h, hr⟩ := triangleBox_direct hAB hBC hCA b
  rw [someAxis_iff hb] at hr
  rw [h]
  refine ⟨fun hx => ?_, fun hx => ?_⟩
  · cases r
    · exact absurd hx (hr.1 rfl)
    · rfl
  · rw [hr.2 hx]

/-- C89, with an absolute tolerance: true if the triangle and the box have a common point, false if the triangle and the box
made wider by the tolerance on all sides have none. -/
theorem C89_tolerance {e : ℝ} (he : 0 ≤ e) {A B C : P2 ℝ} (hAB : A ≠ B) (hBC : B ≠ C) (hCA : C ≠ A) {b : Box ℝ}
    (hb : ValidBox b) :
    (∃ r, triangleBox (Cmp.absolute e) A B C b = .ok r) ∧
    ((∃ X, InTriangle A B C X ∧ InBox b X) → triangleBox (Cmp.absolute e) A B C b = .ok true) ∧
    ((¬ ∃ X, InTriangle A B C X ∧ InBox ⟨⟨b.lo.x - e, b.lo.y - e⟩, ⟨b.hi.x + e, b.hi.y + e⟩⟩ X) →
      triangleBox (Cmp.absolute e) A B C b = .ok false) := by
  obtain ⟨r, h, hr⟩ := triangleBox_absolute he hAB hBC hCA b
  rw [someAxis_iff hb] at hr
  refine ⟨⟨r, h⟩, fun hx => ?_, fun hx => ?_⟩
  · rw [h]
    cases r
    · exact absurd hx (hr rfl)
    · rfl
  · have hb' : ValidBox (grownBox b e) := ⟨by have := hb.1; simp only [grownBox]; linarith,
      by have := hb.2; simp only [grownBox]; linarith⟩
    exact triangleBox_grown he hAB hBC hCA b ((someAxis_iff hb').2 hx)

/-- C89, the precondition: two equal vertices make the normalisation of a side fail. -/
theorem C89_vertices {cmp : Cmp ℝ} {A B C : P2 ℝ} (h : A = B ∨ B = C ∨ C = A) (b : Box ℝ) :
    triangleBox cmp A B C b = .error .assertFailed := triangleBox_same h b

/-- The hypotheses hold for a triangle that cuts a corner off the box and for one that passes by the corner. -/
example : ((⟨0, 3⟩ : P2 ℝ) ≠ ⟨3, 0⟩ ∧ (⟨3, 0⟩ : P2 ℝ) ≠ ⟨3, 3⟩ ∧ (⟨3, 3⟩ : P2 ℝ) ≠ ⟨0, 3⟩) ∧
    ValidBox (⟨⟨0, 0⟩, ⟨2, 2⟩⟩ : Box ℝ) ∧ InTriangle (⟨0, 3⟩ : P2 ℝ) ⟨3, 0⟩ ⟨3, 3⟩ ⟨2, 2⟩ ∧
    InBox (⟨⟨0, 0⟩, ⟨2, 2⟩⟩ : Box ℝ) ⟨2, 2⟩ ∧ ValidBox (⟨⟨0, 0⟩, ⟨1, 1⟩⟩ : Box ℝ) ∧
    ¬ ∃ X, InTriangle (⟨0, 3⟩ : P2 ℝ) ⟨3, 0⟩ ⟨3, 3⟩ X ∧ InBox (⟨⟨0, 0⟩, ⟨1, 1⟩⟩ : Box ℝ) X := by
  refine ⟨by norm_num [P2.ext_iff], by norm_num [ValidBox], ⟨1 / 3, 1 / 3, 1 / 3, by norm_num, by norm_num, by norm_num,
    by norm_num, by ext <;> norm_num⟩, by norm_num [InBox], by norm_num [ValidBox], ?_⟩
  rintro ⟨X, ⟨a, b, c, ha, hb, hc, hs, rfl⟩, h⟩
  norm_num [InBox] at h
  linarith

end Geometrix
