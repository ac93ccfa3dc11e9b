import Verif.Lemmas.AgreementBoxes
import Verif.Props.Box
import Verif.Props.BoxDistance
import Verif.Props.BoxIntersection
import Verif.Props.CohenSutherland
import Verif.Props.Obb
import Verif.Props.PolygonBox

/-!
# C148: functions that answer the same question about boxes agree
-/

set_option linter.unusedSectionVars false

namespace Geometrix

open Spec

variable {K : Type*} [Field K] [LinearOrder K] [IsStrictOrderedRing K]

/-- C148, a segment and a box: the test of a segment without tolerance, the test of the polyline with the two points, the
clipping and the test of the ray, which must hit before the end, give one answer. -/
theorem C148_segment_box (A B : P2 K) (hAB : A ≠ B) (b : Box K) (hb : ValidBox b) :
    polylineAabb 0 b [A, B] = segmentAabb 0 A B b ∧
      (∃ acc q0 q1, cohenSutherland Cmp.direct b A B = .ok (acc, q0, q1) ∧ acc = segmentAabb 0 A B b) ∧
      ∃ r, rayAabb Cmp.direct A (B - A) b = .ok r ∧
        (segmentAabb 0 A B b = true ↔ ∃ h, r = some h ∧ h.tmin ≤ 1) := by
  have hs := C12_segment_exact A B b hb
  refine ⟨?_, ?_, ?_⟩
  · rw [Bool.eq_iff_iff, C91_polyline [A, B] b hb, hs]
    have : ∀ P, OnPolyline [A, B] P ↔ OnSegment A B P := by
      intro P
      constructor
      · rintro ⟨i, C, D, ⟨h1, h2⟩, h3⟩
        match i with
        | 0 => simp at h1 h2; rw [h1, h2]; exact h3
        | i + 1 => simp at h2
      · intro h; exact ⟨0, A, B, ⟨rfl, rfl⟩, h⟩
    simp only [this]
  · obtain ⟨acc, q0, q1, h1, h2, h3⟩ := C16_clip hb A B
    refine ⟨acc, q0, q1, h1, ?_⟩
    rw [Bool.eq_iff_iff, hs]
    constructor
    · intro h
      exact ⟨q0, (h2 h q0).1 ⟨0, le_refl _, zero_le_one, by apply P2.ext <;> simp⟩⟩
    · intro h
      by_contra hc
      exact h3 (by simpa using hc) h
  · have hd : B - A ≠ 0 := sub_ne_zero_P2 hAB
    obtain ⟨r, h1, h2, h3⟩ := C12_ray A (B - A) b hb hd
    refine ⟨r, h1, ?_⟩
    rw [hs]
    constructor
    · rintro ⟨P, ⟨t, t0, t1, rfl⟩, hP⟩
      cases r with
      | none => exact absurd ⟨t, t0, hP⟩ (h2.1 rfl)
      | some h => exact ⟨h, rfl, ((h3 h rfl).2.1 t t0 hP).trans t1⟩
    · rintro ⟨h, rfl, ht⟩
      obtain ⟨⟨k1, k2⟩, -⟩ := h3 h rfl
      exact ⟨_, ⟨h.tmin, k1, ht, rfl⟩, k2⟩

example : (⟨-1, 0⟩ : P2 ℚ) ≠ ⟨3, 1⟩ ∧ ValidBox (⟨⟨0, 0⟩, ⟨1, 1⟩⟩ : Box ℚ) ∧
    segmentAabb 0 (⟨-1, 0⟩ : P2 ℚ) ⟨3, 1⟩ ⟨⟨0, 0⟩, ⟨1, 1⟩⟩ = true ∧
    segmentAabb 0 (⟨-1, 0⟩ : P2 ℚ) ⟨3, 8⟩ ⟨⟨0, 0⟩, ⟨1, 1⟩⟩ = false := by
  unfold ValidBox; decide +kernel

/-- C148, a disc and a box: the test holds exactly if the squared distance of the centre from the box is at most the squared
radius. -/
theorem C148_disc_box (c : P2 K) (r : K) (b : Box K) (hb : ValidBox b) :
    sphereAabb c r b = true ↔ pointAabbDistSq c b ≤ r ^ 2 := by
  rw [C14_sphere c r b hb]
  obtain ⟨⟨⟨P, hP, h1⟩, h2⟩, -⟩ := C19_plane c b hb
  constructor
  · rintro ⟨Q, hQ, h⟩; exact (h2 Q hQ).trans h
  · intro h; exact ⟨P, hP, h1 ▸ h⟩

example : ValidBox (⟨⟨0, 0⟩, ⟨1, 1⟩⟩ : Box ℚ) ∧ sphereAabb (⟨4, 5⟩ : P2 ℚ) 5 ⟨⟨0, 0⟩, ⟨1, 1⟩⟩ = true ∧
    sphereAabb (⟨4, 5⟩ : P2 ℚ) 4 ⟨⟨0, 0⟩, ⟨1, 1⟩⟩ = false := by
  unfold ValidBox; decide +kernel

/-- C148, two boxes: `intersects`, the distance and the test of the same boxes as oriented boxes give one answer. -/
theorem C148_boxes (a b : Box K) (ha : ValidBox a) (hb : ValidBox b) :
    a.intersectsBox Cmp.direct b = obbObb Cmp.direct (asObb a) (asObb b) ∧
      (a.intersectsBox Cmp.direct b = true ↔ aabbAabbDistSq a b = 0) := by
  refine ⟨?_, (C20_zero a b ha hb).2.symm⟩
  rw [Bool.eq_iff_iff, C14_boxes a b ha hb,
    C15_intersection _ _ (validObb_asObb ha) (validObb_asObb hb)]
  simp only [inObb_asObb]

example : ValidBox (⟨⟨0, 0⟩, ⟨1, 1⟩⟩ : Box ℚ) ∧ ValidBox (⟨⟨1, 1⟩, ⟨2, 3⟩⟩ : Box ℚ) ∧
    obbObb Cmp.direct (asObb ⟨⟨0, 0⟩, ⟨1, 1⟩⟩) (asObb (⟨⟨1, 1⟩, ⟨2, 3⟩⟩ : Box ℚ)) = true := by
  unfold ValidBox; decide +kernel

/-- C148, a point and a box: the distance from the box and from the same box as an oriented box are the same. -/
theorem C148_oriented_box (p : P2 K) (b : Box K) (hb : ValidBox b) :
    pointObbDistSq p (asObb b) = pointAabbDistSq p b := by
  have h1 := (C24_point p _ (validObb_asObb hb)).1
  have h2 : InObb (asObb b) = InBox b := funext fun P => propext (inObb_asObb b P)
  rw [h2] at h1
  exact isMinOver_unique h1 (C19_plane p b hb).1

example : ValidBox (⟨⟨0, 0⟩, ⟨1, 1⟩⟩ : Box ℚ) ∧ pointAabbDistSq (⟨4, 5⟩ : P2 ℚ) ⟨⟨0, 0⟩, ⟨1, 1⟩⟩ = 25 := by
  unfold ValidBox; decide +kernel

end Geometrix
