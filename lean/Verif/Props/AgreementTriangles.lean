import Verif.Lemmas.ConvexParity
import Verif.Props.Convex
import Verif.Props.PolygonBox
import Verif.Props.SegmentTriangle
import Verif.Props.TriangleBox

/-!
# C148: functions that answer the same question about triangles agree
-/

set_option linter.unusedSectionVars false

namespace Geometrix

open Spec

variable {K : Type*} [Field K] [LinearOrder K] [IsStrictOrderedRing K]

/-- C148, a point and a counterclockwise triangle: `point_in_triangle` and the test for convex polygons give one answer. -/
theorem C148_triangle (A B C p : P2 K) (h : 0 < area2 A B C) (fuel : Nat) (hf : 3 ≤ fuel) :
    pointInConvex Cmp.direct fuel p [A, B, C] = .ok (pointInTriangle Cmp.direct p A B C) := by
  obtain ⟨r, h1, h2⟩ := C60_convex [A, B, C] (strictlyConvex_triangle h) (by simp) p fuel (by simpa using hf)
  rw [h1, Except.ok.injEq, Bool.eq_iff_iff, h2, pointInTriangle_iff]
  simp [InsideAllSides, sides]

example : 0 < area2 (⟨0, 0⟩ : P2 ℚ) ⟨2, 0⟩ ⟨0, 2⟩ ∧
    pointInTriangle Cmp.direct (⟨1, 1⟩ : P2 ℚ) ⟨0, 0⟩ ⟨2, 0⟩ ⟨0, 2⟩ = true ∧
    pointInTriangle Cmp.direct (⟨2, 1⟩ : P2 ℚ) ⟨0, 0⟩ ⟨2, 0⟩ ⟨0, 2⟩ = false := by decide +kernel

/-- C148, a point and a strictly convex counterclockwise quadrilateral: the test for quadrilaterals and the one for convex polygons
give one answer. -/
theorem C148_quadrilateral (v0 v1 v2 v3 p : P2 K) (hc : StrictlyConvex [v0, v1, v2, v3]) (fuel : Nat) (hf : 4 ≤ fuel) :
    pointInConvexQuad Cmp.direct p [v0, v1, v2, v3] = pointInConvex Cmp.direct fuel p [v0, v1, v2, v3] := by
  obtain ⟨r, h1, h2⟩ := C60_convex _ hc (by simp) p fuel (by simpa using hf)
  obtain ⟨q, h3, h4⟩ := C60_quadrilateral v0 v1 v2 v3 hc p
  rw [h1, h3, Except.ok.injEq, Bool.eq_iff_iff, h2, h4]

example : StrictlyConvex ([⟨0, 0⟩, ⟨2, 0⟩, ⟨2, 2⟩, ⟨0, 2⟩] : List (P2 ℚ)) := by
  intro i j k a b c hij hjk ha hb hc
  have hk : k < 4 := by
    have := (List.getElem?_eq_some_iff.1 hc).1
    simpa using this
  have key : ∀ k < 4, ∀ j < k, ∀ i < j,
      0 < area2 (([⟨0, 0⟩, ⟨2, 0⟩, ⟨2, 2⟩, ⟨0, 2⟩] : List (P2 ℚ)).getD i ⟨0, 0⟩)
        (([⟨0, 0⟩, ⟨2, 0⟩, ⟨2, 2⟩, ⟨0, 2⟩] : List (P2 ℚ)).getD j ⟨0, 0⟩)
        (([⟨0, 0⟩, ⟨2, 0⟩, ⟨2, 2⟩, ⟨0, 2⟩] : List (P2 ℚ)).getD k ⟨0, 0⟩) := by decide +kernel
  have := key k hk j hjk i hij
  simpa [List.getD_eq_getElem?_getD, ha, hb, hc] using this

/-- C148, a segment and a counterclockwise triangle: the function that returns points returns one exactly if the function
without points returns true, for coordinates small enough for the latter (`big` is the largest number of the type). -/
theorem C148_segment_triangle (big : K) (A B t0 t1 t2 : P2 K) (hAB : A ≠ B) (h : 0 < area2 t0 t1 t2)
    (hb : ∀ v ∈ [B - A, t1 - t0, t2 - t1, t0 - t2], ∀ X ∈ [A, B, t0, t1, t2],
      -big ≤ dot (leftNormal v) X ∧ dot (leftNormal v) X ≤ big) :
    ∃ pts, segmentTriangle Cmp.direct A B t0 t1 t2 = .ok pts ∧
      (pts ≠ [] ↔ segmentTriangleTest big A B t0 t1 t2 = true) := by
  obtain ⟨pts, h1, h2⟩ := C101_points_partial A B t0 t1 t2 hAB h
  refine ⟨pts, h1, ?_⟩
  rw [C101_test_partial big A B t0 t1 t2 h.ne' hb]
  rcases h2 with ⟨rfl, hn⟩ | ⟨P, rfl, hP⟩ | ⟨P, Q, -, rfl, hP⟩
  · simpa using hn
  · simp only [ne_eq, List.cons_ne_nil, not_false_eq_true, true_iff]
    exact ⟨P, (hP P).2 rfl⟩
  · simp only [ne_eq, List.cons_ne_nil, not_false_eq_true, true_iff]
    exact ⟨P, (hP P).2 ⟨0, le_refl _, zero_le_one, by apply P2.ext <;> simp⟩⟩

example : (⟨0, 1⟩ : P2 ℚ) ≠ ⟨3, 1⟩ ∧ 0 < area2 (⟨0, 0⟩ : P2 ℚ) ⟨4, 0⟩ ⟨0, 4⟩ ∧
    ∀ v ∈ [(⟨3, 1⟩ : P2 ℚ) - ⟨0, 1⟩, ⟨4, 0⟩ - ⟨0, 0⟩, ⟨0, 4⟩ - ⟨4, 0⟩, ⟨0, 0⟩ - ⟨0, 4⟩],
      ∀ X ∈ [(⟨0, 1⟩ : P2 ℚ), ⟨3, 1⟩, ⟨0, 0⟩, ⟨4, 0⟩, ⟨0, 4⟩],
        -1000 ≤ dot (leftNormal v) X ∧ dot (leftNormal v) X ≤ 1000 := by decide +kernel

/-- C148, a counterclockwise triangle and a box: the test by separating axes and the test of the polygon with the three
vertices without tolerance give one answer. -/
theorem C148_triangle_box (A B C : P2 ℝ) (h : 0 < area2 A B C) (b : Box ℝ) (hb : ValidBox b) :
    triangleBox Cmp.direct A B C b = polygonAabb 0 [A, B, C] b := by
  have hAB : A ≠ B := by rintro rfl; simp [area2] at h
  have hBC : B ≠ C := by
    rintro rfl
    have : area2 A B B = 0 := by unfold area2; ring
    rw [this] at h; exact lt_irrefl _ h
  have hCA : C ≠ A := by
    rintro rfl
    have : area2 C B C = 0 := by unfold area2; ring
    rw [this] at h; exact lt_irrefl _ h
  obtain ⟨k1, k2⟩ := C89_exact hAB hBC hCA hb
  obtain ⟨r, h1, h2⟩ := C91_polygon [A, B, C] b hb (by simp)
  have hin : ∀ X, InClosed [A, B, C] X ↔ InTriangle A B C X := by
    intro X
    rw [convex_closed (by simp) (strictlyConvex_triangle h), inTriangle_iff h]
    simp [InsideAllSides, sides]
  simp only [hin] at h2
  rw [h1]
  cases r with
  | true => exact k1 (h2.1 rfl)
  | false =>
    apply k2
    intro hx
    have := h2.2 hx
    simp at this

example : 0 < area2 (⟨0, 0⟩ : P2 ℝ) ⟨4, 0⟩ ⟨0, 4⟩ ∧ ValidBox (⟨⟨1, 1⟩, ⟨5, 5⟩⟩ : Box ℝ) := by
  unfold ValidBox area2; norm_num

end Geometrix
