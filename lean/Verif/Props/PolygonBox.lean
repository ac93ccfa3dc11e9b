import Verif.Lemmas.PolygonBox

/-!
# C91: polygons and polylines with boxes
-/

set_option linter.unusedSectionVars false

namespace Geometrix

open Spec

variable {K : Type*} [Field K] [LinearOrder K] [IsStrictOrderedRing K]

/-- Without the epsilon of the segment test, the test of a polyline and a box is exact. -/
theorem C91_polyline (pts : List (P2 K)) (b : Box K) (hb : ValidBox b) :
    polylineAabb 0 b pts = true ↔ ∃ P, OnPolyline pts P ∧ InBox b P := by
  rw [polylineAabb_iff]
  constructor
  · rintro ⟨i, A, B, h1, h2⟩
    obtain ⟨P, h3, h4⟩ := (C12_segment_exact A B b hb).1 h2
    exact ⟨P, ⟨i, A, B, h1, h3⟩, h4⟩
  · rintro ⟨P, ⟨i, A, B, h1, h3⟩, h4⟩
    exact ⟨i, A, B, h1, (C12_segment_exact A B b hb).2 ⟨P, h3, h4⟩⟩

example : polylineAabb 0 ⟨⟨0, 0⟩, ⟨1, 1⟩⟩ [(⟨3, 3⟩ : P2 ℚ), ⟨3, 0⟩, ⟨-1, 1⟩] = true ∧
    polylineAabb 0 ⟨⟨0, 0⟩, ⟨1, 1⟩⟩ [(⟨3, 3⟩ : P2 ℚ), ⟨3, 0⟩, ⟨0, 3⟩] = false := by decide +kernel

/-- Without the epsilon of the segment test, the test of a polygon and a box says whether they have a point in common: a
point of the border, or a point inside by the parity rule. The polygon need not be simple. -/
theorem C91_polygon (poly : List (P2 K)) (b : Box K) (hb : ValidBox b) (hn : poly.length ≠ 1) :
    ∃ r, polygonAabb 0 poly b = .ok r ∧ (r = true ↔ ∃ P, InClosed poly P ∧ InBox b P) := by
  obtain ⟨r, h1, h2⟩ := polygonAabb_eq 0 poly b hn
  refine ⟨r, h1, h2.trans ⟨?_, ?_⟩⟩
  · rintro (⟨c, hc, hp⟩ | ⟨l, A, B, h3, h4⟩)
    · obtain ⟨c1, c2, c3, c4⟩ := corners_inBox hb
      refine ⟨c, inClosed_pip hp, ?_⟩
      simp only [List.mem_cons, List.not_mem_nil, or_false] at hc
      rcases hc with rfl | rfl | rfl | rfl <;> assumption
    · obtain ⟨P, h5, h6⟩ := (C12_segment_exact A B b hb).1 h4
      exact ⟨P, Or.inl ⟨l, A, B, h3, h5⟩, h6⟩
  · rintro ⟨P, h3, h4⟩
    by_cases hbd : ∃ X, OnBoundary poly X ∧ InBox b X
    · obtain ⟨X, ⟨l, A, B, h5, h6⟩, h7⟩ := hbd
      exact Or.inr ⟨l, A, B, h5, (C12_segment_exact A B b hb).2 ⟨X, h6, h7⟩⟩
    · left
      have h5 := (box_const hbd h4 (corners_inBox hb).1).1 h3
      rw [inClosed_off fun h => hbd ⟨_, h, (corners_inBox hb).1⟩] at h5
      exact ⟨b.lo, by simp, h5⟩

example : polygonAabb 0 [(⟨-9, -9⟩ : P2 ℚ), ⟨9, -9⟩, ⟨0, 9⟩] ⟨⟨0, 0⟩, ⟨1, 1⟩⟩ = .ok true ∧
    polygonAabb 0 [(⟨1 / 3, 1 / 3⟩ : P2 ℚ), ⟨1 / 2, 1 / 3⟩, ⟨1 / 3, 1 / 2⟩] ⟨⟨0, 0⟩, ⟨1, 1⟩⟩ = .ok true ∧
    polygonAabb 0 [(⟨3, 0⟩ : P2 ℚ), ⟨3, 3⟩, ⟨0, 3⟩] ⟨⟨0, 0⟩, ⟨1, 1⟩⟩ = .ok false ∧
    ValidBox (⟨⟨0, 0⟩, ⟨1, 1⟩⟩ : Box ℚ) := by
  refine ⟨by decide +kernel, by decide +kernel, by decide +kernel, ?_⟩
  constructor <;> norm_num

/-- With a non negative epsilon a common point is never missed. Missing from the full statement: the converse, which is
false for the code, see `C91_epsilon_refuted`. -/
theorem C91_epsilon_partial (eps : K) (he : 0 ≤ eps) (pts : List (P2 K)) (b : Box K) (hb : ValidBox b) :
    ((∃ P, OnPolyline pts P ∧ InBox b P) → polylineAabb eps b pts = true) ∧
    (pts.length ≠ 1 → (∃ P, InClosed pts P ∧ InBox b P) → polygonAabb eps pts b = .ok true) := by
  constructor
  · rintro ⟨P, ⟨i, A, B, h1, h3⟩, h4⟩
    exact (polylineAabb_iff eps b pts).2 ⟨i, A, B, h1, C12_segment_partial eps he A B b hb ⟨P, h3, h4⟩⟩
  · intro hn hex
    obtain ⟨r0, h1, h2⟩ := C91_polygon pts b hb hn
    obtain ⟨r0', h1', h2'⟩ := polygonAabb_eq 0 pts b hn
    obtain ⟨r, h3, h4⟩ := polygonAabb_eq eps pts b hn
    have hr : r0 = r0' := by rw [h1] at h1'; exact Except.ok.inj h1'
    rw [h3, h4.2]
    rcases h2'.1 (hr ▸ h2.2 hex) with h | ⟨l, A, B, h5, h6⟩
    · exact Or.inl h
    · exact Or.inr ⟨l, A, B, h5, C12_segment_partial eps he A B b hb ((C12_segment_exact A B b hb).1 h6)⟩

example : (∃ P, InClosed [(⟨-1, 0⟩ : P2 ℚ), ⟨3, 0⟩, ⟨3, 3⟩] P ∧ InBox ⟨⟨0, 0⟩, ⟨1, 1⟩⟩ P) := by
  refine ⟨⟨0, 0⟩, Or.inl ⟨0, ⟨-1, 0⟩, ⟨3, 0⟩, ⟨rfl, rfl⟩, 1 / 4, by norm_num, by norm_num, ?_⟩, ?_⟩
  · ext <;> norm_num
  · unfold InBox; norm_num

/-- For every positive epsilon there are a polyline and a polygon that miss the unit box and are reported to meet it. -/
theorem C91_epsilon_refuted (eps : K) (he : 0 < eps) : ∃ A B : P2 K,
    polylineAabb eps ⟨⟨0, 0⟩, ⟨1, 1⟩⟩ [A, B] = true ∧ polygonAabb eps [A, B] ⟨⟨0, 0⟩, ⟨1, 1⟩⟩ = .ok true ∧
    (¬ ∃ P, OnPolyline [A, B] P ∧ InBox ⟨⟨0, 0⟩, ⟨1, 1⟩⟩ P) ∧
    ¬ ∃ P, InClosed [A, B] P ∧ InBox ⟨⟨0, 0⟩, ⟨1, 1⟩⟩ P := by
  obtain ⟨A, B, h1, h2⟩ := C12_segment_epsilon_refuted eps he
  have hb : ValidBox (⟨⟨0, 0⟩, ⟨1, 1⟩⟩ : Box K) := ⟨zero_le_one, zero_le_one⟩
  have hn : [A, B].length ≠ 1 := by simp
  refine ⟨A, B, ?_, ?_, ?_, ?_⟩
  · exact (polylineAabb_iff _ _ _).2 ⟨0, A, B, ⟨rfl, rfl⟩, h1⟩
  · obtain ⟨r, h3, h4⟩ := polygonAabb_eq eps [A, B] ⟨⟨0, 0⟩, ⟨1, 1⟩⟩ hn
    rw [h3, h4.2 (Or.inr ⟨0, A, B, ⟨rfl, rfl⟩, h1⟩)]
  · rintro ⟨P, ⟨i, C, D, ⟨h3, h4⟩, h5⟩, h6⟩
    rcases i with _ | i
    · simp at h3 h4
      subst h3; subst h4
      exact h2 ⟨P, h5, h6⟩
    · simp at h4
  · rintro ⟨P, h3, h6⟩
    have hbd : ¬ OnBoundary [A, B] P := by
      rintro ⟨i, C, D, ⟨h3, h4⟩, h5⟩
      rcases i with _ | _ | i
      · simp at h3 h4
        subst h3; subst h4
        exact h2 ⟨P, h5, h6⟩
      · simp at h3 h4
        subst h3; subst h4
        exact h2 ⟨P, (onSegment_swap _ _ _).1 h5, h6⟩
      · simp at h3
    rw [inClosed_off hbd] at h3
    simp [pointInPolygon] at h3

example : (0 : ℚ) < 1 / 2 ^ 52 := by norm_num

/-- A polygon of one vertex is read out of range, unless a corner of the box is reported inside, which does not happen. -/
theorem C91_single_refuted (eps : K) (v : P2 K) (b : Box K) : polygonAabb eps [v] b = .error .outOfRange := by
  simp [polygonAabb, pointInPolygon, polygonAabbLoop]

end Geometrix
