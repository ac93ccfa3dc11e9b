import Verif.Lemmas.SegmentTriangle2

/-!
# Properties of the intersection of a segment and a triangle
-/

set_option linter.unusedSectionVars false

namespace Geometrix

open Spec

variable {K : Type*} [Field K] [LinearOrder K] [IsStrictOrderedRing K]

/-- C101. For a segment that is not a point and a counterclockwise triangle, the points written by
`segment_triangle_intersect` describe exactly the common part: none when there is none, the point when there is one,
and otherwise the two different ends. Missing: clockwise triangles, see `C101_clockwise_refuted`. -/
theorem C101_points_partial (A B t0 t1 t2 : P2 K) (hAB : A ≠ B) (h : 0 < area2 t0 t1 t2) :
    ∃ pts, segmentTriangle Cmp.direct A B t0 t1 t2 = .ok pts ∧
      ((pts = [] ∧ ¬ ∃ X, OnSegment A B X ∧ InTriangle t0 t1 t2 X) ∨
       (∃ P, pts = [P] ∧ ∀ X, (OnSegment A B X ∧ InTriangle t0 t1 t2 X) ↔ X = P) ∨
       ∃ P Q, P ≠ Q ∧ pts = [P, Q] ∧ ∀ X, (OnSegment A B X ∧ InTriangle t0 t1 t2 X) ↔ OnSegment P Q X) := by
  by_cases hin : pointInTriangle Cmp.direct A t0 t1 t2 = true ∧ pointInTriangle Cmp.direct B t0 t1 t2 = true
  · refine ⟨[A, B], by simp [segmentTriangle, hin.1, hin.2], Or.inr (Or.inr ⟨A, B, hAB, rfl, fun X => ?_⟩)⟩
    constructor
    · exact fun hX => hX.1
    · rintro hX
      refine ⟨hX, ?_⟩
      obtain ⟨t, h0, h1, rfl⟩ := hX
      obtain ⟨⟨a1, a2, a3⟩, b1, b2, b3⟩ := And.intro ((pointInTriangle_iff t0 t1 t2 A).1 hin.1)
        ((pointInTriangle_iff t0 t1 t2 B).1 hin.2)
      have hc : ∀ C D : P2 K, area2 C D (A + t • (B - A)) = (1 - t) * area2 C D A + t * area2 C D B := by
        intro C D
        simp only [area2, P2.add_x, P2.add_y, P2.smul_x, P2.smul_y, P2.sub_x, P2.sub_y]; ring
      rw [inTriangle_iff h, hc, hc, hc]
      have h1' := sub_nonneg.2 h1
      exact ⟨add_nonneg (mul_nonneg h1' a1) (mul_nonneg h0 b1), add_nonneg (mul_nonneg h1' a2) (mul_nonneg h0 b2),
        add_nonneg (mul_nonneg h1' a3) (mul_nonneg h0 b3)⟩
  · obtain ⟨S, hrun, hS⟩ := segmentTriangle_found hAB h hin
    rcases hS.answer hAB with ⟨rfl, hn⟩ | ⟨p, rfl, hp⟩ | ⟨p, q, hpq, rfl, hr⟩
    · refine ⟨_, hrun, Or.inl ⟨rfl, ?_⟩⟩
      rintro ⟨X, ⟨r, h0, h1, rfl⟩, hT⟩
      exact hn r ((common_iff hAB h r).1 ⟨⟨r, h0, h1, rfl⟩, hT⟩)
    · refine ⟨_, hrun, Or.inr (Or.inl ⟨along A B p, rfl, fun X => ?_⟩)⟩
      constructor
      · rintro ⟨⟨r, h0, h1, rfl⟩, hT⟩
        have := (hp r).1 ((common_iff hAB h r).1 ⟨⟨r, h0, h1, rfl⟩, hT⟩)
        subst this; rfl
      · rintro rfl
        exact (common_iff hAB h p).2 ((hp p).2 rfl)
    · refine ⟨_, hrun, Or.inr (Or.inr ⟨along A B p, along A B q, fun e => hpq (along_inj hAB e), rfl, fun X => ?_⟩)⟩
      have hiff : ∀ r, OnSegment (along A B p) (along A B q) (along A B r) ↔ min p q ≤ r ∧ r ≤ max p q := by
        intro r
        rcases le_total p q with hl | hl
        · rw [min_eq_left hl, max_eq_right hl, onSegment_along_along hAB hl]
        · rw [min_eq_right hl, max_eq_left hl, onSegment_swap, onSegment_along_along hAB hl]
      constructor
      · rintro ⟨⟨r, h0, h1, rfl⟩, hT⟩
        exact (hiff r).2 ((hr r).1 ((common_iff hAB h r).1 ⟨⟨r, h0, h1, rfl⟩, hT⟩))
      · intro hX
        obtain ⟨r, rfl⟩ := onSegment_of_along ⟨p, rfl⟩ ⟨q, rfl⟩ hX
        exact (common_iff hAB h r).2 ((hr r).2 ((hiff r).1 hX))

/-- The hypotheses hold for a triangle and a segment through one of its corners. -/
example : (⟨-1, 0⟩ : P2 ℚ) ≠ ⟨5, 0⟩ ∧ 0 < area2 (⟨0, 0⟩ : P2 ℚ) ⟨4, -1⟩ ⟨4, 3⟩ ∧
    segmentTriangle Cmp.direct (⟨-1, 0⟩ : P2 ℚ) ⟨5, 0⟩ ⟨0, 0⟩ ⟨4, -1⟩ ⟨4, 3⟩ = .ok [⟨0, 0⟩, ⟨4, 0⟩] := by decide +kernel

/-- When the triangle is clockwise, a segment inside it is reported as disjoint from it. -/
theorem C101_clockwise_refuted :
    segmentTriangle Cmp.direct (⟨1, 1⟩ : P2 ℚ) ⟨2, 1⟩ ⟨0, 0⟩ ⟨0, 4⟩ ⟨4, 0⟩ = .ok [] ∧
      InTriangle (⟨0, 0⟩ : P2 ℚ) ⟨0, 4⟩ ⟨4, 0⟩ ⟨1, 1⟩ := by
  refine ⟨by decide +kernel, 1 / 2, 1 / 4, 1 / 4, by norm_num, by norm_num, by norm_num, by norm_num, ?_⟩
  decide +kernel

/-- C101. `segment_triangle_intersect` without points answers true exactly when there is a common point, for triangles
of either orientation and also for a segment that is a point; the projections have to be representable, `big` being
the largest value. Missing: triangles without area, see `C101_flat_refuted`. -/
theorem C101_test_partial (big : K) (A B t0 t1 t2 : P2 K) (h : area2 t0 t1 t2 ≠ 0)
    (hb : ∀ v ∈ [B - A, t1 - t0, t2 - t1, t0 - t2], ∀ X ∈ [A, B, t0, t1, t2],
      -big ≤ dot (leftNormal v) X ∧ dot (leftNormal v) X ≤ big) :
    segmentTriangleTest big A B t0 t1 t2 = true ↔ ∃ X, OnSegment A B X ∧ InTriangle t0 t1 t2 X := by
  rw [segmentTriangleTest_iff hb]
  constructor
  · rintro ⟨h1, h2⟩; exact not_apart_common' h h1 h2
  · exact fun hX => ⟨fun hc => apart_disjoint hc hX, fun k hc => apart_disjoint hc hX⟩

/-- The hypotheses hold for a triangle and a segment that crosses it. -/
example : area2 (⟨0, 0⟩ : P2 ℚ) ⟨0, 4⟩ ⟨4, 0⟩ ≠ 0 ∧
    (∀ v ∈ [(⟨2, 1⟩ : P2 ℚ) - ⟨-1, 1⟩, ⟨0, 4⟩ - ⟨0, 0⟩, ⟨4, 0⟩ - ⟨0, 4⟩, ⟨0, 0⟩ - ⟨4, 0⟩],
      ∀ X ∈ [(⟨-1, 1⟩ : P2 ℚ), ⟨2, 1⟩, ⟨0, 0⟩, ⟨0, 4⟩, ⟨4, 0⟩],
        -1000 ≤ dot (leftNormal v) X ∧ dot (leftNormal v) X ≤ 1000) ∧
    segmentTriangleTest 1000 (⟨-1, 1⟩ : P2 ℚ) ⟨2, 1⟩ ⟨0, 0⟩ ⟨0, 4⟩ ⟨4, 0⟩ = true := by
  refine ⟨by decide +kernel, by decide +kernel, by decide +kernel⟩

/-- C101. Whatever the triangle, the test never misses a common point. -/
theorem C101_never_misses (big : K) (A B t0 t1 t2 X : P2 K)
    (hb : ∀ v ∈ [B - A, t1 - t0, t2 - t1, t0 - t2], ∀ X ∈ [A, B, t0, t1, t2],
      -big ≤ dot (leftNormal v) X ∧ dot (leftNormal v) X ≤ big)
    (hX : OnSegment A B X) (hT : InTriangle t0 t1 t2 X) : segmentTriangleTest big A B t0 t1 t2 = true := by
  rw [segmentTriangleTest_iff hb]
  exact ⟨fun hc => apart_disjoint hc ⟨X, hX, hT⟩, fun k hc => apart_disjoint hc ⟨X, hX, hT⟩⟩

/-- The hypotheses hold for a flat triangle and a segment through it. -/
example : OnSegment (⟨1, -1⟩ : P2 ℚ) ⟨1, 1⟩ ⟨1, 0⟩ ∧ InTriangle (⟨0, 0⟩ : P2 ℚ) ⟨1, 0⟩ ⟨2, 0⟩ ⟨1, 0⟩ ∧
    segmentTriangleTest 1000 (⟨1, -1⟩ : P2 ℚ) ⟨1, 1⟩ ⟨0, 0⟩ ⟨1, 0⟩ ⟨2, 0⟩ = true := by
  refine ⟨⟨1 / 2, by norm_num, by norm_num, by decide +kernel⟩, ⟨0, 1, 0, by norm_num, by norm_num, by norm_num,
    by norm_num, by decide +kernel⟩, by decide +kernel⟩

/-- When the triangle has no area, the test may answer true though there is no common point: a segment on the line
through the three corners, beyond them. -/
theorem C101_flat_refuted :
    segmentTriangleTest 1000 (⟨3, 0⟩ : P2 ℚ) ⟨4, 0⟩ ⟨0, 0⟩ ⟨1, 0⟩ ⟨2, 0⟩ = true ∧
      ¬ ∃ X, OnSegment (⟨3, 0⟩ : P2 ℚ) ⟨4, 0⟩ X ∧ InTriangle (⟨0, 0⟩ : P2 ℚ) ⟨1, 0⟩ ⟨2, 0⟩ X := by
  refine ⟨by decide +kernel, ?_⟩
  rintro ⟨X, ⟨t, h0, h1, hX⟩, a, b, c, ha, hb, hc, hs, hX'⟩
  have e := congrArg P2.x (hX.symm.trans hX')
  simp at e
  linarith

end Geometrix
