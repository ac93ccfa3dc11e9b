import Verif.Lemmas.SegmentIntersection

/-!
# C09: intersection of two segments in the plane
-/

set_option linter.unusedSectionVars false

namespace Geometrix

open Spec

variable {K : Type*} [Field K] [LinearOrder K] [IsStrictOrderedRing K]

/-- C09: for two non degenerate segments, with exact arithmetic and the direct policy, the
classification and the reported points are exactly right. -/
theorem C09_segment_segment (A B C D : P2 K) (hAB : A ≠ B) (hCD : C ≠ D) :
    ∃ r pts, segSegIntersection Cmp.direct A B C D = .ok (r, pts) ∧
      CorrectAnswer A B C D r pts := by
  by_cases hd : xDenom A B C D = 0
  · have hv : B - A ≠ 0 := sub_ne_zero_P2 hAB
    have hB : A + (1 : K) • (B - A) = B := P2.add_sub_cancel_param A B
    have hA : A + (0 : K) • (B - A) = A := P2.add_zero_param A _
    have hcross : cross (B - A) (D - C) = 0 := by
      rw [xDenom_eq] at hd; linarith
    obtain ⟨k, hk⟩ := (cross_eq_zero_iff hv).mp hcross
    have hpar : Parallel (B - A) (D - C) := Or.inl ⟨k, hk⟩
    have hrun : segSegIntersection Cmp.direct A B C D =
        .ok (parallelIntersection Cmp.direct A B C D) := by
      simp [segSegIntersection, hd]
    rw [hrun]
    by_cases hcol : OnLine A B C
    · obtain ⟨c, hc⟩ := hcol
      have he : D = A + (c + k) • (B - A) := by
        have : D = C + (D - C) := by ext <;> simp
        rw [this, hk, hc]; ext <;> simp <;> ring
      have hce : c ≠ c + k := by
        intro h; apply hCD; rw [hc, he, ← h]
      have hcom : ∀ X, Common A B C D X ↔
          ∃ r, X = A + r • (B - A) ∧ Btw 0 1 r ∧ Btw c (c + k) r := by
        intro X
        constructor
        · rintro ⟨h1, h2⟩
          obtain ⟨r, hr⟩ := onSegment_onLine h1
          refine ⟨r, hr, ?_, ?_⟩
          · rw [← onSegment_param (A := A) hv, hA, hB, ← hr]; exact h1
          · rw [← onSegment_param (A := A) hv, ← hc, ← he, ← hr]; exact h2
        · rintro ⟨r, hr, h1, h2⟩
          rw [← onSegment_param (A := A) hv, hA, hB, ← hr] at h1
          rw [← onSegment_param (A := A) hv, ← hc, ← he, ← hr] at h2
          exact ⟨h1, h2⟩
      have hmain := parallel_collinear (A := A) hv hce
      simp only [hB, ← hc, ← he] at hmain
      have hcr : ¬ ∃ P, InsideSegment A B P ∧ InsideSegment C D P ∧
          ∀ Q, Common A B C D Q → Q = P := by
        rintro ⟨P, ⟨s, s0, s1, hs⟩, ⟨t, t0, t1, ht⟩, huniq⟩
        have hst : s = c + t * k := by
          rw [hs] at ht
          have : C + t • (D - C) = A + (c + t * k) • (B - A) := by
            rw [hk, hc]; ext <;> simp <;> ring
          rw [this] at ht
          exact (param_inj hv).mp ht
        have hk0 : k ≠ 0 := by rintro rfl; exact hce (by ring)
        -- another common point close by
        obtain ⟨r, hr1, hr2, hr3⟩ := exists_near (c := c) (k := k) s0 s1 t0 t1 hk0 hst
        have := huniq _ ((hcom _).mpr ⟨r, rfl, hr1, hr2⟩)
        rw [hs] at this
        exact hr3 ((param_inj hv).mp this)
      have hD : OnLine A B D := ⟨_, he⟩
      by_cases hex : ∃ r, Btw 0 1 r ∧ Btw c (c + k) r
      · obtain ⟨p, q, hres, hpq⟩ := hmain.1 hex
        refine ⟨_, _, by rw [hres], ?_⟩
        have hC : ∃ P, Common A B C D P := by
          obtain ⟨r, h⟩ := hex
          exact ⟨_, (hcom _).mpr ⟨r, rfl, h⟩⟩
        constructor
        · simp [hC]
        · simp only [reduceCtorEq, false_iff]; exact hcr
        · simp [hpar]
        · simp only [true_iff]; exact ⟨⟨c, hc⟩, hD, hC⟩
        · simp
        · intro _
          refine ⟨_, _, rfl, fun X => ?_⟩
          rw [hcom]
          constructor
          · rintro ⟨r, rfl, h⟩
            exact (onSegment_param hv p q r).mpr ((hpq r).mp h)
          · rintro h
            have h' := h
            obtain ⟨t, _, _, hX⟩ := h'
            have hX' : X = A + (p + t * (q - p)) • (B - A) := by
              rw [hX]; ext <;> simp <;> ring
            rw [hX'] at h
            exact ⟨_, hX', (hpq _).mpr ((onSegment_param hv p q _).mp h)⟩
      · have hres := hmain.2 hex
        refine ⟨_, _, by rw [hres], ?_⟩
        have hC : ¬ ∃ P, Common A B C D P := by
          rintro ⟨P, hP⟩
          obtain ⟨r, _, h⟩ := (hcom P).mp hP
          exact hex ⟨r, h⟩
        constructor
        · simp [hC]
        · simp only [reduceCtorEq, false_iff]; exact hcr
        · simp [hpar]
        · simp [hC]
        · simp
        · simp
    · have hnc : isCollinear Cmp.direct A B C = false := by
        rw [← Bool.not_eq_true, collinear_iff_onLine hAB]; exact hcol
      have hres : parallelIntersection Cmp.direct A B C D = (.nonCrossing, []) := by
        simp [parallelIntersection, hnc]
      have hline : ∀ s t : K, A + s • (B - A) = C + t • (D - C) → False := by
        intro s t h
        apply hcol
        refine ⟨s - t * k, ?_⟩
        rw [hk] at h
        have hx := congrArg P2.x h
        have hy := congrArg P2.y h
        simp only [P2.add_x, P2.smul_x, P2.sub_x, P2.add_y, P2.smul_y, P2.sub_y] at hx hy
        ext
        · simp only [P2.add_x, P2.smul_x, P2.sub_x]; linear_combination -hx
        · simp only [P2.add_y, P2.smul_y, P2.sub_y]; linear_combination -hy
      have hC : ¬ ∃ P, Common A B C D P := by
        rintro ⟨P, ⟨s, _, _, h1⟩, ⟨t, _, _, h2⟩⟩
        exact hline s t (h1 ▸ h2)
      refine ⟨_, _, by rw [hres], ?_⟩
      constructor
      · simp [hC]
      · simp only [reduceCtorEq, false_iff]
        rintro ⟨P, ⟨s, _, _, h1⟩, ⟨t, _, _, h2⟩, _⟩
        exact hline s t (h1 ▸ h2)
      · simp [hpar]
      · simp [hC]
      · simp
      · simp
  · exact segSeg_transversal hAB hd

example : (⟨0, 0⟩ : P2 ℚ) ≠ ⟨2, 2⟩ ∧ (⟨0, 2⟩ : P2 ℚ) ≠ ⟨2, 0⟩ := by decide

/-- C09: the points are common to both segments whenever there are any, and the roles of the
segments may be exchanged as far as being disjoint is concerned. -/
theorem C09_symmetric (A B C D : P2 K) (hAB : A ≠ B) (hCD : C ≠ D) :
    (∃ pts, segSegIntersection Cmp.direct A B C D = .ok (.nonCrossing, pts)) ↔
    (∃ pts, segSegIntersection Cmp.direct C D A B = .ok (.nonCrossing, pts)) := by
  obtain ⟨r1, p1, h1, c1⟩ := C09_segment_segment A B C D hAB hCD
  obtain ⟨r2, p2, h2, c2⟩ := C09_segment_segment C D A B hCD hAB
  have e1 : (∃ pts, segSegIntersection Cmp.direct A B C D = .ok (.nonCrossing, pts)) ↔
      r1 = .nonCrossing := by
    rw [h1]; simp
  have e2 : (∃ pts, segSegIntersection Cmp.direct C D A B = .ok (.nonCrossing, pts)) ↔
      r2 = .nonCrossing := by
    rw [h2]; simp
  rw [e1, e2, c1.nonCrossing, c2.nonCrossing]
  simp only [Common]
  constructor <;> rintro h ⟨P, hP⟩ <;> exact h ⟨P, hP.symm⟩

/-- Disagreement: collinear segments that touch in one endpoint are reported as overlapping with
two equal points. The code's own branches for this case (lines 119-143, `e_endpoint`) are never
reached, because the betweenness tests before them include the bounds. -/
theorem C09_touching_collinear_refuted :
    segSegIntersection Cmp.direct (⟨0, 0⟩ : P2 ℚ) ⟨1, 0⟩ ⟨1, 0⟩ ⟨2, 0⟩ =
      .ok (.overlapping, [⟨1, 0⟩, ⟨1, 0⟩]) := by
  decide +kernel

/-- Disagreement: for degenerate segments the answer can be wrong. The point `(5,0)` is reported to
overlap the point `(0,0)`. -/
theorem C09_degenerate_refuted :
    ¬ ∀ A B C D : P2 ℚ, ∃ r pts, segSegIntersection Cmp.direct A B C D = .ok (r, pts) ∧
      (r = .nonCrossing ↔ ¬ ∃ P, Common A B C D P) := by
  intro h
  obtain ⟨r, pts, h1, h2⟩ := h ⟨0, 0⟩ ⟨0, 0⟩ ⟨5, 0⟩ ⟨5, 0⟩
  have h3 : segSegIntersection Cmp.direct (⟨0, 0⟩ : P2 ℚ) ⟨0, 0⟩ ⟨5, 0⟩ ⟨5, 0⟩ =
      .ok (.overlapping, [⟨5, 0⟩, ⟨5, 0⟩]) := by decide +kernel
  rw [h3] at h1
  simp only [Except.ok.injEq, Prod.mk.injEq] at h1
  rw [← h1.1] at h2
  simp only [reduceCtorEq, false_iff, not_not] at h2
  obtain ⟨P, ⟨s, _, _, rfl⟩, ⟨t, _, _, h4⟩⟩ := h2
  have := congrArg P2.x h4
  simp at this

end Geometrix
