import Verif.Lemmas.PointInPolygon

/-!
# C38: point in polygon
-/

set_option linter.unusedSectionVars false

namespace Geometrix

open Spec

variable {K : Type*} [Field K] [LinearOrder K] [IsStrictOrderedRing K]

/-- The test is the parity of the number of sides that the ray to the right crosses, for every list of
vertices and every point, also when the ray goes through vertices or along sides. -/
theorem C38_ray (A : P2 K) (poly : List (P2 K)) :
    pointInPolygon A poly = true ↔ Odd (sideCount poly (CrossesRay A)) :=
  pointInPolygon_iff A poly

example : pointInPolygon (⟨1, 1⟩ : P2 ℚ) [⟨0, 0⟩, ⟨2, 1⟩, ⟨0, 2⟩] = true ∧
    pointInPolygon (⟨-1, 1⟩ : P2 ℚ) [⟨0, 0⟩, ⟨2, 1⟩, ⟨0, 2⟩] = false := by decide +kernel

/-- The vertex the polygon starts at does not matter. -/
theorem C38_rotate (A : P2 K) (poly : List (P2 K)) (n : Nat) :
    pointInPolygon A (poly.rotate n) = pointInPolygon A poly := pip_rotate A poly n

/-- The direction of the polygon does not matter. -/
theorem C38_reverse (A : P2 K) (poly : List (P2 K)) :
    pointInPolygon A poly.reverse = pointInPolygon A poly := pip_reverse A poly

/-- Two points off the border, joined by a segment that misses the vertices, get different answers
exactly when the segment meets an odd number of sides. -/
theorem C38_crossing (A B : P2 K) (poly : List (P2 K)) (hv : ∀ v ∈ poly, ¬ OnSegment A B v)
    (hA : ¬ OnBoundary poly A) (hB : ¬ OnBoundary poly B) :
    pointInPolygon A poly ≠ pointInPolygon B poly ↔ Odd (sideCount poly (SegmentsMeet A B)) := by
  rw [← crossing_parity' hv hA hB, ← pointInPolygon_iff, ← pointInPolygon_iff, ne_eq, Bool.eq_iff_iff]

/-- In particular the answer flips when the segment meets exactly one side. -/
theorem C38_flip (A B : P2 K) (poly : List (P2 K)) (hv : ∀ v ∈ poly, ¬ OnSegment A B v)
    (hA : ¬ OnBoundary poly A) (hB : ¬ OnBoundary poly B)
    (h1 : sideCount poly (SegmentsMeet A B) = 1) :
    pointInPolygon A poly = !pointInPolygon B poly := by
  have := (C38_crossing A B poly hv hA hB).2 (by rw [h1]; decide)
  cases h : pointInPolygon A poly <;> cases h' : pointInPolygon B poly <;> simp [h, h'] at this ⊢

example : ∃ (A B : P2 ℚ) (poly : List (P2 ℚ)), (∀ v ∈ poly, ¬ OnSegment A B v) ∧
    pointInPolygon A poly ≠ pointInPolygon B poly := by
  refine ⟨⟨1, 1⟩, ⟨3, 1⟩, [⟨0, 0⟩, ⟨2, 0⟩, ⟨2, 2⟩, ⟨0, 2⟩], ?_, by decide +kernel⟩
  simp only [onSegment_iff_box]
  decide +kernel

/-- A point that is on one side of all the vertices, in one of the four directions of the axes, is not
in the polygon. -/
theorem C38_outside (A : P2 K) (poly : List (P2 K))
    (h : (∀ v ∈ poly, v.x < A.x) ∨ (∀ v ∈ poly, A.x < v.x) ∨ (∀ v ∈ poly, v.y < A.y) ∨
      (∀ v ∈ poly, A.y < v.y)) : pointInPolygon A poly = false := pip_outside h

example : ∀ v ∈ ([⟨0, 0⟩, ⟨2, 0⟩, ⟨2, 2⟩, ⟨0, 2⟩] : List (P2 ℚ)), (⟨-1, 1⟩ : P2 ℚ).x < v.x := by
  decide +kernel

/-- The classifying version reports a vertex exactly for the vertices. Off the vertices it reports the
border for the points that are on an odd number of sides, and otherwise answers as the even-odd test.

Missing from the full statement (*a point on the border is reported on the border*): the points on an
even number of sides, see `C38_doubled_refuted`. -/
theorem C38_classify_partial (eps : K) (A : P2 K) (poly : List (P2 K)) (hl : 2 < poly.length) :
    (A ∈ poly → polygonContainment Cmp.direct eps A poly = .ok .vertex) ∧
    (A ∉ poly → Odd (sideCount poly (fun p q => OnSegment p q A)) →
      polygonContainment Cmp.direct eps A poly = .ok .border) ∧
    (A ∉ poly → ¬ Odd (sideCount poly (fun p q => OnSegment p q A)) →
      polygonContainment Cmp.direct eps A poly =
        .ok (if pointInPolygon A poly then .interior else .exterior)) := by
  obtain ⟨h1, h2⟩ := polygonContainment_eq eps A poly hl
  refine ⟨h1, fun h ho => ?_, fun h ho => ?_⟩
  · rw [h2 h, if_pos ho]
  · rw [h2 h, if_neg ho]
    split <;> rfl

example : polygonContainment Cmp.direct 0 (⟨2, 1⟩ : P2 ℚ) [⟨0, 0⟩, ⟨2, 0⟩, ⟨2, 2⟩, ⟨0, 2⟩] = .ok .border ∧
    polygonContainment Cmp.direct 0 (⟨1, 1⟩ : P2 ℚ) [⟨0, 0⟩, ⟨2, 0⟩, ⟨2, 2⟩, ⟨0, 2⟩] = .ok .interior ∧
    polygonContainment Cmp.direct 0 (⟨3, 0⟩ : P2 ℚ) [⟨0, 0⟩, ⟨2, 0⟩, ⟨2, 2⟩, ⟨0, 2⟩] = .ok .exterior ∧
    polygonContainment Cmp.direct 0 (⟨2, 0⟩ : P2 ℚ) [⟨0, 0⟩, ⟨2, 0⟩, ⟨2, 2⟩, ⟨0, 2⟩] = .ok .vertex := by
  decide +kernel

/-- In a polygon in which no two sides share an inner point, the classification is complete: the
vertices, the other points of the border, and off the border the even-odd test. -/
theorem C38_classify (eps : K) (A : P2 K) (poly : List (P2 K)) (hl : 2 < poly.length)
    (hs : A ∉ poly → sideCount poly (fun p q => OnSegment p q A) ≤ 1) :
    polygonContainment Cmp.direct eps A poly = .ok
      (open Classical in if A ∈ poly then .vertex else if OnBoundary poly A then .border
       else if pointInPolygon A poly then .interior else .exterior) := by
  classical
  obtain ⟨h1, h2⟩ := polygonContainment_eq eps A poly hl
  by_cases hA : A ∈ poly
  · rw [h1 hA, if_pos hA]
  · rw [h2 hA, if_neg hA]
    have hb : Odd (sideCount poly (fun p q => OnSegment p q A)) ↔ OnBoundary poly A := by
      have hpos : 0 < sideCount poly (fun p q => OnSegment p q A) ↔ OnBoundary poly A := by
        unfold sideCount OnBoundary
        rw [List.countP_pos_iff]
        constructor
        · rintro ⟨e, he, h⟩
          obtain ⟨i, hi⟩ := (mem_sides_iff poly e).1 he
          exact ⟨i, e.1, e.2, hi, of_decide_eq_true h⟩
        · rintro ⟨i, p, q, hi, h⟩
          exact ⟨(p, q), (mem_sides_iff poly (p, q)).2 ⟨i, hi⟩, decide_eq_true h⟩
      rw [← hpos, Nat.odd_iff]
      have := hs hA
      omega
    by_cases hB : OnBoundary poly A
    · rw [if_pos (hb.2 hB), if_pos hB]
    · rw [if_neg (mt hb.1 hB), if_neg hB]
      split <;> rfl

example : polygonContainment Cmp.direct 0 (⟨2, 1⟩ : P2 ℚ) [⟨0, 0⟩, ⟨2, 0⟩, ⟨2, 2⟩, ⟨0, 2⟩] = .ok .border := by
  decide +kernel

/-- A point on two sides is not reported on the border. -/
theorem C38_doubled_refuted : ∃ (poly : List (P2 ℚ)) (A : P2 ℚ), OnBoundary poly A ∧
    ∀ eps, polygonContainment Cmp.direct eps A poly = .ok .exterior := by
  refine ⟨[⟨0, 0⟩, ⟨2, 0⟩, ⟨2, 2⟩, ⟨2, 0⟩], ⟨2, 1⟩, ⟨1, ⟨2, 0⟩, ⟨2, 2⟩, ⟨rfl, rfl⟩, 1 / 2, ?_⟩, ?_⟩
  · refine ⟨by norm_num, by norm_num, ?_⟩
    ext <;> norm_num
  · intro eps
    obtain ⟨-, -, h⟩ := C38_classify_partial eps (⟨2, 1⟩ : P2 ℚ) [⟨0, 0⟩, ⟨2, 0⟩, ⟨2, 2⟩, ⟨2, 0⟩] (by decide)
    rw [h (by decide +kernel)]
    · have : pointInPolygon (⟨2, 1⟩ : P2 ℚ) [⟨0, 0⟩, ⟨2, 0⟩, ⟨2, 2⟩, ⟨2, 0⟩] = false := by decide +kernel
      rw [this]; rfl
    · have h2 : sideCount ([⟨0, 0⟩, ⟨2, 0⟩, ⟨2, 2⟩, ⟨2, 0⟩] : List (P2 ℚ))
          (fun p q => OnSegment p q (⟨2, 1⟩ : P2 ℚ)) = 2 := by
        have : (sides ([⟨0, 0⟩, ⟨2, 0⟩, ⟨2, 2⟩, ⟨2, 0⟩] : List (P2 ℚ))).countP
            (fun e => decide (area2 e.1 e.2 (⟨2, 1⟩ : P2 ℚ) = 0 ∧ min e.1.x e.2.x ≤ 2 ∧
              2 ≤ max e.1.x e.2.x ∧ min e.1.y e.2.y ≤ 1 ∧ 1 ≤ max e.1.y e.2.y)) = 2 := by decide +kernel
        rw [← this]
        unfold sideCount
        apply List.countP_congr
        intro e _
        simp only [decide_eq_true_eq, onSegment_iff_box]
      rw [h2]; decide

/-- A polygon of fewer than three vertices violates the precondition of the classifying version. -/
theorem C38_short (eps : K) (A : P2 K) (poly : List (P2 K)) (hl : poly.length ≤ 2) :
    polygonContainment Cmp.direct eps A poly = .error .assertFailed := by
  unfold polygonContainment
  rw [if_pos (by omega)]

end Geometrix
