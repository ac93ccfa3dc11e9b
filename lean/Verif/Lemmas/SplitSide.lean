import Verif.Lemmas.ConvexParity
import Verif.Lemmas.PolygonContainment
import Verif.Lemmas.PointSequence
import Verif.Lemmas.ArcLength
import Verif.Lemmas.PolylineSplit
import Verif.Lemmas.RemoveCollinear
import Verif.Lemmas.Renumber
import Verif.Spec.SplitSide

/-!
# Lemmas about additional vertices
-/

set_option linter.unusedSectionVars false

namespace Geometrix

open Spec

variable {K : Type*} [Field K] [LinearOrder K] [IsStrictOrderedRing K]

theorem onSegment_insert {A B M : P2 K} (h : OnSegment A B M) (P : P2 K) :
    OnSegment A B P ↔ OnSegment A M P ∨ OnSegment M B P := by
  obtain ⟨t, h0, h1, rfl⟩ := h
  rcases h0.eq_or_lt with rfl | h0
  · have e : A + (0 : K) • (B - A) = A := by apply P2.ext <;> simp
    rw [e]
    refine ⟨Or.inr, ?_⟩
    rintro (⟨s, -, -, rfl⟩ | h)
    · exact ⟨0, le_rfl, zero_le_one, by apply P2.ext <;> simp⟩
    · exact h
  rcases h1.eq_or_lt with rfl | h1
  · have e : A + (1 : K) • (B - A) = B := by apply P2.ext <;> simp
    rw [e]
    refine ⟨Or.inl, ?_⟩
    rintro (h | ⟨s, -, -, rfl⟩)
    · exact h
    · exact ⟨1, zero_le_one, le_rfl, by apply P2.ext <;> simp⟩
  · exact onSegment_split ⟨t, h0, h1, rfl⟩ P

theorem cyclicSum_insert {α G : Type*} [AddCommGroup G] (f : α → α → G) (A M B : α) (r : List α) (h : f A M + f M B = f A B) :
    cyclicSum f (A :: M :: B :: r) = cyclicSum f (A :: B :: r) := by
  rw [cyclicSum_cons, cyclicSum_cons]
  simp only [List.cons_append, chainSum_cons]
  rw [← add_assoc, h]

theorem sides_two {α : Type*} (A B : α) (r : List α) : sides (A :: B :: r) = (A, B) :: (B :: r).zip (r ++ [A]) := by
  simp [sides]

/-- A point of a side cuts it into two, of which exactly one crosses the ray if the side does, and none otherwise. -/
theorem crossesRay_insert {A B M : P2 K} (h : OnSegment A B M) (p : P2 K) :
    (CrossesRay p A B ↔ CrossesRay p A M ∨ CrossesRay p M B) ∧ ¬ (CrossesRay p A M ∧ CrossesRay p M B) := by
  obtain ⟨t, h0, h1, rfl⟩ := h
  have ey : (A + t • (B - A)).y = A.y + t * (B.y - A.y) := by simp
  have e1 : area2 A (A + t • (B - A)) p = t * area2 A B p := by
    simp only [area2, P2.add_x, P2.add_y, P2.smul_x, P2.smul_y, P2.sub_x, P2.sub_y]; ring
  have e2 : area2 (A + t • (B - A)) B p = (1 - t) * area2 A B p := by
    simp only [area2, P2.add_x, P2.add_y, P2.smul_x, P2.smul_y, P2.sub_x, P2.sub_y]; ring
  rcases le_total A.y B.y with hy | hy
  · have k1 : A.y ≤ (A + t • (B - A)).y := by rw [ey]; nlinarith
    have k2 : (A + t • (B - A)).y ≤ B.y := by rw [ey]; nlinarith
    rw [crossesRay_iff hy, crossesRay_iff k1, crossesRay_iff k2, e1, e2]
    refine ⟨⟨?_, ?_⟩, ?_⟩
    · rintro ⟨a1, a2, a3⟩
      by_cases hm : p.y < (A + t • (B - A)).y
      · refine Or.inl ⟨a1, hm, mul_pos (h0.lt_of_ne ?_) a3⟩
        rintro rfl
        rw [ey, zero_mul, add_zero] at hm
        exact absurd hm (not_lt.2 a1)
      · refine Or.inr ⟨not_lt.1 hm, a2, mul_pos (sub_pos.2 (h1.lt_of_ne ?_)) a3⟩
        rintro rfl
        apply hm
        rw [ey]; linarith
    · rintro (⟨a1, a2, a3⟩ | ⟨a1, a2, a3⟩)
      · exact ⟨a1, a2.trans_le k2, pos_of_mul_pos_right a3 h0⟩
      · exact ⟨k1.trans a1, a2, pos_of_mul_pos_right a3 (sub_nonneg.2 h1)⟩
    · rintro ⟨⟨-, a2, -⟩, a1, -, -⟩
      exact absurd a2 (not_lt.2 a1)
  · have k1 : (A + t • (B - A)).y ≤ A.y := by rw [ey]; nlinarith
    have k2 : B.y ≤ (A + t • (B - A)).y := by rw [ey]; nlinarith
    rw [crossesRay_down hy, crossesRay_down k1, crossesRay_down k2, e1, e2]
    refine ⟨⟨?_, ?_⟩, ?_⟩
    · rintro ⟨a1, a2, a3⟩
      by_cases hm : p.y < (A + t • (B - A)).y
      · refine Or.inr ⟨a1, hm, mul_neg_of_pos_of_neg (sub_pos.2 (h1.lt_of_ne ?_)) a3⟩
        rintro rfl
        rw [ey] at hm
        linarith
      · refine Or.inl ⟨not_lt.1 hm, a2, mul_neg_of_pos_of_neg (h0.lt_of_ne ?_) a3⟩
        rintro rfl
        apply hm
        rw [ey]; linarith
    · rintro (⟨a1, a2, a3⟩ | ⟨a1, a2, a3⟩)
      · exact ⟨k2.trans a1, a2, neg_of_mul_neg_right a3 h0⟩
      · exact ⟨a1, a2.trans_le k1, neg_of_mul_neg_right a3 (sub_nonneg.2 h1)⟩
    · rintro ⟨⟨a1, -, -⟩, -, a2, -⟩
      exact absurd a2 (not_lt.2 a1)

theorem sideCount_insert {A B M : P2 K} (h : OnSegment A B M) (p : P2 K) (r : List (P2 K)) :
    sideCount (A :: M :: B :: r) (CrossesRay p) = sideCount (A :: B :: r) (CrossesRay p) := by
  classical
  obtain ⟨h1, h2⟩ := crossesRay_insert h p
  unfold sideCount
  rw [sides_two A M, sides_two A B]
  simp only [List.zip_cons_cons, List.cons_append, List.countP_cons, decide_eq_true_eq]
  by_cases c1 : CrossesRay p A M <;> by_cases c2 : CrossesRay p M B <;> simp_all

theorem onBoundary_insert {A B M : P2 K} (h : OnSegment A B M) (r : List (P2 K)) (X : P2 K) :
    OnBoundary (A :: M :: B :: r) X ↔ OnBoundary (A :: B :: r) X := by
  rw [onBoundary_iff_sides, onBoundary_iff_sides, sides_two A M, sides_two A B]
  simp only [List.zip_cons_cons, List.cons_append, List.exists_mem_cons_iff, onSegment_insert h X, or_assoc]

theorem onPolyline_insert {A B M : P2 K} (h : OnSegment A B M) (a r : List (P2 K)) (X : P2 K) :
    OnPolyline (a ++ A :: M :: B :: r) X ↔ OnPolyline (a ++ A :: B :: r) X := by
  induction a with
  | nil => simp only [List.nil_append, onPolyline_cons, onSegment_insert h X, or_assoc]
  | cons c a ih =>
    cases a with
    | nil =>
      simp only [List.cons_append, List.nil_append] at ih ⊢
      rw [onPolyline_cons c, onPolyline_cons c, ih]
    | cons d a =>
      simp only [List.cons_append] at ih ⊢
      rw [onPolyline_cons c, onPolyline_cons c, ih]

theorem dist_insert {A B M : P2 ℝ} (h : OnSegment A B M) : Spec.dist A M + Spec.dist M B = Spec.dist A B := by
  obtain ⟨t, h0, h1, rfl⟩ := h
  have e1 : Spec.dist A (A + t • (B - A)) = t * Spec.dist A B := by
    simp only [Spec.dist, P2.add_x, P2.add_y, P2.smul_x, P2.smul_y, P2.sub_x, P2.sub_y]
    rw [← Real.sqrt_sq h0, ← Real.sqrt_mul (sq_nonneg t), Real.sqrt_sq h0]
    congr 1; ring
  have e2 : Spec.dist (A + t • (B - A)) B = (1 - t) * Spec.dist A B := by
    simp only [Spec.dist, P2.add_x, P2.add_y, P2.smul_x, P2.smul_y, P2.sub_x, P2.sub_y]
    have h2 : (0 : ℝ) ≤ 1 - t := by linarith
    rw [← Real.sqrt_sq h2, ← Real.sqrt_mul (sq_nonneg (1 - t))]
    congr 1; ring
  rw [e1, e2]; ring

end Geometrix
