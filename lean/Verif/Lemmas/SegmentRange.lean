import Verif.Model.SegmentRange
import Verif.Spec.SegmentRange
import Verif.Props.RayIntersection
import Verif.Props.LineIntersection
import Verif.Lemmas.MeshCache

set_option linter.unusedSectionVars false

namespace Geometrix

open Spec

variable {K : Type*} [Field K] [LinearOrder K] [IsStrictOrderedRing K]

theorem inConeOf_iff {O lo hi P : P2 K} (h : 0 < cross lo hi) :
    InConeOf O lo hi P ↔ 0 ≤ cross lo (P - O) ∧ cross hi (P - O) ≤ 0 := by
  constructor
  · rintro ⟨a, b, ha, hb, rfl⟩
    have e1 : cross lo (O + a • lo + b • hi - O) = b * cross lo hi := by simp [cross]; ring
    have e2 : cross hi (O + a • lo + b • hi - O) = -(a * cross lo hi) := by simp [cross]; ring
    rw [e1, e2]
    exact ⟨by positivity, by have := mul_nonneg ha h.le; linarith⟩
  · rintro ⟨h1, h2⟩
    refine ⟨-cross hi (P - O) / cross lo hi, cross lo (P - O) / cross lo hi, div_nonneg (by linarith) h.le,
      div_nonneg h1 h.le, ?_⟩
    have h0 := h.ne'
    ext
    · simp only [P2.add_x, P2.smul_x]
      field_simp
      simp [cross]; ring
    · simp only [P2.add_y, P2.smul_y]
      field_simp
      simp [cross]; ring

theorem onRay_cone {O lo hi P : P2 K} (h : OnRay O lo P ∨ OnRay O hi P) : InConeOf O lo hi P := by
  rcases h with ⟨t, ht, rfl⟩ | ⟨t, ht, rfl⟩
  · exact ⟨t, 0, ht, le_rfl, by ext <;> simp⟩
  · exact ⟨0, t, le_rfl, ht, by ext <;> simp⟩

/-- A point in the cone and on the line of the first ray is on the ray. -/
theorem cone_lo {O lo hi P : P2 K} (h : 0 < cross lo hi) (h1 : cross lo (P - O) = 0) (h2 : cross hi (P - O) ≤ 0) :
    OnRay O lo P := by
  obtain ⟨a, b, ha, hb, rfl⟩ := (inConeOf_iff h).2 ⟨h1.ge, h2⟩
  have e1 : cross lo (O + a • lo + b • hi - O) = b * cross lo hi := by simp [cross]; ring
  rw [e1] at h1
  have hb0 : b = 0 := (mul_eq_zero.1 h1).resolve_right h.ne'
  exact ⟨a, ha, by rw [hb0]; ext <;> simp⟩

theorem cone_hi {O lo hi P : P2 K} (h : 0 < cross lo hi) (h1 : 0 ≤ cross lo (P - O)) (h2 : cross hi (P - O) = 0) :
    OnRay O hi P := by
  obtain ⟨a, b, ha, hb, rfl⟩ := (inConeOf_iff h).2 ⟨h1, h2.le⟩
  have e1 : cross hi (O + a • lo + b • hi - O) = -(a * cross lo hi) := by simp [cross]; ring
  rw [e1, neg_eq_zero] at h2
  have ha0 : a = 0 := (mul_eq_zero.1 h2).resolve_right h.ne'
  exact ⟨b, hb, by rw [ha0]; ext <;> simp⟩

/-- The cross product along a segment. -/
theorem cross_along (v O A B : P2 K) (t : K) :
    cross v (A + t • (B - A) - O) = (1 - t) * cross v (A - O) + t * cross v (B - O) := by
  simp [cross]; ring

/-- The zero of an affine function. -/
theorem affine_zero {x y : K} (hx : 0 ≤ x) (hy : y < 0) : ∃ t, 0 ≤ t ∧ t ≤ 1 ∧ (1 - t) * x + t * y = 0 ∧
    ∀ s, 0 ≤ (1 - s) * x + s * y → s ≤ t := by
  have hd : 0 < x - y := by linarith
  refine ⟨x / (x - y), div_nonneg hx hd.le, (div_le_one hd).2 (by linarith), ?_, ?_⟩
  · field_simp
    ring
  · intro s hs
    rw [le_div_iff₀ hd]
    linarith

/-- A segment with both ends outside the cone that meets the cone: one end is beyond the second ray and the other beyond the
first one, and it meets both rays. -/
theorem cone_both {O lo hi A B : P2 K} (h : 0 < cross lo hi) (h1 : 0 < cross hi (A - O)) (h2 : 0 ≤ cross lo (A - O))
    (h3 : cross hi (B - O) ≤ 0) (h4 : cross lo (B - O) < 0) :
    ((∃ P, OnSegment A B P ∧ InConeOf O lo hi P) → ∃ P, OnRay O lo P ∧ OnSegment A B P) ∧
    ((∃ P, OnSegment A B P ∧ InConeOf O lo hi P) → ∃ P, OnRay O hi P ∧ OnSegment A B P) := by
  constructor
  · rintro ⟨P, ⟨t, t0, t1, rfl⟩, hP⟩
    rw [inConeOf_iff h] at hP
    simp only [cross_along] at hP
    obtain ⟨u, u0, u1, hu, hmax⟩ := affine_zero h2 h4
    refine ⟨A + u • (B - A), ?_, u, u0, u1, rfl⟩
    apply cone_lo h
    · rw [cross_along, hu]
    · rw [cross_along]
      have := hmax t hP.1
      nlinarith [hP.2]
  · rintro ⟨P, ⟨t, t0, t1, rfl⟩, hP⟩
    rw [inConeOf_iff h] at hP
    simp only [cross_along] at hP
    have hd : 0 < cross hi (A - O) - cross hi (B - O) := by linarith
    set u := cross hi (A - O) / (cross hi (A - O) - cross hi (B - O)) with hu
    have u0 : 0 ≤ u := by positivity
    have u1 : u ≤ 1 := (div_le_one hd).2 (by linarith)
    have hz : (1 - u) * cross hi (A - O) + u * cross hi (B - O) = 0 := by rw [hu]; field_simp; ring
    have hut : u ≤ t := by
      rw [hu, div_le_iff₀ hd]
      linarith [hP.2]
    refine ⟨A + u • (B - A), ?_, u, u0, u1, rfl⟩
    apply cone_hi h
    · rw [cross_along]
      nlinarith [hP.1]
    · rw [cross_along, hz]

theorem onRay_scale {O v P : P2 K} {k : K} (hk : 0 < k) : OnRay O (k • v) P ↔ OnRay O v P := by
  constructor
  · rintro ⟨t, ht, rfl⟩
    exact ⟨t * k, by positivity, by ext <;> simp <;> ring⟩
  · rintro ⟨t, ht, rfl⟩
    refine ⟨t / k, by positivity, ?_⟩
    ext <;> simp <;> field_simp

theorem cross_scale (k : K) (v w : P2 K) : cross (k • v) w = k * cross v w := by simp [cross]; ring

theorem cross_swap_sub (v O A B : P2 K) : cross v (B - A) = cross v (B - O) - cross v (A - O) := by
  simp [cross]; ring

/-- The test of one ray with the function without outputs. -/
theorem ray_test {O v A B : P2 ℝ} (hv : v ≠ 0) (hne : cross v (A - O) ≠ cross v (B - O)) : ∃ u ty,
    normalize2 v = .ok u ∧ raySegmentNoOutput Cmp.direct O u A B = .ok ty ∧
      (ty ≠ .nonCrossing ↔ ∃ P, OnRay O v P ∧ OnSegment A B P) := by
  obtain ⟨k, hk, hn, hu⟩ := normalize2_unit hv
  have hAB : A ≠ B := by rintro rfl; exact hne rfl
  have hunit : dot (k • v) (k • v) = 1 := by simpa [normSq] using hu
  have hk0 : k • v ≠ 0 := unit_ne_zero hunit
  have hnp : ¬ Parallel (k • v) (B - A) := by
    intro hp
    have := (parallel_iff_cross hk0).1 hp
    rw [cross_scale, cross_swap_sub v O A B] at this
    rcases mul_eq_zero.1 this with h | h
    · exact hk.ne' h
    · exact hne (by linarith)
  obtain ⟨hit, h1, h2⟩ := C11_overloads_agree_partial O (k • v) A B hunit hAB fun h => hnp h.1
  obtain ⟨hit', h3, h4⟩ := C11_ray_segment O (k • v) A B hunit hAB
  rw [h1] at h3
  cases h3
  refine ⟨_, _, hn, h2, ?_⟩
  rw [ne_eq, h4.nonCrossing, not_not]
  simp only [onRay_scale hk]

theorem raysHit_spec {A B lo hi O : P2 ℝ} (hlo : lo ≠ 0) (hhi : hi ≠ 0) (h1 : cross lo (A - O) ≠ cross lo (B - O))
    (h2 : cross hi (A - O) ≠ cross hi (B - O)) : ∃ r, raysHit A B lo hi O = .ok r ∧
    (r = true ↔ (∃ P, OnRay O lo P ∧ OnSegment A B P) ∨ ∃ P, OnRay O hi P ∧ OnSegment A B P) := by
  obtain ⟨u, ty, e1, e2, e3⟩ := ray_test hlo h1
  obtain ⟨w, ty', f1, f2, f3⟩ := ray_test hhi h2
  unfold raysHit
  rw [e1]; dsimp only
  rw [e2]; dsimp only
  by_cases hty : ty ≠ .nonCrossing
  · rw [if_pos hty]
    exact ⟨true, rfl, by simp [e3.1 hty]⟩
  · rw [if_neg hty, f1]; dsimp only
    rw [f2]
    refine ⟨_, rfl, ?_⟩
    rw [decide_eq_true_eq, f3]
    exact ⟨Or.inr, fun h => h.resolve_left fun h => hty (e3.2 h)⟩

/-- The ends of the segment are on the two rays opposite to the cone. -/
theorem opposite_iff {O lo hi A B : P2 K} (h : 0 < cross lo hi) :
    (∃ a b : K, 0 < a ∧ 0 < b ∧ A = O - a • lo ∧ B = O - b • hi) ↔
      cross lo (A - O) = 0 ∧ 0 < cross hi (A - O) ∧ cross hi (B - O) = 0 ∧ cross lo (B - O) < 0 := by
  constructor
  · rintro ⟨a, b, ha, hb, rfl, rfl⟩
    have e1 : cross lo (O - a • lo - O) = 0 := by simp [cross]; ring
    have e2 : cross hi (O - a • lo - O) = a * cross lo hi := by simp [cross]; ring
    have e3 : cross hi (O - b • hi - O) = 0 := by simp [cross]; ring
    have e4 : cross lo (O - b • hi - O) = -(b * cross lo hi) := by simp [cross]; ring
    rw [e1, e2, e3, e4]
    exact ⟨rfl, by positivity, rfl, by have := mul_pos hb h; linarith⟩
  · rintro ⟨h1, h2, h3, h4⟩
    have hlo : lo ≠ 0 := by rintro rfl; simp [cross] at h
    have hhi : hi ≠ 0 := by rintro rfl; simp [cross] at h
    obtain ⟨r, hr⟩ := (cross_eq_zero_iff hlo).1 h1
    obtain ⟨q, hq⟩ := (cross_eq_zero_iff hhi).1 h3
    rw [hr] at h2
    rw [hq] at h4
    have e2 : cross hi (r • lo) = -r * cross lo hi := by simp [cross]; ring
    have e4 : cross lo (q • hi) = q * cross lo hi := by simp [cross]; ring
    rw [e2] at h2
    rw [e4] at h4
    refine ⟨-r, -q, pos_of_mul_pos_left h2 h.le, ?_, ?_, ?_⟩
    · have := neg_of_mul_neg_left h4 h.le
      linarith
    · have hx := congrArg P2.x hr
      have hy := congrArg P2.y hr
      ext
      · simp at hx ⊢; linarith
      · simp at hy ⊢; linarith
    · have hx := congrArg P2.x hq
      have hy := congrArg P2.y hq
      ext
      · simp at hx ⊢; linarith
      · simp at hy ⊢; linarith

/-- A segment from the opposite of the first ray to the opposite of the second one does not meet the cone. -/
theorem opposite_misses {O lo hi A B : P2 K} (h : 0 < cross lo hi) (h1 : cross lo (A - O) = 0)
    (h2 : 0 < cross hi (A - O)) (h3 : cross hi (B - O) = 0) (h4 : cross lo (B - O) < 0) :
    ¬ ∃ P, OnSegment A B P ∧ InConeOf O lo hi P := by
  rintro ⟨P, ⟨t, t0, t1, rfl⟩, hP⟩
  rw [inConeOf_iff h] at hP
  simp only [cross_along, h1, h3] at hP
  rcases t0.eq_or_lt with rfl | t0
  · simp at hP
    linarith
  · nlinarith [hP.1]

theorem segment_swap_iff {A B : P2 K} {p : P2 K → Prop} :
    (∃ P, OnSegment A B P ∧ p P) ↔ ∃ P, OnSegment B A P ∧ p P := by
  constructor <;> rintro ⟨P, h1, h2⟩ <;> exact ⟨P, (onSegment_swap _ _ _).1 h1, h2⟩

/-- The rays decide for a segment from beyond the second ray to beyond the first one. -/
theorem cone_rays {O lo hi A B : P2 K} (h : 0 < cross lo hi)
    (hc : (0 < cross hi (A - O) ∧ 0 ≤ cross lo (A - O) ∧ cross hi (B - O) ≤ 0 ∧ cross lo (B - O) < 0) ∨
      (0 < cross hi (B - O) ∧ 0 ≤ cross lo (B - O) ∧ cross hi (A - O) ≤ 0 ∧ cross lo (A - O) < 0)) :
    ((∃ P, OnSegment A B P ∧ InConeOf O lo hi P) → ∃ P, OnRay O lo P ∧ OnSegment A B P) ∧
    ((∃ P, OnSegment A B P ∧ InConeOf O lo hi P) → ∃ P, OnRay O hi P ∧ OnSegment A B P) := by
  rcases hc with ⟨h1, h2, h3, h4⟩ | ⟨h1, h2, h3, h4⟩
  · exact cone_both h h1 h2 h3 h4
  · obtain ⟨g1, g2⟩ := cone_both h h1 h2 h3 h4
    rw [segment_swap_iff]
    refine ⟨fun hm => ?_, fun hm => ?_⟩
    · obtain ⟨P, p1, p2⟩ := g1 hm
      exact ⟨P, p1, (onSegment_swap _ _ _).1 p2⟩
    · obtain ⟨P, p1, p2⟩ := g2 hm
      exact ⟨P, p1, (onSegment_swap _ _ _).1 p2⟩

/-- How the ends are placed if neither is in the cone and they are not on the same side of a line. -/
theorem ends_outside {O lo hi A B : P2 K} (h1 : ¬ (0 ≤ cross lo (A - O) ∧ cross hi (A - O) ≤ 0))
    (h2 : ¬ (0 ≤ cross lo (B - O) ∧ cross hi (B - O) ≤ 0))
    (h3 : ¬ ((0 < cross hi (A - O) ∧ 0 < cross hi (B - O)) ∨ (cross lo (A - O) < 0 ∧ cross lo (B - O) < 0))) :
    (0 < cross hi (A - O) ∧ 0 ≤ cross lo (A - O) ∧ cross hi (B - O) ≤ 0 ∧ cross lo (B - O) < 0) ∨
      (0 < cross hi (B - O) ∧ 0 ≤ cross lo (B - O) ∧ cross hi (A - O) ≤ 0 ∧ cross lo (A - O) < 0) := by
  rcases lt_or_ge (cross lo (A - O)) 0 with a1 | a1
  · right
    have b1 : 0 ≤ cross lo (B - O) := by
      by_contra hb
      exact h3 (Or.inr ⟨a1, not_le.1 hb⟩)
    have b2 : 0 < cross hi (B - O) := by
      by_contra hb
      exact h2 ⟨b1, not_lt.1 hb⟩
    refine ⟨b2, b1, ?_, a1⟩
    by_contra ha
    exact h3 (Or.inl ⟨not_le.1 ha, b2⟩)
  · left
    have a2 : 0 < cross hi (A - O) := by
      by_contra hb
      exact h1 ⟨a1, not_lt.1 hb⟩
    have b2 : cross hi (B - O) ≤ 0 := by
      by_contra hb
      exact h3 (Or.inl ⟨a2, not_le.1 hb⟩)
    refine ⟨a2, a1, b2, ?_⟩
    by_contra hb
    exact h2 ⟨not_lt.1 hb, b2⟩

/-- Both ends beyond the same line. -/
theorem same_side_misses {O lo hi A B : P2 K} (h : 0 < cross lo hi)
    (h3 : (0 < cross hi (A - O) ∧ 0 < cross hi (B - O)) ∨ (cross lo (A - O) < 0 ∧ cross lo (B - O) < 0)) :
    ¬ ∃ P, OnSegment A B P ∧ InConeOf O lo hi P := by
  rintro ⟨P, ⟨t, t0, t1, rfl⟩, hP⟩
  rw [inConeOf_iff h] at hP
  simp only [cross_along] at hP
  rcases h3 with ⟨h1, h2⟩ | ⟨h1, h2⟩
  · rcases t0.eq_or_lt with rfl | t0
    · simp at hP; linarith
    · have := mul_pos t0 h2
      have := mul_nonneg (sub_nonneg.2 t1) h1.le
      linarith
  · rcases t0.eq_or_lt with rfl | t0
    · simp at hP; linarith
    · have := mul_neg_of_pos_of_neg t0 h2
      have := mul_nonpos_of_nonneg_of_nonpos (sub_nonneg.2 t1) h1.le
      linarith

/-- The orientation that the special case asks for. -/
theorem opposite_area {O lo hi A B : P2 K} (h : 0 < cross lo hi)
    (hx : ∃ a b : K, 0 < a ∧ 0 < b ∧ A = O - a • lo ∧ B = O - b • hi) : 0 < area2 A B O := by
  obtain ⟨a, b, ha, hb, rfl, rfl⟩ := hx
  have e : area2 (O - a • lo) (O - b • hi) O = a * b * cross lo hi := by simp [area2, cross]; ring
  rw [e]
  positivity

theorem segInRange_spec {A B lo hi O : P2 ℝ} (h : 0 < cross lo hi) : ∃ r, segInRange A B lo hi O = .ok r ∧
    (r = true ↔ (∃ P, OnSegment A B P ∧ InConeOf O lo hi P) ∨
      (∃ a b : ℝ, 0 < a ∧ 0 < b ∧ A = O - a • lo ∧ B = O - b • hi) ∨
      ∃ a b : ℝ, 0 < a ∧ 0 < b ∧ B = O - a • lo ∧ A = O - b • hi) := by
  have hlo : lo ≠ 0 := by rintro rfl; simp [cross] at h
  have hhi : hi ≠ 0 := by rintro rfl; simp [cross] at h
  unfold segInRange
  simp only [ge_iff_le, gt_iff_lt]
  by_cases c1 : 0 ≤ cross lo (A - O) ∧ cross hi (A - O) ≤ 0
  · rw [if_pos c1]
    exact ⟨true, rfl, by simpa using Or.inl ⟨A, onSegment_left _ _, (inConeOf_iff h).2 c1⟩⟩
  rw [if_neg c1]
  by_cases c2 : 0 ≤ cross lo (B - O) ∧ cross hi (B - O) ≤ 0
  · rw [if_pos c2]
    exact ⟨true, rfl, by simpa using Or.inl ⟨B, onSegment_right _ _, (inConeOf_iff h).2 c2⟩⟩
  rw [if_neg c2]
  rw [opposite_iff h, opposite_iff h]
  by_cases c3 : (0 < cross hi (A - O) ∧ 0 < cross hi (B - O)) ∨ (cross lo (A - O) < 0 ∧ cross lo (B - O) < 0)
  · rw [if_pos c3]
    refine ⟨false, rfl, ?_⟩
    simp only [Bool.false_eq_true, false_iff]
    rintro (hm | ⟨h1, h2, h3, h4⟩ | ⟨h1, h2, h3, h4⟩)
    · exact same_side_misses h c3 hm
    · rcases c3 with ⟨c, d⟩ | ⟨c, d⟩ <;> linarith
    · rcases c3 with ⟨c, d⟩ | ⟨c, d⟩ <;> linarith
  rw [if_neg c3]
  have hends := ends_outside c1 c2 c3
  by_cases c4 : cross hi (A - O) = 0 ∧ cross lo (B - O) = 0
  · rw [if_pos c4]
    have hop : cross lo (B - O) = 0 ∧ 0 < cross hi (B - O) ∧ cross hi (A - O) = 0 ∧ cross lo (A - O) < 0 := by
      rcases hends with ⟨h1, h2, h3, h4⟩ | ⟨h1, h2, h3, h4⟩
      · linarith [c4.1]
      · exact ⟨c4.2, h1, c4.1, h4⟩
    refine ⟨_, rfl, ?_⟩
    have ha := opposite_area h ((opposite_iff h).2 hop)
    have e : area2 B A O = -area2 A B O := by simp [area2]; ring
    rw [e] at ha
    simp only [decide_eq_true_eq]
    refine ⟨fun _ => Or.inr (Or.inr hop), fun _ hl => ?_⟩
    have := (orientation_sign _ _ _).1.1 hl
    linarith
  rw [if_neg c4]
  by_cases c5 : cross hi (B - O) = 0 ∧ cross lo (A - O) = 0
  · rw [if_pos c5]
    have hop : cross lo (A - O) = 0 ∧ 0 < cross hi (A - O) ∧ cross hi (B - O) = 0 ∧ cross lo (B - O) < 0 := by
      rcases hends with ⟨h1, h2, h3, h4⟩ | ⟨h1, h2, h3, h4⟩
      · exact ⟨c5.2, h1, c5.1, h4⟩
      · linarith [c5.1]
    refine ⟨_, rfl, ?_⟩
    have ha := opposite_area h ((opposite_iff h).2 hop)
    simp only [decide_eq_true_eq]
    refine ⟨fun _ => Or.inr (Or.inl hop), fun _ hl => ?_⟩
    have := (orientation_sign _ _ _).2.1.1 hl
    linarith
  rw [if_neg c5]
  obtain ⟨r, h1, h2⟩ := raysHit_spec (A := A) (B := B) (O := O) hlo hhi
    (by rcases hends with ⟨h1, h2, h3, h4⟩ | ⟨h1, h2, h3, h4⟩ <;> intro he <;> linarith)
    (by rcases hends with ⟨h1, h2, h3, h4⟩ | ⟨h1, h2, h3, h4⟩ <;> intro he <;> linarith)
  refine ⟨r, h1, h2.trans ⟨?_, ?_⟩⟩
  · rintro (⟨P, p1, p2⟩ | ⟨P, p1, p2⟩)
    · exact Or.inl ⟨P, p2, onRay_cone (Or.inl p1)⟩
    · exact Or.inl ⟨P, p2, onRay_cone (Or.inr p1)⟩
  · rintro (hm | ⟨h1, h2, h3, h4⟩ | ⟨h1, h2, h3, h4⟩)
    · exact Or.inl ((cone_rays h hends).1 hm)
    · exact absurd ⟨h3, h1⟩ c5
    · exact absurd ⟨h3, h1⟩ c4

/-- The common part from the parameters of its ends. -/
theorem part_of_params {O lo hi A B : P2 K} {u v : K} (hv : 0 ≤ v) (hvu : v ≤ u) (hu : u ≤ 1)
    (hin : ∀ t, 0 ≤ t → t ≤ 1 → (InConeOf O lo hi (A + t • (B - A)) ↔ v ≤ t ∧ t ≤ u)) (W : P2 K) :
    (OnSegment A B W ∧ InConeOf O lo hi W) ↔ OnSegment (A + u • (B - A)) (A + v • (B - A)) W := by
  constructor
  · rintro ⟨⟨t, t0, t1, rfl⟩, hW⟩
    obtain ⟨h1, h2⟩ := (hin t t0 t1).1 hW
    rcases hvu.eq_or_lt with h | h
    · exact ⟨0, le_rfl, zero_le_one, by rw [le_antisymm h2 (h ▸ h1)]; ext <;> simp⟩
    · refine ⟨(u - t) / (u - v), div_nonneg (by linarith) (by linarith), (div_le_one (by linarith)).2 (by linarith), ?_⟩
      have h0 : u - v ≠ 0 := by linarith
      ext <;> simp <;> field_simp <;> ring
  · rintro ⟨s, s0, s1, rfl⟩
    have e : A + u • (B - A) + s • (A + v • (B - A) - (A + u • (B - A))) = A + (u + s * (v - u)) • (B - A) := by
      ext <;> simp <;> ring
    rw [e]
    have h1 : v ≤ u + s * (v - u) := by nlinarith
    have h2 : u + s * (v - u) ≤ u := by nlinarith
    exact ⟨⟨_, by linarith, by linarith, rfl⟩, (hin _ (by linarith) (by linarith)).2 ⟨h1, h2⟩⟩

theorem affine_sign {x y u : K} (hu : (1 - u) * x + u * y = 0) (t : K) : (1 - t) * x + t * y = (u - t) * (x - y) := by
  linear_combination hu

/-- From inside across the line of the first ray. -/
theorem part_lo {O lo hi X Y Z : P2 K} (h : 0 < cross lo hi) (h1 : 0 < cross lo (X - O)) (h2 : cross hi (X - O) < 0)
    (h3 : cross lo (Y - O) < 0) (hZ : OnSegment X Y Z) (hl : cross lo (Z - O) = 0) (hc : cross hi (Z - O) ≤ 0)
    (W : P2 K) : (OnSegment X Y W ∧ InConeOf O lo hi W) ↔ OnSegment Z X W := by
  obtain ⟨u, u0, u1, rfl⟩ := hZ
  rw [cross_along] at hl hc
  have := part_of_params (O := O) (lo := lo) (hi := hi) (A := X) (B := Y) le_rfl u0 u1 (by
    intro t t0 t1
    rw [inConeOf_iff h, cross_along, cross_along, affine_sign hl]
    constructor
    · rintro ⟨g1, -⟩
      exact ⟨t0, by
        have := nonneg_of_mul_nonneg_left g1 (by linarith : 0 < cross lo (X - O) - cross lo (Y - O))
        linarith⟩
    · rintro ⟨-, g2⟩
      refine ⟨mul_nonneg (by linarith) (by linarith), ?_⟩
      rcases le_total (cross hi (Y - O)) 0 with g | g
      · have := mul_nonpos_of_nonneg_of_nonpos (by linarith : 0 ≤ 1 - t) h2.le
        have := mul_nonpos_of_nonneg_of_nonpos t0 g
        linarith
      · have := mul_nonneg (by linarith : 0 ≤ u - t) (by linarith : 0 ≤ cross hi (Y - O) - cross hi (X - O))
        linarith) W
  rw [this]
  have e : X + (0 : K) • (Y - X) = X := by ext <;> simp
  rw [e]

/-- From inside across the second ray, on the left of the first line. -/
theorem part_hi {O lo hi X Y Z : P2 K} (h : 0 < cross lo hi) (h1 : 0 < cross lo (X - O)) (h2 : cross hi (X - O) < 0)
    (h3 : 0 < cross hi (Y - O)) (h4 : 0 < cross lo (Y - O)) (hZ : OnSegment X Y Z) (hl : cross hi (Z - O) = 0)
    (W : P2 K) : (OnSegment X Y W ∧ InConeOf O lo hi W) ↔ OnSegment X Z W := by
  obtain ⟨u, u0, u1, rfl⟩ := hZ
  rw [cross_along] at hl
  have := part_of_params (O := O) (lo := lo) (hi := hi) (A := X) (B := Y) le_rfl u0 u1 (by
    intro t t0 t1
    rw [inConeOf_iff h, cross_along, cross_along, affine_sign hl]
    constructor
    · rintro ⟨-, g1⟩
      exact ⟨t0, by nlinarith⟩
    · rintro ⟨-, g2⟩
      exact ⟨by nlinarith, mul_nonpos_of_nonneg_of_nonpos (by linarith) (by linarith)⟩) W
  rw [this]
  have e : X + (0 : K) • (Y - X) = X := by ext <;> simp
  rw [e, onSegment_swap]

/-- From beyond the second ray to beyond the first one. -/
theorem part_both {O lo hi X Y P Q : P2 K} (h : 0 < cross lo hi) (h1 : 0 < cross lo (X - O))
    (h2 : 0 < cross hi (X - O)) (h3 : cross lo (Y - O) < 0) (h4 : cross hi (Y - O) < 0) (hP : OnSegment X Y P)
    (hQ : OnSegment X Y Q) (hl : OnRay O lo P) (hh : OnRay O hi Q)
    (W : P2 K) : (OnSegment X Y W ∧ InConeOf O lo hi W) ↔ OnSegment P Q W := by
  have cP := (inConeOf_iff h).1 (onRay_cone (hi := hi) (Or.inl hl))
  have cQ := (inConeOf_iff h).1 (onRay_cone (lo := lo) (Or.inr hh))
  have lP : cross lo (P - O) = 0 := by obtain ⟨t, -, rfl⟩ := hl; simp [cross]; ring
  have lQ : cross hi (Q - O) = 0 := by obtain ⟨t, -, rfl⟩ := hh; simp [cross]; ring
  obtain ⟨u, u0, u1, rfl⟩ := hP
  obtain ⟨v, v0, v1, rfl⟩ := hQ
  rw [cross_along] at lP lQ
  have hin : ∀ t, 0 ≤ t → t ≤ 1 → (InConeOf O lo hi (X + t • (Y - X)) ↔ v ≤ t ∧ t ≤ u) := by
    intro t t0 t1
    rw [inConeOf_iff h, cross_along, cross_along, affine_sign lP, affine_sign lQ]
    constructor
    · rintro ⟨g1, g2⟩
      have := nonneg_of_mul_nonneg_left g1 (by linarith : 0 < cross lo (X - O) - cross lo (Y - O))
      have : v - t ≤ 0 := by
        by_contra hc
        exact absurd g2 (not_le.2 (mul_pos (not_le.1 hc) (by linarith)))
      exact ⟨by linarith, by linarith⟩
    · rintro ⟨g1, g2⟩
      exact ⟨mul_nonneg (by linarith) (by linarith), mul_nonpos_of_nonpos_of_nonneg (by linarith) (by linarith)⟩
  have hvu : v ≤ u := ((hin u u0 u1).1 (onRay_cone (Or.inl hl))).1
  exact part_of_params v0 hvu u1 hin W

theorem onLine_dir {O v P : P2 K} (hv : v ≠ 0) : OnLine O (O + v) P ↔ cross v (P - O) = 0 := by
  have e : O + v - O = v := by ext <;> simp
  unfold OnLine
  rw [e]
  constructor
  · rintro ⟨t, rfl⟩
    simp [cross]; ring
  · intro h
    obtain ⟨t, ht⟩ := (cross_eq_zero_iff hv).1 h
    refine ⟨t, ?_⟩
    rw [← ht]
    ext <;> simp

theorem dir_ne {O v : P2 K} (hv : v ≠ 0) : O ≠ O + v := by
  intro h
  apply hv
  have hx := congrArg P2.x h
  have hy := congrArg P2.y h
  ext
  · simpa using hx.symm
  · simpa using hy.symm

/-- The line through the apex is crossed by a segment between its two sides. -/
theorem line_crossed {O v A B : P2 K} (hs : (0 < cross v (A - O) ∧ cross v (B - O) < 0) ∨
      (cross v (A - O) < 0 ∧ 0 < cross v (B - O))) :
    ∃ P, lineSegmentIntersect Cmp.direct O (O + v) A B = .ok (.crossing, some P) ∧ OnSegment A B P ∧
      cross v (P - O) = 0 := by
  have hv : v ≠ 0 := by rintro rfl; simp [cross] at hs
  have hne : cross v (A - O) - cross v (B - O) ≠ 0 := by
    rcases hs with h | h
    · exact (by linarith : 0 < cross v (A - O) - cross v (B - O)).ne'
    · exact (by linarith : cross v (A - O) - cross v (B - O) < 0).ne
  have hAB : A ≠ B := by rintro rfl; simp at hne
  obtain ⟨r, o, h1, h2, h3, h4, h5, h6, h7⟩ := C10_line_segment O (O + v) A B (dir_ne hv) hAB
  have hr : r = .crossing := by
    rw [h3]
    constructor
    · intro hp
      have e : O + v - O = v := by ext <;> simp
      rw [e] at hp
      have := (parallel_iff_cross hv).1 hp
      rw [cross_swap_sub v O A B] at this
      exact hne (by linarith)
    · set u := cross v (A - O) / (cross v (A - O) - cross v (B - O)) with hu
      have hz : (1 - u) * cross v (A - O) + u * cross v (B - O) = 0 := by rw [hu]; field_simp; ring
      have hu01 : 0 < u ∧ u < 1 := by
        rcases hs with h | h
        · exact ⟨div_pos h.1 (by linarith), (div_lt_one (by linarith)).2 (by linarith)⟩
        · exact ⟨div_pos_of_neg_of_neg h.1 (by linarith), (div_lt_one_of_neg (by linarith)).2 (by linarith)⟩
      refine ⟨A + u • (B - A), (onLine_dir hv).2 (by rw [cross_along, hz]), u, hu01.1, hu01.2, rfl⟩
  subst hr
  obtain ⟨P, hP⟩ := Option.isSome_iff_exists.1 (h6.1 (Or.inl rfl))
  subst hP
  obtain ⟨g1, g2, -⟩ := h7 P rfl
  exact ⟨P, h1, g2, (onLine_dir hv).1 g1⟩

/-- The line through the apex is missed by a segment on its left. -/
theorem line_missed {O v A B : P2 K} (hAB : A ≠ B) (h1 : 0 < cross v (A - O)) (h2 : 0 < cross v (B - O)) :
    lineSegmentIntersect Cmp.direct O (O + v) A B = .ok (.nonCrossing, none) := by
  have hv : v ≠ 0 := by rintro rfl; simp [cross] at h1
  obtain ⟨r, o, e1, e2, e3, e4, e5, e6, e7⟩ := C10_line_segment O (O + v) A B (dir_ne hv) hAB
  have hr : r = .nonCrossing := by
    rw [e2]
    rintro ⟨P, hP, t, t0, t1, rfl⟩
    have := (onLine_dir hv).1 hP
    rw [cross_along] at this
    rcases t0.eq_or_lt with rfl | t0
    · simp at this; linarith
    · have := mul_pos t0 h2
      have := mul_nonneg (sub_nonneg.2 t1) h1.le
      linarith
  subst hr
  have ho : o = none := by
    cases o with
    | none => rfl
    | some p => simp at e6
  rw [e1, ho]

/-- One ray, for a segment whose ends are not on its line. -/
theorem ray_answer {O v A B : P2 ℝ} (hAB : A ≠ B) (h1 : cross v (A - O) ≠ 0) : ∃ u x,
    normalize2 v = .ok u ∧ raySegment Cmp.direct O u A B = .ok x ∧ x.type ≠ .overlapping ∧
      ((x.type = .crossing ∨ x.type = .endpoint) ↔ ∃ P, OnRay O v P ∧ OnSegment A B P) ∧
      ((∃ P, OnRay O v P ∧ OnSegment A B P) → ∃ P, x.pts = [P] ∧ OnRay O v P ∧ OnSegment A B P) := by
  have hv : v ≠ 0 := by rintro rfl; simp [cross] at h1
  obtain ⟨k, hk, hn, hu⟩ := normalize2_unit hv
  have hunit : dot (k • v) (k • v) = 1 := by simpa [normSq] using hu
  obtain ⟨x, e, c⟩ := C11_ray_segment O (k • v) A B hunit hAB
  have hno : x.type ≠ .overlapping := by
    intro h
    obtain ⟨⟨s, hs⟩, ⟨t, ht⟩, -⟩ := c.overlapping.1 h
    apply h1
    have hx := congrArg P2.x hs
    have hy := congrArg P2.y hs
    have gx := congrArg P2.x ht
    have gy := congrArg P2.y ht
    simp at hx hy gx gy
    have f1 : k * v.x = (t - s) * (B.x - A.x) := by linarith
    have f2 : k * v.y = (t - s) * (B.y - A.y) := by linarith
    have : k * cross v (A - O) = 0 := by
      have e1 : A.x - O.x = -s * (B.x - A.x) := by linarith
      have e2 : A.y - O.y = -s * (B.y - A.y) := by linarith
      simp only [cross, P2.sub_x, P2.sub_y]
      rw [e1, e2]
      linear_combination (-s * (B.y - A.y)) * f1 + s * (B.x - A.x) * f2
    exact (mul_eq_zero.1 this).resolve_left hk.ne'
  have key : (x.type = .crossing ∨ x.type = .endpoint) ↔ ∃ P, OnRay O v P ∧ OnSegment A B P := by
    constructor
    · intro hty
      have : x.type ≠ .nonCrossing := by rcases hty with h | h <;> rw [h] <;> nofun
      rw [ne_eq, c.nonCrossing, not_not] at this
      obtain ⟨P, p1, p2⟩ := this
      exact ⟨P, (onRay_scale hk).1 p1, p2⟩
    · rintro ⟨P, ⟨t, t0, rfl⟩, s, s0, s1, hs⟩
      have hnp : ¬ Parallel (k • v) (B - A) := by
        intro hp
        have := (parallel_iff_cross (unit_ne_zero hunit)).1 hp
        rw [cross_scale] at this
        have hvc := (mul_eq_zero.1 this).resolve_left hk.ne'
        apply h1
        have hx := congrArg P2.x hs
        have hy := congrArg P2.y hs
        simp at hx hy
        simp only [cross, P2.sub_x, P2.sub_y] at hvc ⊢
        have e1 : A.x - O.x = t * v.x - s * (B.x - A.x) := by linarith
        have e2 : A.y - O.y = t * v.y - s * (B.y - A.y) := by linarith
        rw [e1, e2]
        linear_combination -s * hvc
      have hray : OnRay O (k • v) (O + t • v) := (onRay_scale hk).2 ⟨t, t0, rfl⟩
      rcases s0.eq_or_lt with rfl | s0
      · refine Or.inr (c.endpoint.2 ⟨hnp, Or.inl ?_⟩)
        have : O + t • v = A := by rw [hs]; ext <;> simp
        rwa [this] at hray
      rcases s1.eq_or_lt with rfl | s1
      · refine Or.inr (c.endpoint.2 ⟨hnp, Or.inr ?_⟩)
        have : O + t • v = B := by rw [hs]; ext <;> simp
        rwa [this] at hray
      · exact Or.inl (c.crossing.2 ⟨hnp, _, hray, s, s0, s1, hs⟩)
  refine ⟨_, x, hn, e, hno, key, fun hm => ?_⟩
  obtain ⟨P, hp, hP⟩ := c.point (key.2 hm)
  have := (hP P).2 rfl
  exact ⟨P, hp, (onRay_scale hk).1 this.1, this.2⟩

theorem rangeBoth_spec {A B lo hi O : P2 ℝ} (hAB : A ≠ B) (h1 : cross lo (A - O) ≠ 0) (h2 : cross hi (A - O) ≠ 0) :
    (rangeBoth Cmp.direct A B lo hi O = .ok none ∧
      ¬ ((∃ P, OnRay O lo P ∧ OnSegment A B P) ∧ ∃ P, OnRay O hi P ∧ OnSegment A B P)) ∨
    ∃ P Q, rangeBoth Cmp.direct A B lo hi O = .ok (some (P, Q)) ∧ OnRay O lo P ∧ OnSegment A B P ∧ OnRay O hi Q ∧
      OnSegment A B Q := by
  obtain ⟨u, x, e1, e2, e3, e4, e5⟩ := ray_answer hAB h1
  obtain ⟨w, y, f1, f2, f3, f4, f5⟩ := ray_answer hAB h2
  by_cases hc : (x.type = .crossing ∨ x.type = .endpoint) ∧ (y.type = .crossing ∨ y.type = .endpoint)
  · obtain ⟨P, p1, p2, p3⟩ := e5 (e4.1 hc.1)
    obtain ⟨Q, q1, q2, q3⟩ := f5 (f4.1 hc.2)
    refine Or.inr ⟨P, Q, ?_, p2, p3, q2, q3⟩
    simp only [rangeBoth, e1, e2, f1, f2, if_pos hc, p1, q1]
  · refine Or.inl ⟨?_, by rwa [e4, f4] at hc⟩
    simp only [rangeBoth, e1, e2, f1, f2, if_neg hc]
    rw [if_neg (by simp [e3, f3])]

/-- What a correct answer of the overload with points is. -/
def RangeAnswer (A B lo hi O : P2 ℝ) (r : Option (P2 ℝ × P2 ℝ)) : Prop :=
  (r = none ↔ ¬ ∃ P, OnSegment A B P ∧ InConeOf O lo hi P) ∧
    ∀ P Q, r = some (P, Q) → ∀ W, (OnSegment A B W ∧ InConeOf O lo hi W) ↔ OnSegment P Q W

theorem rangeAnswer_some {A B lo hi O P Q : P2 ℝ}
    (h : ∀ W, (OnSegment A B W ∧ InConeOf O lo hi W) ↔ OnSegment P Q W) : RangeAnswer A B lo hi O (some (P, Q)) := by
  refine ⟨?_, ?_⟩
  · simp only [reduceCtorEq, false_iff, not_not]
    exact ⟨P, (h P).2 (onSegment_left _ _)⟩
  · rintro P' Q' e
    cases e
    exact h

theorem rangeAnswer_none {A B lo hi O : P2 ℝ} (h : ¬ ∃ P, OnSegment A B P ∧ InConeOf O lo hi P) :
    RangeAnswer A B lo hi O none := ⟨by simpa using h, nofun⟩

theorem rangeAnswer_swap {A B lo hi O : P2 ℝ} {r} (h : RangeAnswer A B lo hi O r) : RangeAnswer B A lo hi O r := by
  refine ⟨by rw [h.1, segment_swap_iff], fun P Q e W => ?_⟩
  rw [onSegment_swap B A]
  exact h.2 P Q e W

/-- One end in the cone, whichever way the segment is given. -/
theorem rangeMixed_spec {A B lo hi O X Y : P2 ℝ} (h : 0 < cross lo hi) (hXY : (A = X ∧ B = Y) ∨ (A = Y ∧ B = X))
    (h1 : 0 < cross lo (X - O)) (h2 : cross hi (X - O) < 0)
    (h3 : cross lo (Y - O) < 0 ∨ (0 < cross lo (Y - O) ∧ 0 < cross hi (Y - O)))
    (hop : ¬ ∃ t : ℝ, 0 < t ∧ OnSegment A B (O - t • lo)) :
    ∃ r, rangeMixed Cmp.direct A B lo hi O X = .ok r ∧ RangeAnswer A B lo hi O r := by
  have hlo : lo ≠ 0 := by rintro rfl; simp [cross] at h
  have hsw : ∀ {r}, RangeAnswer X Y lo hi O r → RangeAnswer A B lo hi O r := by
    intro r hr
    rcases hXY with ⟨rfl, rfl⟩ | ⟨rfl, rfl⟩
    · exact hr
    · exact rangeAnswer_swap hr
  have hseg : ∀ {P}, OnSegment A B P ↔ OnSegment X Y P := by
    intro P
    rcases hXY with ⟨rfl, rfl⟩ | ⟨rfl, rfl⟩
    · rfl
    · exact onSegment_swap _ _ _
  rcases h3 with h3 | ⟨h3, h4⟩
  · obtain ⟨P, e, hP, hz⟩ := line_crossed (O := O) (v := lo) (A := A) (B := B) (by
      rcases hXY with ⟨rfl, rfl⟩ | ⟨rfl, rfl⟩
      · exact Or.inl ⟨h1, h3⟩
      · exact Or.inr ⟨h3, h1⟩)
    refine ⟨_, by unfold rangeMixed; rw [e], hsw (rangeAnswer_some (part_lo h h1 h2 h3 (hseg.1 hP) hz ?_))⟩
    obtain ⟨t, ht⟩ := (cross_eq_zero_iff hlo).1 hz
    rw [ht]
    have e' : cross hi (t • lo) = -(t * cross lo hi) := by simp [cross]; ring
    rw [e']
    have t0 : 0 ≤ t := by
      by_contra hc
      refine hop ⟨-t, by linarith, ?_⟩
      have : O - (-t) • lo = P := by
        have hx := congrArg P2.x ht
        have hy := congrArg P2.y ht
        simp at hx hy
        ext
        · simp; linarith
        · simp; linarith
      rw [this]
      exact hP
    have := mul_nonneg t0 h.le
    linarith
  · have hAB : A ≠ B := by
      rcases hXY with ⟨rfl, rfl⟩ | ⟨rfl, rfl⟩
      · rintro rfl; linarith
      · rintro rfl; linarith
    have e := line_missed (O := O) (v := lo) (A := A) (B := B) hAB
      (by rcases hXY with ⟨rfl, rfl⟩ | ⟨rfl, rfl⟩ <;> assumption)
      (by rcases hXY with ⟨rfl, rfl⟩ | ⟨rfl, rfl⟩ <;> assumption)
    obtain ⟨P, e', hP, hz⟩ := line_crossed (O := O) (v := hi) (A := A) (B := B) (by
      rcases hXY with ⟨rfl, rfl⟩ | ⟨rfl, rfl⟩
      · exact Or.inr ⟨h2, h4⟩
      · exact Or.inl ⟨h4, h2⟩)
    refine ⟨_, by unfold rangeMixed; rw [e]; dsimp only; unfold rangeHi; rw [e'], ?_⟩
    exact hsw (rangeAnswer_some (part_hi h h1 h2 h4 h3 (hseg.1 hP) hz))

/-- The scalar products that the code asks for. -/
theorem dots_pos {O lo hi X : P2 ℝ} (h : 0 < cross lo hi) (hd : dot lo hi ≤ 0) :
    (0 < cross lo (X - O) → 0 < cross hi (X - O) → 0 < dot hi (X - O)) ∧
    (cross lo (X - O) < 0 → cross hi (X - O) < 0 → 0 < dot lo (X - O)) := by
  have hlo : 0 < dot lo lo := by
    rcases (normSq_nonneg lo).eq_or_lt with e | e
    · have := normSq_eq_zero.1 e.symm
      subst this
      simp [cross] at h
    · exact e
  have hhi : 0 < dot hi hi := by
    rcases (normSq_nonneg hi).eq_or_lt with e | e
    · have := normSq_eq_zero.1 e.symm
      subst this
      simp [cross] at h
    · exact e
  have k1 : cross lo hi * dot hi (X - O) = cross lo (X - O) * dot hi hi - cross hi (X - O) * dot lo hi := by
    simp [cross, dot]; ring
  have k2 : cross lo hi * dot lo (X - O) = cross lo (X - O) * dot lo hi - cross hi (X - O) * dot lo lo := by
    simp [cross, dot]; ring
  constructor
  · intro h1 h2
    have := mul_pos h1 hhi
    have := mul_nonpos_of_nonneg_of_nonpos h2.le hd
    exact pos_of_mul_pos_right (a := cross lo hi) (by linarith) h.le
  · intro h1 h2
    have := mul_pos_of_neg_of_neg h2 (neg_neg_of_pos hlo)
    have := mul_nonneg_of_nonpos_of_nonpos h1.le hd
    have := mul_pos (neg_pos.2 h2) hlo
    exact pos_of_mul_pos_right (a := cross lo hi) (by linarith) h.le

theorem segInRangePoints_spec {A B lo hi O : P2 ℝ} (h : 0 < cross lo hi) (hd : dot lo hi ≤ 0) (hAB : A ≠ B)
    (a1 : cross lo (A - O) ≠ 0) (a2 : cross hi (A - O) ≠ 0) (b1 : cross lo (B - O) ≠ 0) (b2 : cross hi (B - O) ≠ 0)
    (hop : ¬ ∃ t : ℝ, 0 < t ∧ OnSegment A B (O - t • lo)) :
    ∃ r, segInRangePoints Cmp.direct A B lo hi O = .ok r ∧ RangeAnswer A B lo hi O r := by
  unfold segInRangePoints
  simp only [ge_iff_le, gt_iff_lt]
  by_cases cA : 0 ≤ cross lo (A - O) ∧ cross hi (A - O) ≤ 0 <;> by_cases cB : 0 ≤ cross lo (B - O) ∧ cross hi (B - O) ≤ 0
  · rw [if_pos (by simp [cA, cB])]
    refine ⟨_, rfl, rangeAnswer_some fun W => ⟨fun hW => hW.1, fun hW => ⟨hW, ?_⟩⟩⟩
    obtain ⟨t, t0, t1, rfl⟩ := hW
    rw [inConeOf_iff h, cross_along, cross_along]
    refine ⟨add_nonneg (mul_nonneg (by linarith) cA.1) (mul_nonneg t0 cB.1), ?_⟩
    have := mul_nonpos_of_nonneg_of_nonpos (sub_nonneg.2 t1) cA.2
    have := mul_nonpos_of_nonneg_of_nonpos t0 cB.2
    linarith
  · rw [if_neg (by simp [cB]), if_pos (by simp [cA, cB]), if_pos (by simp [cA])]
    refine rangeMixed_spec h (Or.inl ⟨rfl, rfl⟩) (cA.1.lt_of_ne' a1) (cA.2.lt_of_ne a2) ?_ hop
    rcases lt_or_gt_of_ne b1 with g | g
    · exact Or.inl g
    · exact Or.inr ⟨g, lt_of_not_ge fun g' => cB ⟨g.le, g'⟩⟩
  · rw [if_neg (by simp [cA]), if_pos (by simp [cA, cB]), if_neg (by simp [cA])]
    refine rangeMixed_spec h (Or.inr ⟨rfl, rfl⟩) (cB.1.lt_of_ne' b1) (cB.2.lt_of_ne b2) ?_ hop
    rcases lt_or_gt_of_ne a1 with g | g
    · exact Or.inl g
    · exact Or.inr ⟨g, lt_of_not_ge fun g' => cA ⟨g.le, g'⟩⟩
  · rw [if_neg (by simp [cA]), if_neg (by simp [cA, cB])]
    by_cases c3 : (0 < cross hi (A - O) ∧ 0 < cross hi (B - O)) ∨ (cross lo (A - O) < 0 ∧ cross lo (B - O) < 0)
    · have hm := same_side_misses h c3
      split_ifs with c4 c5
      · rcases rangeBoth_spec hAB a1 a2 with ⟨e, -⟩ | ⟨P, Q, e, p1, p2, -⟩
        · exact ⟨_, e, rangeAnswer_none hm⟩
        · exact absurd ⟨P, p2, onRay_cone (Or.inl p1)⟩ hm
      · rcases c5 with c5 | c5
        · exact absurd c5.1 a2
        · exact absurd c5.1 b2
      · exact ⟨_, rfl, rangeAnswer_none hm⟩
    · have hends := ends_outside cA cB c3
      have hr := cone_rays h hends
      rw [if_pos (by
        rcases hends with ⟨g1, g2, g3, g4⟩ | ⟨g1, g2, g3, g4⟩
        · exact Or.inl ⟨g1.le, g4, (dots_pos h hd).1 (g2.lt_of_ne' a1) g1, (dots_pos h hd).2 g4 (g3.lt_of_ne b2)⟩
        · exact Or.inr ⟨g1.le, g4, (dots_pos h hd).1 (g2.lt_of_ne' b1) g1, (dots_pos h hd).2 g4 (g3.lt_of_ne a2)⟩)]
      rcases rangeBoth_spec hAB a1 a2 with ⟨e, hn⟩ | ⟨P, Q, e, p1, p2, q1, q2⟩
      · exact ⟨_, e, rangeAnswer_none fun hm => hn ⟨hr.1 hm, hr.2 hm⟩⟩
      · refine ⟨_, e, ?_⟩
        rcases hends with ⟨g1, g2, g3, g4⟩ | ⟨g1, g2, g3, g4⟩
        · exact rangeAnswer_some (part_both h (g2.lt_of_ne' a1) g1 g4 (g3.lt_of_ne b2) p2 q2 p1 q1)
        · refine rangeAnswer_swap (rangeAnswer_some (part_both h (g2.lt_of_ne' b1) g1 g4 (g3.lt_of_ne a2) ?_ ?_ p1 q1))
          · exact (onSegment_swap _ _ _).1 p2
          · exact (onSegment_swap _ _ _).1 q2

end Geometrix
