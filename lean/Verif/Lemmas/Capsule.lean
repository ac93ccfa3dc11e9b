import Verif.Lemmas.MovingSphereSegment
import Verif.Props.SphereHits
import Verif.Lemmas.SegmentIntersection

/-!
# Lemmas on segments against capsules
-/

set_option linter.unusedSectionVars false

namespace Geometrix

open Spec

theorem isFirst_before {A S T : ℝ → Prop} {o : Option ℝ} (h : IsFirst A T o) (hTS : ∀ t, A t → T t → S t)
    (hST : ∀ t, A t → S t → ∃ t', A t' ∧ t' ≤ t ∧ T t') : IsFirst A S o := by
  cases o with
  | none =>
    intro t ht hs
    obtain ⟨t', h1, -, h3⟩ := hST t ht hs
    exact h t' h1 h3
  | some u =>
    obtain ⟨h1, h2, h3⟩ := h
    refine ⟨h1, hTS u h1 h2, fun t ht hs => ?_⟩
    obtain ⟨t', k1, k2, k3⟩ := hST t ht hs
    exact (h3 t' k1 k3).trans k2

/-- Something affine that is bounded at two times is bounded in between. -/
theorem affine_between {h0 h1 r t1 t2 u : ℝ} (h1' : t1 ≤ u) (h2' : u ≤ t2) (ha : |h0 + t1 * h1| ≤ r)
    (hb : |h0 + t2 * h1| ≤ r) : |h0 + u * h1| ≤ r := by
  rw [abs_le] at ha hb ⊢
  rcases le_total 0 h1 with h | h
  · constructor
    · nlinarith [mul_nonneg h (sub_nonneg.2 h1')]
    · nlinarith [mul_nonneg h (sub_nonneg.2 h2')]
  · constructor
    · nlinarith [mul_nonneg (neg_nonneg.2 h) (sub_nonneg.2 h2')]
    · nlinarith [mul_nonneg (neg_nonneg.2 h) (sub_nonneg.2 h1')]

/-- A segment that enters the strip around the axis of a capsule beyond the end at the position zero. -/
theorem capsule_end {s0 s1 h0 h1 r D tA : ℝ} (hr : 0 ≤ r) (hD : 0 ≤ D) (hA : |h0 + tA * h1| ≤ r)
    (hmin : ∀ t, |h0 + t * h1| ≤ r → tA ≤ t)
    (hout : ¬ ∃ x, (0 ≤ x ∧ x ≤ D) ∧ (s0 - x) ^ 2 + h0 ^ 2 ≤ r ^ 2)
    (hend : ¬ (D < s0 ∧ D < s0 + s1)) (hs : s0 + tA * s1 < 0) (t : ℝ) (ht : 0 ≤ t ∧ t ≤ 1)
    (hm : ∃ x, (0 ≤ x ∧ x ≤ D) ∧ (s0 + t * s1 - x) ^ 2 + (h0 + t * h1) ^ 2 ≤ r ^ 2) :
    ∃ t', (0 ≤ t' ∧ t' ≤ 1) ∧ t' ≤ t ∧ (s0 + t' * s1) ^ 2 + (h0 + t' * h1) ^ 2 ≤ r ^ 2 := by
  obtain ⟨x, hx, hd⟩ := hm
  have hht : |h0 + t * h1| ≤ r := abs_le_of_sq_le_sq (by nlinarith [sq_nonneg (s0 + t * s1 - x)]) hr
  have htt := hmin t hht
  by_cases hc : s0 + t * s1 ≤ 0
  · exact ⟨t, ht, le_refl _, by nlinarith [hx.1]⟩
  · push Not at hc
    have hs1 : 0 < s1 := by
      by_contra hn
      push Not at hn
      nlinarith [mul_nonneg (neg_nonneg.2 hn) (sub_nonneg.2 htt)]
    have hz : s0 + -s0 / s1 * s1 = 0 := by rw [div_mul_cancel₀ _ hs1.ne']; ring
    have hz1 : tA ≤ -s0 / s1 := by rw [le_div_iff₀ hs1]; linarith
    have hz2 : -s0 / s1 ≤ t := by rw [div_le_iff₀ hs1]; linarith
    have hz0 : 0 ≤ -s0 / s1 := by
      by_contra hn
      push Not at hn
      have hs0 : 0 < s0 := by
        by_contra h0
        push Not at h0
        have := div_nonneg (neg_nonneg.2 h0) hs1.le
        linarith
      have hh : |h0 + 0 * h1| ≤ r := affine_between (by linarith) ht.1 hA hht
      rw [zero_mul, add_zero] at hh
      by_cases hsD : s0 ≤ D
      · apply hout
        refine ⟨s0, ⟨hs0.le, hsD⟩, ?_⟩
        have := sq_le_sq' (by linarith [(abs_le.1 hh).1]) (abs_le.1 hh).2
        rw [sub_self]; linarith
      · push Not at hsD
        exact hend ⟨hsD, by linarith⟩
    refine ⟨-s0 / s1, ⟨hz0, hz2.trans ht.2⟩, hz2, ?_⟩
    have hh := affine_between hz1 hz2 hA hht
    rw [hz]
    have := sq_le_sq' (by linarith [(abs_le.1 hh).1]) (abs_le.1 hh).2
    linarith

/-- The end caps. -/
theorem capHit_spec (sa sb ctr : P2 ℝ) (r : ℝ) (h : sa ≠ sb) : ∃ o : Option ℝ,
    capHit Cmp.direct sa (sb - sa) (dot (sb - sa) (sb - sa)) ctr r =
      .ok (o.map fun t => ⟨some t, some (sa + t • (sb - sa))⟩) ∧
    IsFirst (fun t => 0 ≤ t ∧ t ≤ 1) (fun t => InDisc ctr r (sa + t • (sb - sa))) o := by
  obtain ⟨o, ho, hf, hq⟩ := C63_segment sa sb ctr r h
  refine ⟨o.map Prod.fst, ?_, hf⟩
  unfold capHit
  rw [csqrt_ok (dot_self_nonneg _)]
  dsimp only
  unfold segSphere at ho
  rw [ho]
  cases o with
  | none => rfl
  | some x =>
    obtain ⟨t, q⟩ := x
    rw [hq t q rfl]
    rfl

/-- A segment that starts outside a capsule and is not parallel to it. -/
theorem segCapsule_spec (sa sb p q : P2 ℝ) (r : ℝ) (hr : 0 ≤ r)
    (hpar : ¬ Parallel (sb - sa) (q - p))
    (hout : ¬ DiscMeets (OnSegment p q) sa r) : ∃ o : Option ℝ,
    segCapsule Cmp.direct sa sb p q r = .ok (o.map fun t => ⟨some t, some (sa + t • (sb - sa))⟩) ∧
    IsFirst (fun t => 0 ≤ t ∧ t ≤ 1) (fun t => DiscMeets (OnSegment p q) (sa + t • (sb - sa)) r) o := by
  have hn0 : sb - sa ≠ 0 := by
    intro h; apply hpar; right; exact ⟨0, by rw [h]; ext <;> simp⟩
  have hd0 : p ≠ q := by
    rintro rfl; apply hpar; left; exact ⟨0, by ext <;> simp⟩
  have hab : sa ≠ sb := by
    rintro rfl; apply hn0; ext <;> simp
  have hcross : cross (sb - sa) (q - p) ≠ 0 := fun h => hpar ((parallel_iff_cross hn0).2 h)
  obtain ⟨D, w, hD, hw, rfl, -⟩ := seg_frame hd0
  obtain ⟨op, hop, hfp⟩ := capHit_spec sa sb p r hab
  obtain ⟨oq, hoq, hfq⟩ := capHit_spec sa sb (p + D • w) r hab
  have hw' := hw
  simp only [dot] at hw'
  unfold segCapsule
  dsimp only
  simp only [direct_lt, direct_gt, decide_eq_true_eq, Bool.and_eq_true]
  rw [hop, hoq]
  -- everything in the frame
  have e1 : dot (sa - p) (p + D • w - p) = D * dot (sa - p) w := by
    simp only [dot, P2.add_x, P2.add_y, P2.smul_x, P2.smul_y, P2.sub_x, P2.sub_y]; ring
  have e2 : dot (sb - sa) (p + D • w - p) = D * dot (sb - sa) w := by
    simp only [dot, P2.add_x, P2.add_y, P2.smul_x, P2.smul_y, P2.sub_x, P2.sub_y]; ring
  have e3 : dot (p + D • w - p) (p + D • w - p) = D ^ 2 := by
    have : dot (p + D • w - p) (p + D • w - p) = D ^ 2 * dot w w := by
      simp only [dot, P2.add_x, P2.add_y, P2.smul_x, P2.smul_y, P2.sub_x, P2.sub_y]; ring
    rw [this, hw, mul_one]
  have e4 : dot (sb - sa) (sb - sa) = dot (sb - sa) w ^ 2 + dot (sb - sa) (leftNormal w) ^ 2 := by
    simp only [dot, leftNormal]
    linear_combination -((sb - sa).x ^ 2 + (sb - sa).y ^ 2) * hw'
  have e5 : dot (sa - p) (sa - p) = dot (sa - p) w ^ 2 + dot (sa - p) (leftNormal w) ^ 2 := by
    simp only [dot, leftNormal]
    linear_combination -((sa - p).x ^ 2 + (sa - p).y ^ 2) * hw'
  have e6 : dot (sa - p) (sb - sa) = dot (sa - p) w * dot (sb - sa) w +
      dot (sa - p) (leftNormal w) * dot (sb - sa) (leftNormal w) := by
    simp only [dot, leftNormal]
    linear_combination -((sa - p).x * (sb - sa).x + (sa - p).y * (sb - sa).y) * hw'
  have e7 : dot (sb - sa) (leftNormal w) ≠ 0 := by
    intro h
    apply hcross
    have : cross (sb - sa) (p + D • w - p) = -D * dot (sb - sa) (leftNormal w) := by
      simp only [dot, cross, leftNormal, P2.add_x, P2.add_y, P2.smul_x, P2.smul_y, P2.sub_x, P2.sub_y]; ring
    rw [this, h, mul_zero]
  have hsx : ∀ t : ℝ, dot (sa + t • (sb - sa) - p) w = dot (sa - p) w + t * dot (sb - sa) w := by
    intro t; simp only [dot, P2.add_x, P2.add_y, P2.smul_x, P2.smul_y, P2.sub_x, P2.sub_y]; ring
  have hhx : ∀ t : ℝ, dot (sa + t • (sb - sa)) (leftNormal w) - dot p (leftNormal w) =
      dot (sa - p) (leftNormal w) + t * dot (sb - sa) (leftNormal w) := by
    intro t; simp only [dot, P2.add_x, P2.add_y, P2.smul_x, P2.smul_y, P2.sub_x, P2.sub_y]; ring
  have hM : ∀ t : ℝ, DiscMeets (OnSegment p (p + D • w)) (sa + t • (sb - sa)) r ↔ ∃ x, (0 ≤ x ∧ x ≤ D) ∧
      (dot (sa - p) w + t * dot (sb - sa) w - x) ^ 2 +
        (dot (sa - p) (leftNormal w) + t * dot (sb - sa) (leftNormal w)) ^ 2 ≤ r ^ 2 := by
    intro t
    rw [frame_meets hw hD, hsx, hhx]
  have hswap : ∀ A C : P2 ℝ, InDisc A r C ↔ sqDist A C ≤ r ^ 2 := by
    intro A C; unfold InDisc sqDist
    constructor <;> intro h <;> linarith
  have hPp : ∀ t : ℝ, InDisc p r (sa + t • (sb - sa)) ↔ (dot (sa - p) w + t * dot (sb - sa) w) ^ 2 +
      (dot (sa - p) (leftNormal w) + t * dot (sb - sa) (leftNormal w)) ^ 2 ≤ r ^ 2 := by
    intro t
    rw [hswap, show sqDist p (sa + t • (sb - sa)) = sqDist (p + (0 : ℝ) • w) (sa + t • (sb - sa)) by
      congr 1; ext <;> simp, frame_dist hw, hsx, hhx, sub_zero]
  have hPq : ∀ t : ℝ, InDisc (p + D • w) r (sa + t • (sb - sa)) ↔ (dot (sa - p) w + t * dot (sb - sa) w - D) ^ 2 +
      (dot (sa - p) (leftNormal w) + t * dot (sb - sa) (leftNormal w)) ^ 2 ≤ r ^ 2 := by
    intro t
    rw [hswap, frame_dist hw, hsx, hhx]
  have hO : ¬ ∃ x, (0 ≤ x ∧ x ≤ D) ∧ (dot (sa - p) w - x) ^ 2 + dot (sa - p) (leftNormal w) ^ 2 ≤ r ^ 2 := by
    intro h
    apply hout
    have := (hM 0).2 (by simpa using h)
    rwa [show sa + (0 : ℝ) • (sb - sa) = sa by ext <;> simp] at this
  simp only [hPp] at hfp
  simp only [hPq] at hfq
  simp only [hM, e1, e2, e3, e4, e5, e6]
  clear hswap hM hPp hPq hsx hhx hop hoq e1 e2 e3 e4 e5 e6 hcross hout hw'
  generalize dot (sa - p) w = s0 at *
  generalize dot (sb - sa) w = s1 at *
  generalize dot (sa - p) (leftNormal w) = h0 at *
  generalize dot (sb - sa) (leftNormal w) = h1 at *
  have hng : ∀ y, D * y < 0 ↔ y < 0 := by
    intro y
    constructor
    · intro h; by_contra hn; push Not at hn; nlinarith [mul_nonneg hD.le hn]
    · intro h; nlinarith [mul_pos hD (neg_pos.2 h)]
  have hend1 : (D * s0 < 0 ∧ D * s0 + D * s1 < 0) ↔ s0 < 0 ∧ s0 + s1 < 0 := by
    rw [← mul_add, hng, hng]
  have hlt : ∀ y, D * y > D ^ 2 ↔ D < y := by
    intro y
    rw [gt_iff_lt, sq, mul_lt_mul_iff_right₀ hD]
  have hend2 : (D * s0 > D ^ 2 ∧ D * s0 + D * s1 > D ^ 2) ↔ D < s0 ∧ D < s0 + s1 := by
    rw [← mul_add, hlt, hlt]
  by_cases c1 : s0 < 0 ∧ s0 + s1 < 0
  · rw [if_pos (hend1.2 c1)]
    refine ⟨op, rfl, isFirst_congr hfp (fun _ => Iff.rfl) (fun t ht => ?_)⟩
    have hneg : s0 + t * s1 < 0 := by
      rcases le_total 0 s1 with h | h
      · nlinarith [mul_nonneg h (sub_nonneg.2 ht.2), c1.2]
      · nlinarith [mul_nonneg (neg_nonneg.2 h) ht.1, c1.1]
    constructor
    · rintro ⟨x, hx, hd⟩; nlinarith [hx.1]
    · intro h; exact ⟨0, ⟨le_refl _, hD.le⟩, by rw [sub_zero]; exact h⟩
  rw [if_neg (fun h => c1 (hend1.1 h))]
  by_cases c2 : D < s0 ∧ D < s0 + s1
  · rw [if_pos (hend2.2 c2)]
    refine ⟨oq, rfl, isFirst_congr hfq (fun _ => Iff.rfl) (fun t ht => ?_)⟩
    have hneg : D < s0 + t * s1 := by
      rcases le_total 0 s1 with h | h
      · nlinarith [mul_nonneg h ht.1, c2.1]
      · nlinarith [mul_nonneg (neg_nonneg.2 h) (sub_nonneg.2 ht.2), c2.2]
    constructor
    · rintro ⟨x, hx, hd⟩; nlinarith [hx.2]
    · intro h; exact ⟨D, ⟨hD.le, le_refl _⟩, h⟩
  rw [if_neg (fun h => c2 (hend2.1 h)), if_neg (not_lt.2 (abs_nonneg _))]
  have ea : D ^ 2 * (s1 ^ 2 + h1 ^ 2) - D * s1 * (D * s1) = D ^ 2 * h1 ^ 2 := by ring
  have eb : D ^ 2 * (s0 * s1 + h0 * h1) - D * s1 * (D * s0) = D ^ 2 * (h0 * h1) := by ring
  have ec : D ^ 2 * (s0 ^ 2 + h0 ^ 2 - r * r) - D * s0 * (D * s0) = D ^ 2 * (h0 ^ 2 - r ^ 2) := by ring
  have ed : D ^ 2 * (h0 * h1) * (D ^ 2 * (h0 * h1)) - D ^ 2 * h1 ^ 2 * (D ^ 2 * (h0 ^ 2 - r ^ 2)) =
      (D ^ 2 * (|h1| * r)) ^ 2 := by
    rw [mul_pow, mul_pow, sq_abs]; ring
  have hpos : 0 ≤ D ^ 2 * (|h1| * r) := by positivity
  have hne : D ^ 2 * h1 ^ 2 ≠ 0 := mul_ne_zero (pow_ne_zero 2 hD.ne') (pow_ne_zero 2 e7)
  rw [ea, eb, ec, ed, if_neg (not_lt.2 (sq_nonneg _)), csqrt_ok (sq_nonneg _), Real.sqrt_sq hpos]
  dsimp only
  rw [cdiv_ok hne]
  dsimp only
  obtain ⟨tA, htA⟩ : ∃ tA, tA = (-(D ^ 2 * (h0 * h1)) - D ^ 2 * (|h1| * r)) / (D ^ 2 * h1 ^ 2) := ⟨_, rfl⟩
  rw [← htA]
  have h1p : 0 < |h1| := abs_pos.2 e7
  have h1s : |h1| * |h1| = h1 ^ 2 := by rw [← sq, sq_abs]
  have htA' : tA * h1 ^ 2 = -(h0 * h1) - |h1| * r := by
    rw [htA]; field_simp
  have hA : |h0 + tA * h1| ≤ r := by
    have : |h1| * |h0 + tA * h1| = |h1| * r := by
      rw [← abs_mul, show h1 * (h0 + tA * h1) = h0 * h1 + tA * h1 ^ 2 by ring, htA',
        show h0 * h1 + (-(h0 * h1) - |h1| * r) = -(|h1| * r) by ring, abs_neg, abs_of_nonneg (by positivity)]
    exact (mul_left_cancel₀ h1p.ne' this).le
  have hmin : ∀ t, |h0 + t * h1| ≤ r → tA ≤ t := by
    intro t ht
    have h2 : |h1 * (h0 + t * h1)| ≤ |h1| * r := by
      rw [abs_mul]; exact mul_le_mul_of_nonneg_left ht h1p.le
    have h3 := (abs_le.1 h2).1
    have h4 : 0 < h1 ^ 2 := by positivity
    by_contra hn
    push Not at hn
    nlinarith
  have hx1 : D * s0 + tA * (D * s1) < 0 ↔ s0 + tA * s1 < 0 := by
    rw [show D * s0 + tA * (D * s1) = D * (s0 + tA * s1) by ring, hng]
  have hx2 : D * s0 + tA * (D * s1) > D ^ 2 ↔ D < s0 + tA * s1 := by
    rw [show D * s0 + tA * (D * s1) = D * (s0 + tA * s1) by ring, hlt]
  by_cases c3 : s0 + tA * s1 < 0
  · rw [if_pos (hx1.2 c3)]
    have hp' : IsFirst (fun t => 0 ≤ t ∧ t ≤ 1)
        (fun t => ∃ x, (0 ≤ x ∧ x ≤ D) ∧ (s0 + t * s1 - x) ^ 2 + (h0 + t * h1) ^ 2 ≤ r ^ 2) op :=
      isFirst_before hfp (fun t _ h => ⟨0, ⟨le_refl _, hD.le⟩, by rw [sub_zero]; exact h⟩)
        (fun t ht hm => capsule_end hr hD.le hA hmin hO c2 c3 t ht hm)
    by_cases c4 : 0 < s0 ^ 2 + h0 ^ 2 - r * r ∧ 0 < s0 * s1 + h0 * h1
    · rw [if_pos c4]
      refine ⟨none, rfl, ?_⟩
      cases op with
      | none => exact hp'
      | some u =>
        exfalso
        obtain ⟨hu, hu2, -⟩ := hfp
        nlinarith [mul_nonneg c4.2.le hu.1, sq_nonneg (u * s1), sq_nonneg (u * h1)]
    · rw [if_neg c4]
      exact ⟨op, rfl, hp'⟩
  rw [if_neg (fun h => c3 (hx1.1 h))]
  by_cases c5 : D < s0 + tA * s1
  · rw [if_pos (hx2.2 c5)]
    refine ⟨oq, rfl, isFirst_before hfq (fun t _ h => ⟨D, ⟨hD.le, le_refl _⟩, h⟩) (fun t ht hm => ?_)⟩
    obtain ⟨t', k1, k2, k3⟩ := capsule_end (s0 := D - s0) (s1 := -s1) hr hD.le hA hmin
      (by
        rintro ⟨x, hx, hd⟩
        exact hO ⟨D - x, ⟨by linarith [hx.2], by linarith [hx.1]⟩, by linarith⟩)
      (fun h => c1 ⟨by linarith [h.1], by linarith [h.2]⟩) (by linarith) t ht (by
        obtain ⟨x, hx, hd⟩ := hm
        exact ⟨D - x, ⟨by linarith [hx.2], by linarith [hx.1]⟩, by linarith⟩)
    exact ⟨t', k1, k2, by linarith⟩
  rw [if_neg (fun h => c5 (hx2.1 h))]
  push Not at c3 c5
  have hle : ∀ t, (∃ x, (0 ≤ x ∧ x ≤ D) ∧ (s0 + t * s1 - x) ^ 2 + (h0 + t * h1) ^ 2 ≤ r ^ 2) →
      |h0 + t * h1| ≤ r := by
    rintro t ⟨x, -, hx⟩
    exact abs_le_of_sq_le_sq (by nlinarith [sq_nonneg (s0 + t * s1 - x)]) hr
  by_cases c6 : tA ≥ 0 ∧ tA ≤ 1
  · rw [if_pos c6]
    refine ⟨some tA, rfl, c6, ⟨s0 + tA * s1, ⟨c3, c5⟩, ?_⟩, fun t _ hm => hmin t (hle t hm)⟩
    have := sq_le_sq' (by linarith [(abs_le.1 hA).1]) (abs_le.1 hA).2
    rw [sub_self]; linarith
  · rw [if_neg c6]
    refine ⟨none, rfl, fun t ht hm => ?_⟩
    have hht := hle t hm
    have htt := hmin t hht
    have htneg : tA < 0 := by
      by_contra hn
      exact c6 ⟨not_lt.1 hn, htt.trans ht.2⟩
    have hh : |h0 + 0 * h1| ≤ r := affine_between htneg.le ht.1 hA hht
    rw [zero_mul, add_zero] at hh
    have hsq := sq_le_sq' (by linarith [(abs_le.1 hh).1]) (abs_le.1 hh).2
    by_cases g1 : s0 < 0
    · apply c1
      have : s1 < 0 := by
        by_contra hn
        push Not at hn
        nlinarith [mul_nonneg hn (neg_nonneg.2 htneg.le)]
      exact ⟨g1, by linarith⟩
    · by_cases g2 : D < s0
      · apply c2
        have : 0 < s1 := by
          by_contra hn
          push Not at hn
          nlinarith [mul_nonneg (neg_nonneg.2 hn) (neg_nonneg.2 htneg.le)]
        exact ⟨g2, by linarith⟩
      · exact hO ⟨s0, ⟨not_lt.1 g1, not_lt.1 g2⟩, by rw [sub_self]; linarith⟩

end Geometrix
