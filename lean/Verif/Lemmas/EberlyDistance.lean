import Verif.Model.EberlyDistance
import Verif.Spec.Polyline
import Verif.Lemmas.Distance

/-!
# Lemmas about Eberly's distance of two segments
-/

set_option linter.unusedSectionVars false

namespace Geometrix

open Spec

variable {K : Type*} [Field K] [LinearOrder K] [IsStrictOrderedRing K]

theorem eberlyValue_eq (p1 p2 p3 p4 : P2 K) (s t : K) :
    eberlyValue p1 p2 p3 p4 s t = sqDist (p1 + s • (p2 - p1)) (p3 + t • (p4 - p3)) := by
  unfold eberlyValue
  simp only
  split_ifs with h1 h2 h3 h4 h5 h6 h7 h8 <;> (try subst h1) <;> (try subst h2) <;> (try subst h3) <;> (try subst h4) <;>
    (try subst h5) <;> (try subst h6) <;> (try subst h7) <;> (try subst h8) <;>
    simp only [normSq, dot, sqDist, P2.add_x, P2.add_y, P2.smul_x, P2.smul_y, P2.sub_x, P2.sub_y] <;> ring

/-- Half the derivatives of the squared distance by the two parameters, as in the code: a minimum over the two segments
is where they have the signs that a minimum over a square needs. -/
theorem box_min {p1 p2 p3 p4 : P2 K} {s t : K} (hs0 : 0 ≤ s) (hs1 : s ≤ 1) (ht0 : 0 ≤ t) (ht1 : t ≤ 1)
    (gs : ∀ s', 0 ≤ s' → s' ≤ 1 → 0 ≤ (distSq p1 p2 * s + dot (-(p2 - p1)) (p4 - p3) * t + dot (p2 - p1) (p1 - p3)) *
      (s' - s))
    (gt : ∀ t', 0 ≤ t' → t' ≤ 1 → 0 ≤ (dot (-(p2 - p1)) (p4 - p3) * s + distSq p3 p4 * t + dot (-(p4 - p3)) (p1 - p3)) *
      (t' - t)) :
    IsMinDist (OnSegment p1 p2) (OnSegment p3 p4) (eberlyValue p1 p2 p3 p4 s t) := by
  constructor
  · exact ⟨(p1 + s • (p2 - p1), p3 + t • (p4 - p3)), ⟨⟨s, hs0, hs1, rfl⟩, t, ht0, ht1, rfl⟩,
      (eberlyValue_eq _ _ _ _ _ _).symm⟩
  · rintro ⟨P, Q⟩ ⟨⟨s', s0, s1, rfl⟩, t', t0, t1, rfl⟩
    have k1 := gs s' s0 s1
    have k2 := gt t' t0 t1
    rw [eberlyValue_eq]
    have hid : sqDist (p1 + s' • (p2 - p1)) (p3 + t' • (p4 - p3)) = sqDist (p1 + s • (p2 - p1)) (p3 + t • (p4 - p3)) +
        2 * ((distSq p1 p2 * s + dot (-(p2 - p1)) (p4 - p3) * t + dot (p2 - p1) (p1 - p3)) * (s' - s)) +
        2 * ((dot (-(p2 - p1)) (p4 - p3) * s + distSq p3 p4 * t + dot (-(p4 - p3)) (p1 - p3)) * (t' - t)) +
        (((s' - s) * (p2.x - p1.x) - (t' - t) * (p4.x - p3.x)) ^ 2 +
          ((s' - s) * (p2.y - p1.y) - (t' - t) * (p4.y - p3.y)) ^ 2) := by
      simp only [sqDist, distSq, normSq, dot, P2.add_x, P2.add_y, P2.smul_x, P2.smul_y, P2.sub_x, P2.sub_y, P2.neg_x,
        P2.neg_y]
      ring
    show _ ≤ sqDist (p1 + s' • (p2 - p1)) (p3 + t' • (p4 - p3))
    rw [hid]
    have := sq_nonneg ((s' - s) * (p2.x - p1.x) - (t' - t) * (p4.x - p3.x))
    have := sq_nonneg ((s' - s) * (p2.y - p1.y) - (t' - t) * (p4.y - p3.y))
    linarith

/-- The sign conditions of a minimum on an interval. -/
theorem sign_cond {g s : K} (h : g = 0 ∨ (s = 0 ∧ 0 ≤ g) ∨ (s = 1 ∧ g ≤ 0)) :
    ∀ s', 0 ≤ s' → s' ≤ 1 → 0 ≤ g * (s' - s) := by
  intro s' h0 h1
  rcases h with rfl | ⟨rfl, hg⟩ | ⟨rfl, hg⟩
  · simp
  · rw [sub_zero]; exact mul_nonneg hg h0
  · exact mul_nonneg_of_nonpos_of_nonpos hg (by linarith)

theorem eberlyCorner_range {a b c d e s t : K} (ha : 0 < a) (hc : 0 < c)
    (h : eberlyCorner a b c d e = .ok (s, t)) : 0 ≤ s ∧ s ≤ 1 ∧ 0 ≤ t ∧ t ≤ 1 := by
  unfold eberlyCorner cdiv at h
  simp only [ha.ne', hc.ne', if_false] at h
  split_ifs at h with h1 h2 h3 h4 <;>
    (simp only [Except.ok.injEq, Prod.mk.injEq] at h; obtain ⟨rfl, rfl⟩ := h)
  · exact ⟨le_refl _, zero_le_one, zero_le_one, le_refl _⟩
  · exact ⟨div_nonneg (by linarith) ha.le, by rw [div_le_one ha]; linarith, zero_le_one, le_refl _⟩
  · exact ⟨zero_le_one, le_refl _, le_refl _, zero_le_one⟩
  · exact ⟨zero_le_one, le_refl _, div_nonneg (by linarith) hc.le, by rw [div_le_one hc]; linarith⟩
  · exact ⟨zero_le_one, le_refl _, zero_le_one, le_refl _⟩

theorem eberlyEdge_range {b c e s t : K} (hc : 0 < c)
    (h : eberlyEdge b c e = .ok (s, t)) : 0 ≤ s ∧ s ≤ 1 ∧ 0 ≤ t ∧ t ≤ 1 := by
  unfold eberlyEdge cdiv at h
  simp only [hc.ne', if_false] at h
  split_ifs at h with h1 h2 <;>
    (simp only [Except.ok.injEq, Prod.mk.injEq] at h; obtain ⟨rfl, rfl⟩ := h)
  · exact ⟨zero_le_one, le_refl _, le_refl _, zero_le_one⟩
  · exact ⟨zero_le_one, le_refl _, zero_le_one, le_refl _⟩
  · exact ⟨zero_le_one, le_refl _, div_nonneg (by linarith) hc.le, by rw [div_le_one hc]; linarith⟩

theorem eberlyCorner_ok {a b c d e : K} (ha : 0 < a) (hc : 0 < c) : ∃ s t, eberlyCorner a b c d e = .ok (s, t) := by
  unfold eberlyCorner cdiv
  simp only [ha.ne', hc.ne', if_false]
  split_ifs <;> exact ⟨_, _, rfl⟩

theorem eberlyEdge_ok {b c e : K} (hc : 0 < c) : ∃ s t, eberlyEdge b c e = .ok (s, t) := by
  unfold eberlyEdge cdiv
  simp only [hc.ne', if_false]
  split_ifs <;> exact ⟨_, _, rfl⟩

/-- For segments that are not parallel the parameters are in range. -/
theorem eberlyParams_range {a b c d e det s t : K} (ha : 0 < a) (hc : 0 < c) (hd : det ≠ 0) :
    ∃ s' t', eberlyParams a b c d e det s t = .ok (s', t') ∧ 0 ≤ s' ∧ s' ≤ 1 ∧ 0 ≤ t' ∧ t' ≤ 1 := by
  obtain ⟨s1, t1, e1⟩ := eberlyCorner_ok (b := b) (d := d) (e := e) ha hc
  obtain ⟨s2, t2, e2⟩ := eberlyEdge_ok (b := b) (e := e) hc
  unfold eberlyParams
  rw [if_neg hd]
  split_ifs with h1 h2 h3 h4 h5 h6 h7 h8
  · have hp : 0 < det := lt_of_le_of_ne (h1.trans h2) (Ne.symm hd)
    refine ⟨s * (1 / det), t * (1 / det), by simp only [eberlyRegion0, cdiv, hd, if_false], ?_⟩
    rw [mul_one_div, mul_one_div, div_le_one hp, div_le_one hp]
    exact ⟨div_nonneg h1 hp.le, h2, div_nonneg h3 hp.le, h4⟩
  all_goals first
    | exact ⟨s1, t1, e1, eberlyCorner_range ha hc e1⟩
    | exact ⟨s2, t2, e2, eberlyEdge_range hc e2⟩

theorem distSq_pos {p q : P2 K} (h : p ≠ q) : 0 < distSq p q := by
  have hn : 0 ≤ distSq p q := by
    simp only [distSq, normSq, dot, P2.sub_x, P2.sub_y]; nlinarith [sq_nonneg (q.x - p.x), sq_nonneg (q.y - p.y)]
  refine lt_of_le_of_ne hn (fun e => h ?_)
  simp only [distSq, normSq, dot, P2.sub_x, P2.sub_y] at e
  have hx : q.x - p.x = 0 := by nlinarith [sq_nonneg (q.x - p.x), sq_nonneg (q.y - p.y)]
  have hy : q.y - p.y = 0 := by nlinarith [sq_nonneg (q.x - p.x), sq_nonneg (q.y - p.y)]
  exact P2.ext (by linarith) (by linarith)

/-- The rule for the corner satisfies the sign conditions where the unconstrained minimum is beyond both ends. -/
theorem eberlyCorner_signs {a b c d e S T : K} (ha : 0 < a) (hc : 0 < c) (hD : 0 < a * c - b ^ 2) (hS : 1 ≤ S)
    (hT : 1 ≤ T) (h1 : a * S + b * T = -d) (h2 : b * S + c * T = -e) {s t : K}
    (h : eberlyCorner a b c d e = .ok (s, t)) :
    (a * s + b * t + d = 0 ∨ (s = 0 ∧ 0 ≤ a * s + b * t + d) ∨ (s = 1 ∧ a * s + b * t + d ≤ 0)) ∧
    (b * s + c * t + e = 0 ∨ (t = 0 ∧ 0 ≤ b * s + c * t + e) ∨ (t = 1 ∧ b * s + c * t + e ≤ 0)) := by
  have hd : d = -(a * S + b * T) := by linarith
  have he : e = -(b * S + c * T) := by linarith
  subst hd; subst he
  unfold eberlyCorner cdiv at h
  simp only [ha.ne', hc.ne', if_false] at h
  have aux : ∀ {a b c S T : K}, 0 < a → 0 < c → 0 < a * c - b ^ 2 → 1 ≤ S → 1 ≤ T → 0 < b + -(a * S + b * T) →
      c + -(b * S + c * T) ≤ 0 := by
    intro a b c S T ha hc hD hS hT h
    have hb : b < 0 := by
      by_contra hb
      have k1 := mul_nonneg (not_lt.1 hb) (sub_nonneg.2 hT)
      have k2 := mul_pos ha (by linarith : 0 < S)
      nlinarith
    have k : a * S < -b * (T - 1) := by linarith
    have k2 : a * (-b * S) < b ^ 2 * (T - 1) := by nlinarith
    have k3 : b ^ 2 * (T - 1) ≤ a * c * (T - 1) := by nlinarith
    have k4 : a * (-b * S) < a * (c * (T - 1)) := by linarith
    have := lt_of_mul_lt_mul_left k4 ha.le
    linarith
  split_ifs at h with c1 c2 c3 c4 <;>
    (simp only [Except.ok.injEq, Prod.mk.injEq] at h; obtain ⟨rfl, rfl⟩ := h)
  · refine ⟨Or.inr (Or.inl ⟨rfl, by linarith⟩), Or.inr (Or.inr ⟨rfl, ?_⟩)⟩
    have := aux ha hc hD hS hT c2
    linarith
  · have hz : a * (-(b + -(a * S + b * T)) / a) = -(b + -(a * S + b * T)) := by field_simp
    refine ⟨Or.inl (by linarith), Or.inr (Or.inr ⟨rfl, ?_⟩)⟩
    have e1 : a * (b * (-(b + -(a * S + b * T)) / a) + c * 1 + -(b * S + c * T)) = -((a * c - b ^ 2) * (T - 1)) := by
      linear_combination b * hz
    have e2 := mul_nonneg hD.le (sub_nonneg.2 hT)
    by_contra hcon
    have := mul_pos ha (not_le.1 hcon)
    linarith
  · refine ⟨Or.inr (Or.inr ⟨rfl, ?_⟩), Or.inr (Or.inl ⟨rfl, by linarith⟩)⟩
    have := aux (a := c) (b := b) (c := a) (S := T) (T := S) hc ha (by linarith) hT hS (by linarith)
    linarith
  · have hz : c * (-(b + -(b * S + c * T)) / c) = -(b + -(b * S + c * T)) := by field_simp
    refine ⟨Or.inr (Or.inr ⟨rfl, ?_⟩), Or.inl (by linarith)⟩
    have e1 : c * (a * 1 + b * (-(b + -(b * S + c * T)) / c) + -(a * S + b * T)) = -((a * c - b ^ 2) * (S - 1)) := by
      linear_combination b * hz
    have e2 := mul_nonneg hD.le (sub_nonneg.2 hS)
    by_contra hcon
    have := mul_pos hc (not_le.1 hcon)
    linarith
  · exact ⟨Or.inr (Or.inr ⟨rfl, by linarith⟩), Or.inr (Or.inr ⟨rfl, by linarith⟩)⟩

/-- The parallel branch satisfies the sign conditions unless the second segment has the same direction and starts behind
the first. Here the second direction is `k` times the first. -/
theorem eberlyParallel_signs {a d k : K} (ha : 0 < a) (h : k < 0 ∨ d ≤ 0) :
    ∃ s t, eberlyParallel a (-(k * a)) d = .ok (s, t) ∧ 0 ≤ s ∧ s ≤ 1 ∧ 0 ≤ t ∧ t ≤ 1 ∧
    (a * s + -(k * a) * t + d = 0 ∨ (s = 0 ∧ 0 ≤ a * s + -(k * a) * t + d) ∨
      (s = 1 ∧ a * s + -(k * a) * t + d ≤ 0)) ∧
    (-(k * a) * s + k ^ 2 * a * t + -(k * d) = 0 ∨ (t = 0 ∧ 0 ≤ -(k * a) * s + k ^ 2 * a * t + -(k * d)) ∨
      (t = 1 ∧ -(k * a) * s + k ^ 2 * a * t + -(k * d) ≤ 0)) := by
  unfold eberlyParallel cdiv
  simp only [ha.ne', if_false]
  have hr : ∀ s t : K, -(k * a) * s + k ^ 2 * a * t + -(k * d) = -k * (a * s + -(k * a) * t + d) := by
    intro s t; ring
  have hz : a * (-d / a) = -d := by field_simp
  split_ifs with c1 c2 c3 c4 c5 c6 c7 c8 c9
  · have hk : k < 0 := by
      by_contra hk
      have := mul_nonneg (not_lt.1 hk) ha.le
      linarith
    refine ⟨0, 0, rfl, le_refl _, zero_le_one, le_refl _, zero_le_one, Or.inr (Or.inl ⟨rfl, by linarith⟩),
      Or.inr (Or.inl ⟨rfl, ?_⟩)⟩
    rw [hr]; exact mul_nonneg (by linarith) (by linarith)
  · refine ⟨_, 0, rfl, div_nonneg (by linarith) ha.le, by rw [div_le_one ha]; exact c3, le_refl _, zero_le_one,
      Or.inl (by linarith), Or.inl ?_⟩
    rw [hr, hz]; ring
  · have hk : k < 0 := by
      by_contra hk
      have := mul_nonneg (not_lt.1 hk) ha.le
      linarith
    refine ⟨1, 1, rfl, zero_le_one, le_refl _, zero_le_one, le_refl _, Or.inr (Or.inr ⟨rfl, by linarith⟩),
      Or.inr (Or.inr ⟨rfl, ?_⟩)⟩
    rw [hr]; exact mul_nonpos_of_nonneg_of_nonpos (by linarith) (by linarith)
  · exfalso; linarith
  · have hzt : -(k * a) * (-(a + d) / -(k * a)) = -(a + d) := by
      rw [mul_div_assoc', mul_comm, mul_div_assoc, div_self c5, mul_one]
    refine ⟨1, _, rfl, zero_le_one, le_refl _, div_nonneg (by linarith) (by linarith), ?_, Or.inl (by linarith),
      Or.inl ?_⟩
    · rw [div_le_one c1]; linarith
    · rw [hr, hzt]; ring
  · have hk : 0 ≤ k := by
      by_contra hk
      have := mul_pos_of_neg_of_neg (not_le.1 hk) (neg_neg_of_pos ha)
      linarith
    refine ⟨1, 0, rfl, zero_le_one, le_refl _, le_refl _, zero_le_one, Or.inr (Or.inr ⟨rfl, by linarith⟩),
      Or.inr (Or.inl ⟨rfl, ?_⟩)⟩
    rw [hr]; exact mul_nonneg_of_nonpos_of_nonpos (by linarith) (by linarith)
  · refine ⟨_, 0, rfl, div_nonneg (by linarith) ha.le, by rw [div_le_one ha]; linarith, le_refl _, zero_le_one,
      Or.inl (by linarith), Or.inl ?_⟩
    rw [hr, hz]; ring
  all_goals
    exfalso
    have hk : 0 ≤ k := by
      by_contra hk
      have := mul_pos_of_neg_of_neg (not_le.1 hk) (neg_neg_of_pos ha)
      linarith
    rcases h with h | h
    · linarith
    · exact absurd h (by assumption)

end Geometrix
