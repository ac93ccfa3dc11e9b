import Verif.Model.Vector
import Verif.Spec.Vector
import Verif.Lemmas.Angle
import Verif.Lemmas.Orientation

/-!
# Lemmas on vector operations
-/

namespace Geometrix

open Spec Real

theorem normalize2_ok {v : P2 ℝ} (h : v ≠ 0) :
    normalize2 v = .ok ((1 / √(normSq v)) • v) := by
  unfold normalize2
  rw [if_neg (Real.sqrt_ne_zero'.2 (normSq_pos h))]

theorem normalize2_zero : normalize2 (0 : P2 ℝ) = .error .assertFailed := by
  unfold normalize2
  rw [if_pos (by simp [normSq, dot])]

theorem normalize2_isUnit {v : P2 ℝ} (h : v ≠ 0) : IsUnitVec ((1 / √(normSq v)) • v) := by
  have hp := normSq_pos h
  have hs := Real.sqrt_pos.2 hp
  have h2 := Real.sq_sqrt hp.le
  set s := √(normSq v)
  unfold IsUnitVec
  simp only [P2.smul_x, P2.smul_y]
  have hs' := hs.ne'
  field_simp
  rw [h2]; unfold normSq dot; ring

/-- The normalisation of a positive multiple of a unit vector is that vector. -/
theorem normalize2_of_unit {u : P2 ℝ} {k : ℝ} (hk : 0 < k) (hu : IsUnitVec u) :
    normalize2 (k • u) = .ok u := by
  have hn : normSq (k • u) = k ^ 2 := by
    unfold IsUnitVec at hu
    simp only [normSq, dot, P2.smul_x, P2.smul_y]
    linear_combination k ^ 2 * hu
  unfold normalize2
  rw [hn, Real.sqrt_sq hk.le, if_neg hk.ne']
  congr 1
  ext
  · simp only [P2.smul_x]; field_simp
  · simp only [P2.smul_y]; field_simp

theorem isUnit_turn {u : P2 ℝ} (hu : IsUnitVec u) (θ : ℝ) : IsUnitVec (turn θ u) := by
  unfold IsUnitVec at *
  simp only [turn]
  linear_combination hu * (sin θ ^ 2 + cos θ ^ 2) + sin_sq_add_cos_sq θ

theorem isUnitVec_ne_zero {u : P2 ℝ} (hu : IsUnitVec u) : u ≠ 0 := by
  rintro rfl
  simp [IsUnitVec] at hu

theorem unit_normSq {u : P2 ℝ} (hu : IsUnitVec u) : normSq u = 1 := by
  unfold IsUnitVec at hu; simp only [normSq, dot]; linear_combination hu

/-- A non zero vector is a positive multiple of a unit vector. -/
theorem exists_unit {v : P2 ℝ} (h : v ≠ 0) : ∃ (k : ℝ) (u : P2 ℝ), 0 < k ∧ IsUnitVec u ∧ v = k • u := by
  have hp := Real.sqrt_pos.2 (normSq_pos h)
  refine ⟨√(normSq v), _, hp, normalize2_isUnit h, ?_⟩
  ext
  · simp only [P2.smul_x]; field_simp
  · simp only [P2.smul_y]; field_simp

theorem smul_smul_P2 (a b : ℝ) (v : P2 ℝ) : a • (b • v) = (a * b) • v := by
  ext <;> simp [mul_assoc]

theorem turn_smul (θ k : ℝ) (v : P2 ℝ) : turn θ (k • v) = k • turn θ v := by
  ext <;> simp only [turn, P2.smul_x, P2.smul_y] <;> ring

theorem turn_turn (α β : ℝ) (v : P2 ℝ) : turn α (turn β v) = turn (α + β) v := by
  ext <;> simp only [turn, cos_add, sin_add] <;> ring

/-- The sum of two vectors of the same length. -/
theorem add_turn (θ : ℝ) (v : P2 ℝ) : v + turn θ v = (2 * cos (θ / 2)) • turn (θ / 2) v := by
  have hc : cos θ = 2 * cos (θ / 2) ^ 2 - 1 := by
    rw [← cos_two_mul]; congr 1; ring
  have hs : sin θ = 2 * sin (θ / 2) * cos (θ / 2) := by
    rw [← sin_two_mul]; congr 1; ring
  ext
  · simp only [turn, P2.add_x, P2.smul_x, hc, hs]; ring
  · simp only [turn, P2.add_y, P2.smul_y, hc, hs]; ring

theorem getOrientationV_right_iff (a b : P2 ℝ) : getOrientationV Cmp.direct a b = .right ↔ cross a b < 0 := by
  unfold getOrientationV orientationOf cross
  simp only [direct_lt, direct_gt]
  split_ifs with h1 h2
  · exact ⟨fun _ => by linarith, fun _ => rfl⟩
  · exact ⟨fun h => (by cases h), fun h => absurd (by linarith) h1⟩
  · exact ⟨fun h => (by cases h), fun h => absurd (by linarith) h1⟩

/-- The sum for two vectors of the same length at an angle other than `π`. -/
theorem bisectSum_equal {u : P2 ℝ} (hu : IsUnitVec u) {k θ : ℝ} (hk : 0 < k) (h0 : 0 ≤ θ) (h1 : θ < 2 * π)
    (hpi : θ ≠ π) : bisectSum (k • u) (k • turn θ u) = .ok (turn (θ / 2) u) := by
  have hsum : k • u + k • turn θ u = (k * (2 * cos (θ / 2))) • turn (θ / 2) u := by
    have := add_turn θ u
    rw [P2.ext_iff] at this
    simp only [P2.add_x, P2.add_y, P2.smul_x, P2.smul_y] at this
    ext
    · simp only [P2.add_x, P2.smul_x]; linear_combination k * this.1
    · simp only [P2.add_y, P2.smul_y]; linear_combination k * this.2
  have hcr : cross (k • u) (k • turn θ u) = k ^ 2 * sin θ := by
    rw [cross_smul_left, cross_smul_right, cross_turn', unit_normSq hu]; ring
  unfold bisectSum
  rcases lt_or_gt_of_ne hpi with h | h
  · have hnr : getOrientationV Cmp.direct (k • u) (k • turn θ u) ≠ .right := by
      rw [ne_eq, getOrientationV_right_iff, hcr, not_lt]
      have := sin_nonneg_of_nonneg_of_le_pi h0 h.le
      positivity
    rw [if_pos hnr, hsum, smul_smul_P2]
    have hc : 0 < cos (θ / 2) := cos_pos_of_mem_Ioo ⟨by linarith, by linarith⟩
    exact normalize2_of_unit (by positivity) (isUnit_turn hu _)
  · have hr : getOrientationV Cmp.direct (k • u) (k • turn θ u) = .right := by
      rw [getOrientationV_right_iff, hcr]
      have := (sin_neg_iff_pi_lt (by linarith [pi_pos]) h1).2 h
      have hk2 : 0 < k ^ 2 := by positivity
      nlinarith
    rw [if_neg (by simp [hr])]
    have hneg : -(k • u) - k • turn θ u = (k * (2 * -cos (θ / 2))) • turn (θ / 2) u := by
      rw [P2.ext_iff] at hsum
      simp only [P2.add_x, P2.add_y, P2.smul_x, P2.smul_y] at hsum
      ext
      · simp only [P2.sub_x, P2.neg_x, P2.smul_x]; linear_combination (-1) * hsum.1
      · simp only [P2.sub_y, P2.neg_y, P2.smul_y]; linear_combination (-1) * hsum.2
    rw [hneg, smul_smul_P2]
    have hc : cos (θ / 2) < 0 := cos_neg_of_pi_div_two_lt_of_lt (by linarith) (by linarith)
    have : 0 < -cos (θ / 2) := by linarith
    exact normalize2_of_unit (by positivity) (isUnit_turn hu _)

/-- The dot product of the normalised vectors is the cosine of the angle. -/
theorem dot_unit_turn {u : P2 ℝ} (hu : IsUnitVec u) (θ : ℝ) : dot u (turn θ u) = cos θ := by
  rw [dot_turn', unit_normSq hu, mul_one]

theorem cos_lt_one {θ : ℝ} (h0 : 0 < θ) (h1 : θ < 2 * π) : cos θ < 1 := by
  refine lt_of_le_of_ne (cos_le_one θ) fun h => ?_
  have hs : sin θ = 0 := by
    have := sin_sq_add_cos_sq θ
    rw [h] at this
    have : sin θ ^ 2 = 0 := by linarith
    exact pow_eq_zero_iff two_ne_zero |>.1 this
  exact h0.ne' ((aligned_iff h0.le h1).1 ⟨hs, by rw [h]; norm_num⟩)

theorem neg_one_lt_cos {θ : ℝ} (h0 : 0 ≤ θ) (h1 : θ < 2 * π) (hpi : θ ≠ π) : -1 < cos θ := by
  refine lt_of_le_of_ne (neg_one_le_cos θ) fun h => ?_
  have h' : cos (θ - π) = 1 := by rw [cos_sub_pi]; linarith
  rcases lt_or_gt_of_ne hpi with hlt | hgt
  · have : cos (π - θ) < 1 := cos_lt_one (by linarith) (by linarith)
    rw [cos_pi_sub] at this; linarith
  · have := cos_lt_one (θ := θ - π) (by linarith) (by linarith)
    linarith

/-- Equal lengths: the second vector is the first one turned. -/
theorem equal_length {lo hi : P2 ℝ} {θ : ℝ} (hlo : lo ≠ 0) (hlen : normSq lo = normSq hi)
    (h : IsCcwAngle lo hi θ) : ∃ (k : ℝ) (u : P2 ℝ), 0 < k ∧ IsUnitVec u ∧ lo = k • u ∧ hi = k • turn θ u := by
  obtain ⟨k, u, hk, hu, rfl⟩ := exists_unit hlo
  obtain ⟨-, -, r, hr, rfl⟩ := h
  refine ⟨k, u, hk, hu, rfl, ?_⟩
  have e1 : normSq (k • u) = k ^ 2 := by
    have := unit_normSq hu
    unfold normSq dot at *
    simp only [P2.smul_x, P2.smul_y]; linear_combination k ^ 2 * this
  have e2 : normSq (r • turn θ (k • u)) = r ^ 2 * k ^ 2 := by
    have := unit_normSq (isUnit_turn hu θ)
    rw [turn_smul]
    unfold normSq dot at *
    simp only [P2.smul_x, P2.smul_y]; linear_combination r ^ 2 * k ^ 2 * this
  rw [e1, e2] at hlen
  have hk2 : k ^ 2 ≠ 0 := by positivity
  have hr2 : r ^ 2 = 1 := by
    have : (r ^ 2 - 1) * k ^ 2 = 0 := by linear_combination -hlen
    rcases mul_eq_zero.1 this with h | h
    · linarith
    · exact absurd h hk2
  have hr1 : r = 1 := by nlinarith
  rw [hr1, turn_smul]
  ext <;> simp

theorem unit_dot_cross {u v : P2 ℝ} (hu : IsUnitVec u) (hv : IsUnitVec v) :
    dot u v ^ 2 + cross u v ^ 2 = 1 := by
  unfold IsUnitVec at *
  unfold dot cross
  linear_combination (v.x ^ 2 + v.y ^ 2) * hu + hv

/-- The normalised vectors of two vectors that are not parallel. -/
theorem dot_strict {lo hi : P2 ℝ} (h : cross lo hi ≠ 0) : ∃ nlo nhi, normalize2 lo = .ok nlo ∧
    normalize2 hi = .ok nhi ∧ -1 < dot nlo nhi ∧ dot nlo nhi < 1 := by
  have hlo : lo ≠ 0 := by rintro rfl; simp [cross] at h
  have hhi : hi ≠ 0 := by rintro rfl; simp [cross] at h
  refine ⟨_, _, normalize2_ok hlo, normalize2_ok hhi, ?_⟩
  have hd := unit_dot_cross (normalize2_isUnit hlo) (normalize2_isUnit hhi)
  have hc : cross ((1 / √(normSq lo)) • lo) ((1 / √(normSq hi)) • hi) ≠ 0 := by
    rw [cross_smul_left, cross_smul_right]
    have h1 := (Real.sqrt_pos.2 (normSq_pos hlo)).ne'
    have h2 := (Real.sqrt_pos.2 (normSq_pos hhi)).ne'
    exact mul_ne_zero (one_div_ne_zero h1) (mul_ne_zero (one_div_ne_zero h2) h)
  have hc2 : 0 < cross ((1 / √(normSq lo)) • lo) ((1 / √(normSq hi)) • hi) ^ 2 := by positivity
  constructor <;> nlinarith

/-- The normalised sum of two vectors that are not parallel. -/
theorem bisectSum_diagonal {lo hi : P2 ℝ} (h : cross lo hi ≠ 0) : ∃ (w : P2 ℝ) (t : ℝ),
    bisectSum lo hi = .ok w ∧ IsUnitVec w ∧ 0 < t ∧ w = (if 0 < cross lo hi then t else -t) • (lo + hi) := by
  have hne : lo + hi ≠ 0 := by
    intro h0
    apply h
    rw [P2.ext_iff] at h0
    simp only [P2.add_x, P2.add_y, P2.zero_x, P2.zero_y] at h0
    unfold cross
    linear_combination lo.x * h0.2 - lo.y * h0.1
  unfold bisectSum
  by_cases hc : 0 < cross lo hi
  · have hnr : getOrientationV Cmp.direct lo hi ≠ .right := by
      rw [ne_eq, getOrientationV_right_iff]; linarith
    have hne' : (1 / 2 : ℝ) • (lo + hi) ≠ 0 := by
      intro h0
      apply hne
      rw [P2.ext_iff] at h0 ⊢
      simp only [P2.smul_x, P2.smul_y, P2.zero_x, P2.zero_y] at h0 ⊢
      constructor
      · linarith [h0.1]
      · linarith [h0.2]
    have hs := Real.sqrt_pos.2 (normSq_pos hne')
    rw [if_pos hnr, normalize2_ok hne']
    simp only [hc, if_true]
    refine ⟨_, 1 / √(normSq ((1 / 2 : ℝ) • (lo + hi))) * (1 / 2), rfl, normalize2_isUnit hne', ?_, ?_⟩
    · positivity
    · rw [smul_smul_P2]
  · have hr : getOrientationV Cmp.direct lo hi = .right := by
      rw [getOrientationV_right_iff]; exact lt_of_le_of_ne (not_lt.1 hc) h
    have hne' : (1 / 2 : ℝ) • (-lo - hi) ≠ 0 := by
      intro h0
      apply hne
      rw [P2.ext_iff] at h0 ⊢
      simp only [P2.smul_x, P2.smul_y, P2.zero_x, P2.zero_y, P2.sub_x, P2.sub_y, P2.neg_x, P2.neg_y, P2.add_x,
        P2.add_y] at h0 ⊢
      constructor
      · linarith [h0.1]
      · linarith [h0.2]
    have hs := Real.sqrt_pos.2 (normSq_pos hne')
    rw [if_neg (not_not.2 hr), normalize2_ok hne']
    simp only [hc, if_false]
    refine ⟨_, 1 / √(normSq ((1 / 2 : ℝ) • (-lo - hi))) * (1 / 2), rfl, normalize2_isUnit hne', ?_, ?_⟩
    · positivity
    · rw [smul_smul_P2]
      ext
      · simp only [P2.smul_x, P2.sub_x, P2.neg_x, P2.add_x]; ring
      · simp only [P2.smul_y, P2.sub_y, P2.neg_y, P2.add_y]; ring

end Geometrix
