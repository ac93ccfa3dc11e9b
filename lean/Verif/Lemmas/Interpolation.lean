import Verif.Model.Interpolation
import Verif.Lemmas.Distance

set_option linter.unusedSectionVars false

namespace Geometrix

variable {n : Nat}

theorem dotN_comm (u v : Fin n → ℝ) : dotN u v = dotN v u := by
  simp only [dotN, mul_comm]

theorem dotN_add (u v w : Fin n → ℝ) : dotN (u + v) w = dotN u w + dotN v w := by
  simp only [dotN, Pi.add_apply, add_mul, Finset.sum_add_distrib]

theorem dotN_smul (a : ℝ) (u v : Fin n → ℝ) : dotN (a • u) v = a * dotN u v := by
  simp only [dotN, Pi.smul_apply, smul_eq_mul, mul_assoc, Finset.mul_sum]

theorem dotN_sub (u v w : Fin n → ℝ) : dotN (u - v) w = dotN u w - dotN v w := by
  simp only [dotN, Pi.sub_apply, sub_mul, Finset.sum_sub_distrib]

theorem dotN_nonneg (u : Fin n → ℝ) : 0 ≤ dotN u u := Finset.sum_nonneg fun i _ => mul_self_nonneg _

theorem dotN_zero {u : Fin n → ℝ} : dotN u u = 0 ↔ u = 0 := by
  unfold dotN
  rw [Finset.sum_eq_zero_iff_of_nonneg fun i _ => mul_self_nonneg _]
  constructor
  · intro h
    funext i
    exact mul_self_eq_zero.1 (h i (Finset.mem_univ i))
  · rintro rfl i -
    simp

theorem normalizeN_ok {v : Fin n → ℝ} (hv : v ≠ 0) :
    ∃ k : ℝ, 0 < k ∧ normalizeN v = .ok (k • v) ∧ dotN (k • v) (k • v) = 1 ∧ k ^ 2 * dotN v v = 1 := by
  have h : 0 < dotN v v := (dotN_nonneg v).lt_of_ne' fun h => hv (dotN_zero.1 h)
  have hs : 0 < Real.sqrt (dotN v v) := Real.sqrt_pos.2 h
  have e : (1 / Real.sqrt (dotN v v)) ^ 2 * dotN v v = 1 := by
    rw [div_pow, one_pow, Real.sq_sqrt h.le]
    field_simp
  refine ⟨1 / Real.sqrt (dotN v v), by positivity, ?_, ?_, e⟩
  · unfold normalizeN
    rw [if_neg hs.ne']
  · rw [dotN_smul, dotN_comm v (_ • v), dotN_smul, ← mul_assoc, ← pow_two, e]

theorem unit_dot_bounds {u v : Fin n → ℝ} (hu : dotN u u = 1) (hv : dotN v v = 1) :
    -1 ≤ dotN u v ∧ dotN u v ≤ 1 := by
  have h1 := dotN_nonneg (u + v)
  have h2 := dotN_nonneg (u - v)
  rw [dotN_add, dotN_comm u, dotN_comm v, dotN_add, dotN_add, hu, hv, dotN_comm v u] at h1
  rw [dotN_sub, dotN_comm u, dotN_comm v, dotN_sub, dotN_sub, hu, hv, dotN_comm v u] at h2
  constructor <;> linarith

theorem unit_dot_one {u v : Fin n → ℝ} (hu : dotN u u = 1) (hv : dotN v v = 1) (h : dotN u v = 1) : u = v := by
  have h2 : dotN (u - v) (u - v) = 0 := by
    rw [dotN_sub, dotN_comm u, dotN_comm v, dotN_sub, dotN_sub, hu, hv, dotN_comm v u, h]
    norm_num
  exact sub_eq_zero.1 (dotN_zero.1 h2)

theorem slerpN_spec {u v : Fin n → ℝ} (hu : dotN u u = 1) (hv : dotN v v = 1) (hd : dotN u v ≠ -1) (t : ℝ) :
    ∃ (w : Fin n → ℝ) (a b : ℝ), slerpN u v t = .ok w ∧ w = a • u + b • v ∧ dotN w w = 1 ∧
      dotN u w = Real.cos (t * Real.arccos (dotN u v)) ∧ dotN w v = Real.cos ((1 - t) * Real.arccos (dotN u v)) ∧
      (0 ≤ t → t ≤ 1 → 0 ≤ a ∧ 0 ≤ b) := by
  obtain ⟨h1, h2⟩ := unit_dot_bounds hu hv
  unfold slerpN
  dsimp only
  rcases h2.lt_or_eq with h | h
  · rw [if_pos h, if_neg (not_lt.2 h1)]
    set θ := Real.arccos (dotN u v) with hθ
    have hc : Real.cos θ = dotN u v := Real.cos_arccos h1 h2
    have h0 : 0 < θ := Real.arccos_pos.2 h
    have hpi : θ < Real.pi := by
      refine lt_of_le_of_ne (Real.arccos_le_pi _) fun e => hd ?_
      rw [← hc, e, Real.cos_pi]
    have hs : 0 < Real.sin θ := Real.sin_pos_of_pos_of_lt_pi h0 hpi
    rw [cdiv_ok hs.ne']
    have e1 : Real.sin ((1 - t) * θ) = Real.sin θ * Real.cos (t * θ) - Real.cos θ * Real.sin (t * θ) := by
      rw [sub_mul, one_mul, Real.sin_sub]
    have e2 : Real.cos ((1 - t) * θ) = Real.cos θ * Real.cos (t * θ) + Real.sin θ * Real.sin (t * θ) := by
      rw [sub_mul, one_mul, Real.cos_sub]
    have k1 := Real.sin_sq_add_cos_sq θ
    have k2 := Real.sin_sq_add_cos_sq (t * θ)
    set S := Real.sin θ
    set C := Real.cos θ
    set s := Real.sin (t * θ)
    set c := Real.cos (t * θ)
    set a := (S * c - C * s) * (1 / S) with ha
    set b := s * (1 / S) with hb
    have ea : a * S = S * c - C * s := by rw [ha]; field_simp
    have eb : b * S = s := by rw [hb]; field_simp
    have ec : a + b * C = c := by
      have : (a + b * C - c) * S = 0 := by linear_combination ea + C * eb
      have := (mul_eq_zero.1 this).resolve_right hs.ne'
      linarith
    have ed : a * C + b = C * c + S * s := by
      have : (a * C + b - (C * c + S * s)) * S = 0 := by linear_combination C * ea + eb - s * k1
      have := (mul_eq_zero.1 this).resolve_right hs.ne'
      linarith
    refine ⟨_, a, b, rfl, ?_, ?_, ?_, ?_, ?_⟩
    · rw [e1, smul_smul, smul_smul]
    · rw [e1, smul_smul, smul_smul, dotN_add, dotN_smul, dotN_smul, dotN_comm u, dotN_comm v, dotN_add, dotN_add, dotN_smul,
        dotN_smul, dotN_smul, dotN_smul, hu, hv, dotN_comm v u, ← hc]
      change a * (a * 1 + b * C) + b * (a * C + b * 1) = 1
      rw [mul_one, mul_one, ec, ed]
      linear_combination c * ec + s * eb + k2
    · rw [e1, smul_smul, smul_smul, dotN_comm, dotN_add, dotN_smul, dotN_smul, hu, dotN_comm v u, ← hc]
      change a * 1 + b * C = c
      rw [mul_one, ec]
    · rw [e1, e2, smul_smul, smul_smul, dotN_add, dotN_smul, dotN_smul, hv, ← hc]
      change a * C + b * 1 = _
      rw [mul_one, ed]
    · intro t0 t1
      have g1 : 0 ≤ S * c - C * s := by
        rw [← e1]
        exact Real.sin_nonneg_of_nonneg_of_le_pi (mul_nonneg (by linarith) h0.le) (by nlinarith)
      have g2 : 0 ≤ s := Real.sin_nonneg_of_nonneg_of_le_pi (mul_nonneg t0 h0.le) (by nlinarith)
      exact ⟨mul_nonneg g1 (by positivity), mul_nonneg g2 (by positivity)⟩
  · have huv := unit_dot_one hu hv h
    subst huv
    have e : u + t • (u - u) = u := by simp
    have hu0 : u ≠ 0 := by rintro rfl; simp [dotN] at hu
    obtain ⟨k, hk, e1, e2, e3⟩ := normalizeN_ok hu0
    rw [hu, mul_one] at e3
    have hk1 : k = 1 := by nlinarith
    rw [if_neg (by rw [hu]; exact lt_irrefl _), e, e1, hk1]
    refine ⟨_, 1, 0, rfl, by simp, by simpa using hu, ?_, ?_, fun _ _ => by norm_num⟩ <;> simp [hu]

theorem unit_dot_neg {u v : Fin n → ℝ} (hu : dotN u u = 1) (hv : dotN v v = 1) (h : dotN u v = -1) : v = -u := by
  have h2 : dotN (u + v) (u + v) = 0 := by
    rw [dotN_add, dotN_comm u, dotN_comm v, dotN_add, dotN_add, hu, hv, dotN_comm v u, h]
    norm_num
  exact (neg_eq_of_add_eq_zero_right (dotN_zero.1 h2)).symm

theorem projectN_spec (v1 : Fin n → ℝ) {v2 : Fin n → ℝ} (h : v2 ≠ 0) :
    ∃ (w : Fin n → ℝ) (k : ℝ), projectN v1 v2 = .ok w ∧ w = k • v2 ∧ dotN (v1 - w) v2 = 0 ∧
      ∀ s : ℝ, dotN (v1 - w) (v1 - w) ≤ dotN (v1 - s • v2) (v1 - s • v2) := by
  obtain ⟨k, hk, e, -, h2⟩ := normalizeN_ok h
  have e1 : dotN v1 (k • v2) = k * dotN v1 v2 := by rw [dotN_comm, dotN_smul, dotN_comm]
  have hw : projectN v1 v2 = .ok ((k * dotN v1 v2 * k) • v2) := by
    unfold projectN
    rw [e]
    dsimp only
    rw [e1, smul_smul]
  set c := k * dotN v1 v2 * k with hc
  have ho : dotN (v1 - c • v2) v2 = 0 := by
    rw [dotN_sub, dotN_smul]
    linear_combination (-dotN v1 v2) * h2
  refine ⟨_, c, hw, rfl, ho, fun s => ?_⟩
  have e2 : v1 - s • v2 = (v1 - c • v2) + (c - s) • v2 := by rw [sub_smul]; abel
  rw [e2]
  have e3 : dotN (v1 - c • v2 + (c - s) • v2) (v1 - c • v2 + (c - s) • v2) =
      dotN (v1 - c • v2) (v1 - c • v2) + (c - s) ^ 2 * dotN v2 v2 := by
    set w := v1 - c • v2
    rw [dotN_add, dotN_comm w, dotN_comm ((c - s) • v2), dotN_add, dotN_add, dotN_smul, dotN_comm w ((c - s) • v2), dotN_smul,
      dotN_comm v2 w, dotN_smul, dotN_comm v2 ((c - s) • v2), dotN_smul, ho]
    ring
  rw [e3]
  have := mul_nonneg (sq_nonneg (c - s)) (dotN_nonneg v2)
  linarith

end Geometrix
