import Verif.Lemmas.Vector

/-!
# C44: vector operations
-/

namespace Geometrix

open Spec Real

/-- `normalize` of a non zero vector is a positive multiple of it of length one; on the null vector the
assertion fails. -/
theorem C44_normalize (v : P2 ℝ) :
    (v ≠ 0 → ∃ (u : P2 ℝ) (k : ℝ), normalize2 v = .ok u ∧ 0 < k ∧ u = k • v ∧ IsUnitVec u) ∧
    (v = 0 → normalize2 v = .error .assertFailed) := by
  constructor
  · intro h
    exact ⟨_, _, normalize2_ok h, by have := Real.sqrt_pos.2 (normSq_pos h); positivity, rfl, normalize2_isUnit h⟩
  · rintro rfl; exact normalize2_zero

example : (⟨3, 4⟩ : P2 ℝ) ≠ 0 := by intro h; have := congrArg P2.x h; norm_num at this

/-- The same in space. -/
theorem C44_normalize3 (v : P3 ℝ) :
    (v ≠ 0 → ∃ (u : P3 ℝ) (k : ℝ), normalize3 v = .ok u ∧ 0 < k ∧ u = k • v ∧ IsUnitVec3 u) ∧
    (v = 0 → normalize3 v = .error .assertFailed) := by
  constructor
  · intro h
    have hp : 0 < dot3 v v := by
      have h0 : 0 ≤ dot3 v v := by
        unfold dot3; nlinarith [mul_self_nonneg v.x, mul_self_nonneg v.y, mul_self_nonneg v.z]
      refine lt_of_le_of_ne h0 fun h1 => h ?_
      unfold dot3 at h1
      have hx := mul_self_nonneg v.x
      have hy := mul_self_nonneg v.y
      have hz := mul_self_nonneg v.z
      ext
      · exact mul_self_eq_zero.1 (by linarith)
      · exact mul_self_eq_zero.1 (by linarith)
      · exact mul_self_eq_zero.1 (by linarith)
    have hs := Real.sqrt_pos.2 hp
    refine ⟨(1 / √(dot3 v v)) • v, 1 / √(dot3 v v), ?_, by positivity, rfl, ?_⟩
    · unfold normalize3; rw [if_neg hs.ne']
    · unfold IsUnitVec3
      simp only [P3.smul_x, P3.smul_y, P3.smul_z, mul_pow, div_pow, one_pow, Real.sq_sqrt hp.le]
      have hq : v.x ^ 2 + v.y ^ 2 + v.z ^ 2 = dot3 v v := by unfold dot3; ring
      have := hp.ne'
      rw [← mul_add, ← mul_add, hq]
      field_simp
  · rintro rfl
    unfold normalize3; rw [if_pos (by simp [dot3])]

example : (⟨1, 2, 2⟩ : P3 ℝ) ≠ 0 := by intro h; have := congrArg P3.x h; norm_num at this

/-- The normals are the vector turned by a right angle, to the left and to the right: perpendicular and of
the same length. -/
theorem C44_normals (u : P2 ℝ) :
    leftNormal u = turn (π / 2) u ∧ rightNormal u = turn (-(π / 2)) u ∧ perp u = leftNormal u ∧
    orientedNormal .left u = some (leftNormal u) ∧ orientedNormal .right u = some (rightNormal u) ∧
    dot u (leftNormal u) = 0 ∧ dot u (rightNormal u) = 0 ∧
    normSq (leftNormal u) = normSq u ∧ normSq (rightNormal u) = normSq u ∧
    cross u (leftNormal u) = normSq u ∧ cross u (rightNormal u) = - normSq u := by
  refine ⟨?_, ?_, rfl, rfl, rfl, ?_, ?_, ?_, ?_, ?_, ?_⟩
  · ext <;> simp [leftNormal, turn]
  · ext <;> simp [rightNormal, turn]
  all_goals simp only [leftNormal, rightNormal, dot, cross, normSq]; ring

example : leftNormal (⟨1, 2⟩ : P2 ℚ) = ⟨-2, 1⟩ := by decide +kernel

/-- Two vectors of the same length that do not point in the same direction: `bisect` halves the
counter-clockwise angle. -/
theorem C44_bisect_partial (lo hi : P2 ℝ) (θ : ℝ) (hlo : lo ≠ 0) (hlen : normSq lo = normSq hi)
    (h : IsCcwAngle lo hi θ) (hθ : θ ≠ 0) : ∃ b, bisect lo hi = .ok b ∧ HalvesCcw lo hi b := by
  obtain ⟨k, u, hk, hu, rfl, rfl⟩ := equal_length hlo hlen h
  have h0 : 0 < θ := lt_of_le_of_ne h.1 (Ne.symm hθ)
  have h1 := h.2.1
  refine ⟨turn (θ / 2) u, ?_, isUnit_turn hu _, θ, 1 / k, h, by positivity, ?_⟩
  · unfold bisect
    rw [normalize2_of_unit hk hu, normalize2_of_unit hk (isUnit_turn hu θ)]
    simp only [dot_unit_turn hu]
    by_cases hpi : θ = π
    · subst hpi
      rw [if_neg (by simp), if_pos (by simp)]
      congr 1
      ext <;> simp [rightNormal, turn]
    · rw [if_pos ⟨neg_one_lt_cos h0.le h1 hpi, cos_lt_one h0 h1⟩]
      exact bisectSum_equal hu hk h0.le h1 hpi
  · rw [turn_smul, smul_smul_P2]
    ext <;> simp [hk.ne']

example : IsCcwAngle ⟨1, 0⟩ ⟨0, 1⟩ (π / 2) :=
  ⟨by positivity, by linarith [pi_pos], 1, by norm_num, by ext <;> simp [turn]⟩

/-- `bisect_not_antiparallel` for two vectors of the same length. -/
theorem C44_bisect_not_antiparallel_partial (lo hi : P2 ℝ) (θ : ℝ) (hlo : lo ≠ 0)
    (hlen : normSq lo = normSq hi) (h : IsCcwAngle lo hi θ) :
    (θ ≠ π → ∃ b, bisectNotAntiparallel lo hi = .ok b ∧ HalvesCcw lo hi b) ∧
    (θ = π → bisectNotAntiparallel lo hi = .error .assertFailed) := by
  obtain ⟨k, u, hk, hu, rfl, rfl⟩ := equal_length hlo hlen h
  have h0 := h.1
  have h1 := h.2.1
  unfold bisectNotAntiparallel isAntiparallel
  rw [normalize2_of_unit hk hu, normalize2_of_unit hk (isUnit_turn hu θ)]
  simp only [dot_unit_turn hu]
  constructor
  · intro hpi
    refine ⟨turn (θ / 2) u, ?_, isUnit_turn hu _, θ, 1 / k, h, by positivity, ?_⟩
    · have : Cmp.direct.equals (cos θ) (-1) = false := by
        rw [← Bool.not_eq_true, direct_equals]
        exact (neg_one_lt_cos h0 h1 hpi).ne'
      rw [this]
      exact bisectSum_equal hu hk h0 h1 hpi
    · rw [turn_smul, smul_smul_P2]
      ext <;> simp [hk.ne']
  · rintro rfl
    have : Cmp.direct.equals (cos π) (-1) = true := by
      rw [direct_equals, cos_pi]
    rw [this]

example : IsCcwAngle ⟨1, 0⟩ ⟨1, 0⟩ 0 :=
  ⟨le_refl _, by linarith [pi_pos], 1, by norm_num, by ext <;> simp [turn]⟩

/-- For any two vectors that are not parallel the result of both functions is the unit vector along the
diagonal of the parallelogram they span, reversed when they turn right. -/
theorem C44_bisect_diagonal_partial (lo hi : P2 ℝ) (h : cross lo hi ≠ 0) :
    ∃ (w : P2 ℝ) (t : ℝ), bisect lo hi = .ok w ∧ bisectNotAntiparallel lo hi = .ok w ∧ IsUnitVec w ∧
      0 < t ∧ w = (if 0 < cross lo hi then t else -t) • (lo + hi) := by
  obtain ⟨w, t, hw, hu, ht, hd⟩ := bisectSum_diagonal h
  obtain ⟨nlo, nhi, h1, h2, h3, h4⟩ := dot_strict h
  refine ⟨w, t, ?_, ?_, hu, ht, hd⟩
  · unfold bisect
    rw [h1, h2]
    simp only
    rw [if_pos ⟨h3, h4⟩]
    exact hw
  · unfold bisectNotAntiparallel isAntiparallel
    rw [h1, h2]
    have : Cmp.direct.equals (dot nlo nhi) (-1) = false := by
      rw [← Bool.not_eq_true, direct_equals]; exact h3.ne'
    simp only [this]
    exact hw

example : cross (⟨1, 0⟩ : P2 ℚ) ⟨0, 2⟩ ≠ 0 := by decide +kernel

/-- The vectors are added without being normalised, so for different lengths the angle is not halved: the
vectors `(1, 0)` and `(0, 2)`. -/
theorem C44_bisect_length_refuted : ∃ lo hi b : P2 ℝ, lo ≠ 0 ∧ hi ≠ 0 ∧ bisect lo hi = .ok b ∧
    bisectNotAntiparallel lo hi = .ok b ∧ ¬ HalvesCcw lo hi b := by
  obtain ⟨w, t, h1, h2, -, ht, hd⟩ := C44_bisect_diagonal_partial ⟨1, 0⟩ ⟨0, 2⟩ (by norm_num [cross])
  refine ⟨⟨1, 0⟩, ⟨0, 2⟩, w, ?_, ?_, h1, h2, ?_⟩
  · intro h; have := congrArg P2.x h; norm_num at this
  · intro h; have := congrArg P2.y h; norm_num at this
  · rintro ⟨-, θ, r, ⟨-, -, s, hs, hhi⟩, hr, hw⟩
    have hx := congrArg P2.x hhi
    have e1 := congrArg P2.x (hd.symm.trans hw)
    have e2 := congrArg P2.y (hd.symm.trans hw)
    rw [if_pos (by norm_num [cross])] at e1 e2
    simp only [turn, P2.smul_x, P2.smul_y, P2.add_x, P2.add_y] at hx e1 e2
    have hc : cos θ = 0 := by
      have : s * cos θ = 0 := by linarith
      rcases mul_eq_zero.1 this with h | h
      · exact absurd h hs.ne'
      · exact h
    have hc2 : cos θ = 2 * cos (θ / 2) ^ 2 - 1 := by rw [← cos_two_mul]; congr 1; ring
    have hss := sin_sq_add_cos_sq (θ / 2)
    have e1' : t = r * cos (θ / 2) := by linarith
    have e2' : 2 * t = r * sin (θ / 2) := by linarith
    have q1 : t ^ 2 = r ^ 2 * cos (θ / 2) ^ 2 := by rw [e1']; ring
    have q2 : 4 * t ^ 2 = r ^ 2 * sin (θ / 2) ^ 2 := by
      have : (2 * t) ^ 2 = (r * sin (θ / 2)) ^ 2 := by rw [e2']
      linarith [this]
    have q3 : sin (θ / 2) ^ 2 = cos (θ / 2) ^ 2 := by linarith
    rw [q3] at q2
    have : 0 < t ^ 2 := by positivity
    linarith

example : (⟨1, 0⟩ : P2 ℝ) ≠ 0 := by intro h; have := congrArg P2.x h; norm_num at this

/-- Two vectors in the same direction: the second one comes back negated, and not normalised. -/
theorem C44_bisect_parallel_refuted : ∃ lo hi : P2 ℝ, lo ≠ 0 ∧ hi ≠ 0 ∧ bisect lo hi = .ok ⟨-2, 0⟩ ∧
    ¬ IsUnitVec ⟨-2, 0⟩ ∧ ¬ HalvesCcw lo hi ⟨-2, 0⟩ := by
  have hne : (⟨2, 0⟩ : P2 ℝ) ≠ 0 := by intro h; have := congrArg P2.x h; norm_num at this
  have hu : IsUnitVec ⟨1, 0⟩ := by norm_num [IsUnitVec]
  have he : (⟨2, 0⟩ : P2 ℝ) = (2 : ℝ) • ⟨1, 0⟩ := by ext <;> simp
  have hno : ¬ IsUnitVec ⟨-2, 0⟩ := by norm_num [IsUnitVec]
  refine ⟨⟨2, 0⟩, ⟨2, 0⟩, hne, hne, ?_, hno, fun h => hno h.1⟩
  unfold bisect
  rw [he, normalize2_of_unit (by norm_num) hu]
  have : dot (⟨1, 0⟩ : P2 ℝ) ⟨1, 0⟩ = 1 := by norm_num [dot]
  simp only [this]
  norm_num
  ext <;> simp

example : IsUnitVec ⟨1, 0⟩ := by norm_num [IsUnitVec]

/-- In space, `exterior_product_area` is the sum of the three components of the cross product; it is the
signed area for vectors of the plane `z = 0`. -/
theorem C44_area3_partial (a b : P3 ℝ) :
    exteriorArea3 a b = (cross3 a b).x + (cross3 a b).y + (cross3 a b).z ∧
    (a.z = 0 → b.z = 0 → exteriorArea3 a b ^ 2 = parallelogramAreaSq a b) := by
  constructor
  · simp only [exteriorArea3, cross3]; ring
  · intro ha hb
    simp only [exteriorArea3, parallelogramAreaSq, ha, hb]; ring

example : exteriorArea3 (⟨1, 2, 0⟩ : P3 ℚ) ⟨0, 1, 0⟩ = 1 := by decide +kernel

/-- Not in general: for `(1, 0, 0)` and `(0, 0, 1)` the result is `-1`, for `(1, 0, 0)` and `(0, 1, 1)` it is
zero though the area is the root of two. -/
theorem C44_area3_refuted : (∃ a b : P3 ℝ, exteriorArea3 a b < 0) ∧
    ∃ a b : P3 ℝ, exteriorArea3 a b ^ 2 ≠ parallelogramAreaSq a b := by
  refine ⟨⟨⟨1, 0, 0⟩, ⟨0, 0, 1⟩, by norm_num [exteriorArea3]⟩, ⟨1, 0, 0⟩, ⟨0, 1, 1⟩, ?_⟩
  norm_num [exteriorArea3, parallelogramAreaSq]

example : exteriorArea3 (⟨1, 0, 0⟩ : P3 ℚ) ⟨0, 1, 1⟩ = 0 := by decide +kernel

/-- The cross product has the length of the area and is perpendicular to both vectors. -/
theorem C44_cross3 (a b : P3 ℝ) :
    dot3 (cross3 a b) (cross3 a b) = parallelogramAreaSq a b ∧ dot3 a (cross3 a b) = 0 ∧ dot3 b (cross3 a b) = 0 := by
  simp only [dot3, cross3, parallelogramAreaSq]
  refine ⟨?_, ?_, ?_⟩ <;> ring

example : cross3 (⟨1, 0, 0⟩ : P3 ℚ) ⟨0, 1, 0⟩ = ⟨0, 0, 1⟩ := by decide +kernel

/-- In the plane, the exterior product is the signed area: its sign says on which side of the first vector
the second one lies. -/
theorem C44_area2 (u v : P2 ℝ) (θ : ℝ) (r : ℝ) (h : v = r • turn θ u) :
    cross u v = r * normSq u * sin θ := by
  rw [h, cross_smul_right, cross_turn']; ring

example : (⟨0, 3⟩ : P2 ℝ) = (3 : ℝ) • turn (π / 2) ⟨1, 0⟩ := by ext <;> simp [turn]

/-- `exterior_product_volume` is the signed volume: the sum over permutations of the rows. -/
theorem C44_volume (a b c : P3 ℝ) :
    exteriorVolume a b c = a.x * b.y * c.z + a.y * b.z * c.x + a.z * b.x * c.y
      - a.z * b.y * c.x - a.y * b.x * c.z - a.x * b.z * c.y := by
  simp only [exteriorVolume, dot3, cross3]; ring

example : exteriorVolume (⟨1, 0, 0⟩ : P3 ℚ) ⟨0, 2, 0⟩ ⟨0, 0, 3⟩ = 6 := by decide +kernel

end Geometrix
