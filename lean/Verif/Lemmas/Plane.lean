import Verif.Model.Plane
import Verif.Spec.Plane
import Verif.Spec.Box
import Verif.Lemmas.SegmentIntersection3
import Verif.Props.Vector

namespace Geometrix

open Spec

theorem cross3_smul (j k : ℝ) (u v : P3 ℝ) : cross3 (j • u) (k • v) = (j * k) • cross3 u v := by
  ext <;> simp only [cross3, P3.smul_x, P3.smul_y, P3.smul_z] <;> ring

theorem smul3_zero {k : ℝ} (hk : k ≠ 0) {v : P3 ℝ} (h : k • v = 0) : v = 0 := by
  have hx := congrArg P3.x h
  have hy := congrArg P3.y h
  have hz := congrArg P3.z h
  simp only [P3.smul_x, P3.smul_y, P3.smul_z, P3.zero_x, P3.zero_y, P3.zero_z, mul_eq_zero, hk, false_or] at hx hy hz
  ext <;> assumption

/-- The constructor of `plane`. -/
theorem makePlaneV_ok (a : P3 ℝ) {u v : P3 ℝ} (h : cross3 u v ≠ 0) : ∃ (pl : Plane3) (k : ℝ), makePlaneV a u v = .ok pl ∧ 0 < k ∧
    pl.n = k • cross3 u v ∧ IsUnitVec3 pl.n ∧ pl.a = a ∧ pl.d = dot3 a pl.n ∧ (∃ j : ℝ, 0 < j ∧ pl.u = j • u) ∧ IsUnitVec3 pl.u ∧
    (∃ j : ℝ, 0 < j ∧ pl.v = j • v) ∧ IsUnitVec3 pl.v := by
  have hu : u ≠ 0 := fun h0 => h (by rw [h0]; ext <;> simp [cross3])
  have hv : v ≠ 0 := fun h0 => h (by rw [h0]; ext <;> simp [cross3])
  obtain ⟨u', j, hu', hj, eu, uu⟩ := (C44_normalize3 u).1 hu
  obtain ⟨v', l, hv', hl, ev, uv⟩ := (C44_normalize3 v).1 hv
  have hc : cross3 u' v' = (j * l) • cross3 u v := by rw [eu, ev, cross3_smul]
  have hc0 : cross3 u' v' ≠ 0 := fun h0 => h (smul3_zero (mul_pos hj hl).ne' (hc ▸ h0))
  obtain ⟨n, m, hn, hm, en, un⟩ := (C44_normalize3 _).1 hc0
  refine ⟨⟨a, u', v', n, dot3 a n⟩, m * (j * l), ?_, by positivity, ?_, un, rfl, rfl, ⟨j, hj, eu⟩, uu, ⟨l, hl, ev⟩, uv⟩
  · simp only [makePlaneV, hu', hv', hn]
  · show n = _
    rw [en, hc]
    ext <;> simp only [P3.smul_x, P3.smul_y, P3.smul_z] <;> ring

theorem makePlaneV_error (a : P3 ℝ) {u v : P3 ℝ} (h : cross3 u v = 0) : makePlaneV a u v = .error .assertFailed := by
  rw [makePlaneV]
  by_cases hu : u = 0
  · rw [(C44_normalize3 u).2 hu]
  · obtain ⟨u', j, hu', -, eu, -⟩ := (C44_normalize3 u).1 hu
    rw [hu']
    by_cases hv : v = 0
    · simp only [(C44_normalize3 v).2 hv]
    · obtain ⟨v', l, hv', -, ev, -⟩ := (C44_normalize3 v).1 hv
      have hc : cross3 u' v' = 0 := by
        rw [eu, ev, cross3_smul, h]; ext <;> simp
      simp only [hv', (C44_normalize3 _).2 hc]

/-- The points of the plane are those for which the normal component of the difference to `a` vanishes. -/
theorem onPlane_iff {a u v : P3 ℝ} (h : cross3 u v ≠ 0) (x : P3 ℝ) : OnPlane a u v x ↔ dot3 (x - a) (cross3 u v) = 0 := by
  constructor
  · rintro ⟨s, t, rfl⟩
    simp only [dot3, cross3, P3.sub_x, P3.sub_y, P3.sub_z, P3.add_x, P3.add_y, P3.add_z, P3.smul_x, P3.smul_y, P3.smul_z]
    ring
  · intro h0
    have hD : 0 < dot3 u u * dot3 v v - dot3 u v * dot3 u v := by rw [lagrange3]; exact dot3_self_pos h
    obtain ⟨D, eD⟩ : ∃ D, D = dot3 u u * dot3 v v - dot3 u v * dot3 u v := ⟨_, rfl⟩
    have hD' := hD
    rw [← eD] at hD'
    obtain ⟨s, es⟩ : ∃ s, s = (dot3 (x - a) u * dot3 v v - dot3 (x - a) v * dot3 u v) / D := ⟨_, rfl⟩
    obtain ⟨t, et⟩ : ∃ t, t = (dot3 (x - a) v * dot3 u u - dot3 (x - a) u * dot3 u v) / D := ⟨_, rfl⟩
    have l1 : ∀ w : P3 ℝ, dot3 (x - a - s • u - t • v) w = dot3 (x - a) w - s * dot3 u w - t * dot3 v w := by
      intro w
      simp only [dot3, P3.sub_x, P3.sub_y, P3.sub_z, P3.smul_x, P3.smul_y, P3.smul_z]
      ring
    have hvu : dot3 v u = dot3 u v := by simp only [dot3]; ring
    have hw : x - a - s • u - t • v = 0 := by
      refine gram_zero hD ?_ ?_ ?_
      · rw [l1, hvu, es, et]
        field_simp
        rw [eD]; ring
      · rw [l1, es, et]
        field_simp
        rw [eD]; ring
      · rw [l1, h0]
        simp only [dot3, cross3]; ring
    refine ⟨s, t, ?_⟩
    have hx := congrArg P3.x hw
    have hy := congrArg P3.y hw
    have hz := congrArg P3.z hw
    simp only [P3.sub_x, P3.sub_y, P3.sub_z, P3.smul_x, P3.smul_y, P3.smul_z, P3.zero_x, P3.zero_y, P3.zero_z] at hx hy hz
    ext <;> simp only [P3.add_x, P3.add_y, P3.add_z, P3.smul_x, P3.smul_y, P3.smul_z] <;> linarith

/-- The height of a point above the plane. -/
theorem plane_height {a c n x : P3 ℝ} {d k : ℝ} (hn : n = k • c) (hd : d = dot3 a n) : dot3 x n - d = k * dot3 (x - a) c := by
  rw [hd, hn]
  simp only [dot3, P3.sub_x, P3.sub_y, P3.sub_z, P3.smul_x, P3.smul_y, P3.smul_z]
  ring

/-- Cauchy and Schwarz for a unit vector. -/
theorem height_le {n x y : P3 ℝ} {d : ℝ} (hn : IsUnitVec3 n) (hy : dot3 y n = d) : (dot3 x n - d) ^ 2 ≤ sqDist3 x y := by
  rw [← hy]
  simp only [IsUnitVec3] at hn
  simp only [dot3, sqDist3]
  nlinarith [sq_nonneg ((x.x - y.x) * n.y - (x.y - y.y) * n.x), sq_nonneg ((x.x - y.x) * n.z - (x.z - y.z) * n.x),
    sq_nonneg ((x.y - y.y) * n.z - (x.z - y.z) * n.y)]

/-- The foot of the perpendicular. -/
theorem height_foot {n x : P3 ℝ} {d : ℝ} (hn : IsUnitVec3 n) :
    dot3 (x - (dot3 x n - d) • n) n = d ∧ sqDist3 x (x - (dot3 x n - d) • n) = (dot3 x n - d) ^ 2 := by
  simp only [IsUnitVec3] at hn
  generalize hh : dot3 x n - d = h
  constructor
  · have : dot3 (x - h • n) n = dot3 x n - h * (n.x ^ 2 + n.y ^ 2 + n.z ^ 2) := by
      simp only [dot3, P3.sub_x, P3.sub_y, P3.sub_z, P3.smul_x, P3.smul_y, P3.smul_z]; ring
    rw [this, hn, ← hh]; ring
  · have : sqDist3 x (x - h • n) = h ^ 2 * (n.x ^ 2 + n.y ^ 2 + n.z ^ 2) := by
      simp only [sqDist3, P3.sub_x, P3.sub_y, P3.sub_z, P3.smul_x, P3.smul_y, P3.smul_z]; ring
    rw [this, hn, mul_one]

theorem countSides3_eq (cmp : Cmp ℝ) (pl : Plane3) : ∀ (ps : List (P3 ℝ)) (c : Nat × Nat),
    countSides3 cmp pl ps c = (c.1 + (ps.filter fun p => classifyPoint3 cmp p pl = .front).length,
      c.2 + (ps.filter fun p => classifyPoint3 cmp p pl = .back).length)
  | [], c => rfl
  | p :: ps, c => by
    rw [countSides3]
    cases h : classifyPoint3 cmp p pl <;> simp only [countSides3_eq cmp pl ps, List.filter_cons, h] <;> simp <;> omega

theorem countSides3_zero (cmp : Cmp ℝ) (pl : Plane3) (ps : List (P3 ℝ)) :
    ((countSides3 cmp pl ps (0, 0)).1 = 0 ↔ ∀ p ∈ ps, classifyPoint3 cmp p pl ≠ .front) ∧
    ((countSides3 cmp pl ps (0, 0)).2 = 0 ↔ ∀ p ∈ ps, classifyPoint3 cmp p pl ≠ .back) := by
  rw [countSides3_eq]
  simp

end Geometrix
