import Verif.Lemmas.Plane

/-!
# C132: planes in space
-/

namespace Geometrix

open Spec

/-- C132: if `u` and `v` are not parallel, the plane of `a`, `u` and `v` has a unit normal in the direction of the cross product of `u`
and `v`, its points are those whose component along the normal is `get_distance_to_origin`, and for every point the difference of
the two is, up to the sign, its distance to the plane. -/
theorem C132_plane (a : P3 ℝ) {u v : P3 ℝ} (h : cross3 u v ≠ 0) : ∃ pl : Plane3, makePlaneV a u v = .ok pl ∧ IsUnitVec3 pl.n ∧
    (∃ k : ℝ, 0 < k ∧ pl.n = k • cross3 u v) ∧ (∃ k : ℝ, 0 < k ∧ pl.u = k • u) ∧ IsUnitVec3 pl.u ∧ (∃ k : ℝ, 0 < k ∧ pl.v = k • v) ∧
    IsUnitVec3 pl.v ∧ pl.a = a ∧ (∀ x, OnPlane a u v x ↔ dot3 x pl.n = pl.d) ∧
    ∀ x, (∀ y, OnPlane a u v y → |dot3 x pl.n - pl.d| ≤ √(sqDist3 x y)) ∧
      ∃ y, OnPlane a u v y ∧ √(sqDist3 x y) = |dot3 x pl.n - pl.d| := by
  obtain ⟨pl, k, h1, h2, h3, h4, h5, h6, h7, h8, h9, h10⟩ := makePlaneV_ok a h
  have hon : ∀ x, OnPlane a u v x ↔ dot3 x pl.n = pl.d := by
    intro x
    rw [onPlane_iff h, ← sub_eq_zero (b := pl.d), plane_height h3 h6, mul_eq_zero, or_iff_right h2.ne']
  refine ⟨pl, h1, h4, ⟨k, h2, h3⟩, h7, h8, h9, h10, h5, hon, fun x => ⟨fun y hy => ?_, ?_⟩⟩
  · rw [← Real.sqrt_sq_eq_abs]
    exact Real.sqrt_le_sqrt (height_le h4 ((hon y).mp hy))
  · obtain ⟨f1, f2⟩ := height_foot (x := x) (d := pl.d) h4
    exact ⟨_, (hon _).mpr f1, by rw [f2, Real.sqrt_sq_eq_abs]⟩

/-- The plane of the first two axes. -/
example : cross3 (⟨1, 0, 0⟩ : P3 ℝ) ⟨0, 1, 0⟩ ≠ 0 := by
  intro h
  have := congrArg P3.z h
  simp [cross3] at this

/-- C132: a plane of parallel vectors fails an assertion. -/
theorem C132_parallel (a : P3 ℝ) {u v : P3 ℝ} (h : cross3 u v = 0) : makePlaneV a u v = .error .assertFailed :=
  makePlaneV_error a h

example : cross3 (⟨1, 2, 3⟩ : P3 ℝ) ⟨2, 4, 6⟩ = 0 := by
  ext <;> norm_num [cross3]

/-- C132: the plane of three points that are not on a line contains them. -/
theorem C132_points {a b c : P3 ℝ} (h : cross3 (b - a) (c - a) ≠ 0) : ∃ pl : Plane3, makePlane a b c = .ok pl ∧
    dot3 a pl.n = pl.d ∧ dot3 b pl.n = pl.d ∧ dot3 c pl.n = pl.d := by
  obtain ⟨pl, h1, -, -, -, -, -, -, -, h2, -⟩ := C132_plane a h
  refine ⟨pl, h1, (h2 a).mp ⟨0, 0, ?_⟩, (h2 b).mp ⟨1, 0, ?_⟩, (h2 c).mp ⟨0, 1, ?_⟩⟩ <;> ext <;> simp

example : cross3 ((⟨1, 0, 1⟩ : P3 ℝ) - ⟨0, 0, 1⟩) (⟨0, 1, 1⟩ - ⟨0, 0, 1⟩) ≠ 0 := by
  intro h
  have := congrArg P3.z h
  simp [cross3] at this

/-- C132: with exact comparison a point is in front of the plane, behind it or on it by the sign of its component along the cross
product of `u` and `v`. -/
theorem C132_point {a u v : P3 ℝ} (h : cross3 u v ≠ 0) {pl : Plane3} (hp : makePlaneV a u v = .ok pl) (x : P3 ℝ) :
    (classifyPoint3 Cmp.direct x pl = .front ↔ 0 < dot3 (x - a) (cross3 u v)) ∧
    (classifyPoint3 Cmp.direct x pl = .back ↔ dot3 (x - a) (cross3 u v) < 0) ∧
    (classifyPoint3 Cmp.direct x pl = .coplanar ↔ OnPlane a u v x) := by
  obtain ⟨pl', k, h1, h2, h3, -, -, h6, -⟩ := makePlaneV_ok a h
  obtain rfl : pl = pl' := by rw [hp] at h1; exact Except.ok.inj h1
  rw [onPlane_iff h, classifyPoint3, plane_height h3 h6]
  simp only [direct_gt, direct_lt]
  have e1 : 0 < k * dot3 (x - a) (cross3 u v) ↔ 0 < dot3 (x - a) (cross3 u v) := mul_pos_iff_of_pos_left h2
  have e2 : k * dot3 (x - a) (cross3 u v) < 0 ↔ dot3 (x - a) (cross3 u v) < 0 := by
    constructor
    · intro h0; by_contra h4; exact absurd (mul_nonneg h2.le (not_lt.mp h4)) (not_le.mpr h0)
    · exact mul_neg_of_pos_of_neg h2
  simp only [e1, e2]
  rcases lt_trichotomy (dot3 (x - a) (cross3 u v)) 0 with h4 | h4 | h4
  · simp [h4, h4.ne, not_lt.mpr h4.le]
  · simp [h4]
  · simp [h4, h4.ne', not_lt.mpr h4.le]

/-- The unit normal and a point in front. -/
example : (0 : ℝ) < dot3 ((⟨3, 4, 5⟩ : P3 ℝ) - 0) (cross3 ⟨1, 0, 0⟩ ⟨0, 1, 0⟩) := by
  norm_num [dot3, cross3]

/-- C132: with an absolute tolerance a point is classed as on the plane if its distance to the plane is at most the tolerance, and
otherwise by its side. -/
theorem C132_thick {a u v : P3 ℝ} (h : cross3 u v ≠ 0) {pl : Plane3} (hp : makePlaneV a u v = .ok pl) {e : ℝ} (he : 0 ≤ e)
    (x : P3 ℝ) : (classifyPoint3 (Cmp.absolute e) x pl = .coplanar ↔ ∃ y, OnPlane a u v y ∧ √(sqDist3 x y) ≤ e) ∧
    (classifyPoint3 (Cmp.absolute e) x pl = .front → 0 < dot3 (x - a) (cross3 u v)) ∧
    (classifyPoint3 (Cmp.absolute e) x pl = .back → dot3 (x - a) (cross3 u v) < 0) ∧
    classifyPoint3 (Cmp.absolute e) x pl ≠ .straddling := by
  obtain ⟨pl', k, h1, h2, h3, h4, -, h6, -⟩ := makePlaneV_ok a h
  obtain rfl : pl = pl' := by rw [hp] at h1; exact Except.ok.inj h1
  have hd := plane_height (x := x) h3 h6
  obtain ⟨pl', g1, -, -, -, -, -, -, -, g2, g3⟩ := C132_plane a h
  obtain rfl : pl = pl' := by rw [hp] at g1; exact Except.ok.inj g1
  have key : (∃ y, OnPlane a u v y ∧ √(sqDist3 x y) ≤ e) ↔ |dot3 x pl.n - pl.d| ≤ e := by
    constructor
    · rintro ⟨y, hy, hle⟩
      exact le_trans ((g3 x).1 y hy) hle
    · intro hle
      obtain ⟨y, hy, hy'⟩ := (g3 x).2
      exact ⟨y, hy, hy' ▸ hle⟩
  rw [key, abs_le, classifyPoint3]
  simp only [Cmp.absolute, sub_zero, decide_eq_true_eq]
  refine ⟨?_, ?_, ?_, ?_⟩
  · split_ifs with c1 c2
    · simp; intro; linarith
    · simp; intro; linarith
    · simp only [true_iff]; constructor <;> linarith
  · split_ifs with c1 c2 <;> simp
    rw [hd] at c1
    exact pos_of_mul_pos_right (lt_of_le_of_lt he c1) h2.le
  · split_ifs with c1 c2 <;> simp
    rw [hd] at c2
    by_contra h7
    have := mul_nonneg h2.le (not_lt.mp h7)
    linarith
  · split_ifs <;> simp

example : (0 : ℝ) ≤ 1 / 1000 := by norm_num

/-- C132: a segment or a polygon is classed by the classes of its vertices. -/
theorem C132_simplex (cmp : Cmp ℝ) (ps : List (P3 ℝ)) (pl : Plane3) :
    (classifySimplex3 cmp ps pl = .straddling ↔
      (∃ p ∈ ps, classifyPoint3 cmp p pl = .front) ∧ ∃ p ∈ ps, classifyPoint3 cmp p pl = .back) ∧
    (classifySimplex3 cmp ps pl = .front ↔
      (∃ p ∈ ps, classifyPoint3 cmp p pl = .front) ∧ ∀ p ∈ ps, classifyPoint3 cmp p pl ≠ .back) ∧
    (classifySimplex3 cmp ps pl = .back ↔
      (∃ p ∈ ps, classifyPoint3 cmp p pl = .back) ∧ ∀ p ∈ ps, classifyPoint3 cmp p pl ≠ .front) ∧
    (classifySimplex3 cmp ps pl = .coplanar ↔ ∀ p ∈ ps, classifyPoint3 cmp p pl = .coplanar) := by
  obtain ⟨z1, z2⟩ := countSides3_zero cmp pl ps
  have hns : ∀ p, classifyPoint3 cmp p pl ≠ .straddling := by
    intro p
    rw [classifyPoint3]
    split_ifs <;> simp
  have hco : (∀ p ∈ ps, classifyPoint3 cmp p pl = .coplanar) ↔
      (∀ p ∈ ps, classifyPoint3 cmp p pl ≠ .front) ∧ ∀ p ∈ ps, classifyPoint3 cmp p pl ≠ .back := by
    constructor
    · exact fun h => ⟨fun p hp => by simp [h p hp], fun p hp => by simp [h p hp]⟩
    · rintro ⟨h1, h2⟩ p hp
      have := h1 p hp
      have := h2 p hp
      have := hns p
      cases h : classifyPoint3 cmp p pl <;> simp_all
  have ef : (∃ p ∈ ps, classifyPoint3 cmp p pl = .front) ↔ (countSides3 cmp pl ps (0, 0)).1 ≠ 0 := by
    rw [Ne, z1]; push Not; rfl
  have eb : (∃ p ∈ ps, classifyPoint3 cmp p pl = .back) ↔ (countSides3 cmp pl ps (0, 0)).2 ≠ 0 := by
    rw [Ne, z2]; push Not; rfl
  rw [hco, ef, eb, ← z1, ← z2, classifySimplex3]
  split_ifs with c1 c2 c3 <;> simp_all

end Geometrix
