import Verif.Lemmas.PointSequence

/-!
# C25: area, centroid and length laws
-/

set_option linter.unusedSectionVars false

namespace Geometrix

open Spec

variable {K : Type*} [Field K] [LinearOrder K] [IsStrictOrderedRing K]

/-- The signed area is the shoelace formula. -/
theorem C25_shoelace (P : List (P2 K)) (h : P ≠ []) :
    signedArea P = .ok (cyclicSum (fun A B => A.x * B.y - A.y * B.x) P / 2) := signedArea_eq P h

/-- The routine must not be called for an empty sequence, and this is the only such input. -/
theorem C25_empty (P : List (P2 K)) : signedArea P = .error .outOfRange ↔ P = [] := by
  constructor
  · intro h
    by_contra hP
    rw [signedArea_eq P hP] at h
    simp at h
  · rintro rfl; rfl

/-- The area is the sum of the triangles of a fan from any point, in particular from any vertex. -/
theorem C25_fan (P : List (P2 K)) (h : P ≠ []) (O : P2 K) :
    signedArea P = .ok (cyclicSum (fun A B => triangleArea2 O A B) P / 2) := by
  rw [signedArea_eq P h]
  congr 2
  have e : ∀ A B : P2 K, triangleArea2 O A B = cross A B + (-(cross O B) - -(cross O A)) := by
    intro A B; simp only [triangleArea2, cross]; ring
  rw [cyclicSum_congr e, cyclicSum_add, cyclicSum_telescope (fun A => -(cross O A)), add_zero]

/-- The area of a triangle. -/
theorem C25_triangle (A B C : P2 K) : signedArea [A, B, C] = .ok (triangleArea2 A B C / 2) := by
  simp only [signedArea, areaLoop, cross, triangleArea2, List.getLast, Except.ok.injEq]
  ring

/-- Translation. -/
theorem C25_translate (P : List (P2 K)) (v : P2 K) :
    signedArea (P.map (fun A => A + v)) = signedArea P := by
  by_cases h : P = []
  · subst h; rfl
  rw [signedArea_eq _ (by simpa using h), signedArea_eq _ h, cyclicSum_map]
  congr 2
  have e : ∀ A B : P2 K, cross (A + v) (B + v) = cross A B + (cross v B - cross v A) := by
    intro A B; simp only [cross, P2.add_x, P2.add_y]; ring
  rw [cyclicSum_congr e, cyclicSum_add, cyclicSum_telescope (fun A => cross v A), add_zero]

/-- Another start vertex. -/
theorem C25_rotate (P : List (P2 K)) (k : Nat) : signedArea (P.rotate k) = signedArea P := by
  by_cases h : P = []
  · subst h; simp
  rw [signedArea_eq _ (by simpa using h), signedArea_eq _ h, cyclicSum_rotate]

/-- Reversal changes the sign. -/
theorem C25_reverse (P : List (P2 K)) (a : K) (h : signedArea P = .ok a) :
    signedArea P.reverse = .ok (-a) := by
  have hP : P ≠ [] := by rintro rfl; simp [signedArea] at h
  rw [signedArea_eq _ hP] at h
  rw [signedArea_eq _ (by simpa using hP), cyclicSum_reverse, ← Except.ok.inj h]
  congr 1
  have e : ∀ A B : P2 K, cross B A = -cross A B := by intro A B; simp only [cross]; ring
  rw [cyclicSum_congr e, cyclicSum_neg]
  ring

/-- Scaling. -/
theorem C25_scale (P : List (P2 K)) (s a : K) (h : signedArea P = .ok a) :
    signedArea (P.map (fun A => s • A)) = .ok (s ^ 2 * a) := by
  have hP : P ≠ [] := by rintro rfl; simp [signedArea] at h
  rw [signedArea_eq _ hP] at h
  rw [signedArea_eq _ (by simpa using hP), cyclicSum_map, ← Except.ok.inj h]
  congr 1
  have e : ∀ A B : P2 K, cross (s • A) (s • B) = s ^ 2 * cross A B := by
    intro A B; simp only [cross, P2.smul_x, P2.smul_y]; ring
  rw [cyclicSum_congr e, cyclicSum_mul]
  ring

/-- The unsigned area is the absolute value, so it does not change by reversal or rotation of the
list either. -/
theorem C25_area (P : List (P2 K)) (a : K) (h : signedArea P = .ok a) (k : Nat) :
    polygonArea P = .ok |a| ∧ polygonArea P.reverse = .ok |a| ∧
      polygonArea (P.rotate k) = .ok |a| := by
  simp only [polygonArea, h, C25_reverse P a h, C25_rotate, abs_neg, and_self]

/-- The centroid moves with the polygon. -/
theorem C25_centroid_translate (P : List (P2 K)) (v c : P2 K) (h : centroid P = .ok c) :
    centroid (P.map (fun A => A + v)) = .ok (c + v) := by
  have hP : P ≠ [] := by rintro rfl; simp [centroid] at h
  have h0 : cyclicSum cross P ≠ 0 := by
    intro h0
    cases P with
    | nil => exact absurd rfl hP
    | cons a l =>
      rw [cyclicSum_last] at h0
      simp [centroid, momentLoop_eq, Moments.step, h0, cdiv] at h
  have ht : cyclicSum cross (P.map (fun A => A + v)) = cyclicSum cross P := by
    have := C25_translate P v
    rw [signedArea_eq _ (by simpa using hP), signedArea_eq _ hP] at this
    have := Except.ok.inj this
    linarith
  rw [centroid_eq P hP h0] at h
  rw [centroid_eq _ (by simpa using hP) (by rw [ht]; exact h0), ht, ← Except.ok.inj h]
  have e1 : ∀ A B : P2 K, cross (A + v) (B + v) * ((A + v).x + (B + v).x) =
      cross A B * (A.x + B.x) + (2 * v.x * cross A B + ((v.x * ((2 * v.x) * B.y) - v.y * (B.x * B.x)
        - 2 * v.x * v.y * B.x) -
        (v.x * ((2 * v.x) * A.y) - v.y * (A.x * A.x) - 2 * v.x * v.y * A.x) +
        v.x * cross A B + (v.x * (B.x * B.y) - v.x * (A.x * A.y)))) := by
    intro A B; simp only [cross, P2.add_x, P2.add_y]; ring
  have e2 : ∀ A B : P2 K, cross (A + v) (B + v) * ((A + v).y + (B + v).y) =
      cross A B * (A.y + B.y) + (2 * v.y * cross A B + ((v.x * (B.y * B.y) + 2 * v.x * v.y * B.y -
        2 * v.y * v.y * B.x) -
        (v.x * (A.y * A.y) + 2 * v.x * v.y * A.y - 2 * v.y * v.y * A.x) +
        v.y * cross A B + (-(v.y * (B.x * B.y)) - -(v.y * (A.x * A.y))))) := by
    intro A B; simp only [cross, P2.add_x, P2.add_y]; ring
  congr 1
  ext
  · simp only [P2.add_x]
    rw [cyclicSum_map, cyclicSum_congr e1]
    simp only [cyclicSum_add]
    rw [cyclicSum_mul, cyclicSum_mul,
      cyclicSum_telescope (fun B : P2 K => v.x * ((2 * v.x) * B.y) - v.y * (B.x * B.x) -
        2 * v.x * v.y * B.x),
      cyclicSum_telescope (fun B : P2 K => v.x * (B.x * B.y))]
    field_simp
    ring
  · simp only [P2.add_y]
    rw [cyclicSum_map, cyclicSum_congr e2]
    simp only [cyclicSum_add]
    rw [cyclicSum_mul, cyclicSum_mul,
      cyclicSum_telescope (fun B : P2 K => v.x * (B.y * B.y) + 2 * v.x * v.y * B.y -
        2 * v.y * v.y * B.x),
      cyclicSum_telescope (fun B : P2 K => -(v.y * (B.x * B.y)))]
    field_simp
    ring

/-- The centroid does not depend on the start vertex. -/
theorem C25_centroid_rotate (P : List (P2 K)) (c : P2 K) (h : centroid P = .ok c) (k : Nat) :
    centroid (P.rotate k) = .ok c := by
  have hP : P ≠ [] := by rintro rfl; simp [centroid] at h
  have h0 : cyclicSum cross P ≠ 0 := by
    intro h0
    cases P with
    | nil => exact absurd rfl hP
    | cons a l =>
      rw [cyclicSum_last] at h0
      simp [centroid, momentLoop_eq, Moments.step, h0, cdiv] at h
  rw [centroid_eq P hP h0] at h
  rw [centroid_eq _ (by simpa using hP) (by rw [cyclicSum_rotate]; exact h0)]
  simp only [cyclicSum_rotate]
  exact h

/-- The centroid is computed exactly when the area is not zero; otherwise the routine divides by
zero. -/
theorem C25_centroid_total (P : List (P2 K)) (a : K) (h : signedArea P = .ok a) :
    (a ≠ 0 → ∃ c, centroid P = .ok c) ∧ (a = 0 → centroid P = .error .divByZero) := by
  have hP : P ≠ [] := by rintro rfl; simp [signedArea] at h
  rw [signedArea_eq _ hP] at h
  have h := Except.ok.inj h
  constructor
  · intro ha
    exact ⟨_, centroid_eq P hP (by rintro h0; rw [h0] at h; simp at h; exact ha h.symm)⟩
  · intro ha
    have h0 : cyclicSum cross P = 0 := by rw [ha] at h; linarith
    cases P with
    | nil => exact absurd rfl hP
    | cons b l =>
      rw [cyclicSum_last] at h0
      simp [centroid, momentLoop_eq, Moments.step, h0, cdiv]

/-- The centroid of a triangle is the mean of its corners. -/
theorem C25_centroid_triangle (A B C : P2 K) (h : triangleArea2 A B C ≠ 0) :
    centroid [A, B, C] = .ok ⟨(A.x + B.x + C.x) / 3, (A.y + B.y + C.y) / 3⟩ := by
  have h0 : cyclicSum cross [A, B, C] = triangleArea2 A B C := by
    simp [cyclicSum_last, chainSum_cons, chainSum_single, cross, triangleArea2]; ring
  rw [centroid_eq _ (by simp) (by rw [h0]; exact h), h0]
  congr 1
  ext
  · simp only
    rw [div_eq_div_iff (mul_ne_zero (by norm_num) h) (by norm_num)]
    simp [cyclicSum_last, chainSum_cons, chainSum_single, cross, triangleArea2]; ring
  · simp only
    rw [div_eq_div_iff (mul_ne_zero (by norm_num) h) (by norm_num)]
    simp [cyclicSum_last, chainSum_cons, chainSum_single, cross, triangleArea2]; ring

/-- The length of a polyline is the sum of the distances of consecutive points. -/
theorem C25_polyline_length (P : List (P2 ℝ)) : polylineLength P = chainSum Spec.dist P := by
  have : pointDist = Spec.dist := funext fun A => funext fun B => pointDist_eq A B
  rw [polylineLength, lengthLoop_eq, zero_add, this]

/-- It does not change by reversal. -/
theorem C25_polyline_length_reverse (P : List (P2 ℝ)) :
    polylineLength P.reverse = polylineLength P := by
  have e : (fun A B : P2 ℝ => Spec.dist B A) = Spec.dist := by
    funext A B; simp only [Spec.dist]; congr 1; ring
  rw [C25_polyline_length, C25_polyline_length, chainSum_reverse, e]

/-- The perimeter of a polygon of two or more vertices is the sum of the distances of consecutive
points, with the last and the first. -/
theorem C25_polygon_length (P : List (P2 ℝ)) (h : 2 ≤ P.length) :
    polygonLength P = .ok (cyclicSum Spec.dist P) := by
  have : pointDist = Spec.dist := funext fun A => funext fun B => pointDist_eq A B
  have k := polygonLengthLoop_eq P P.length 0 0 (by omega) h
  rw [Nat.mod_eq_of_lt (by omega)] at k
  rw [polygonLength, k, this]
  simp [cyclicSum]

/-- The routine must not be called for a single vertex; it reads the vertex with index 1. -/
theorem C25_polygon_length_single (A : P2 ℝ) : polygonLength [A] = .error .outOfRange := by
  simp [polygonLength, polygonLengthLoop]

/-- The perimeter does not change by reversal, by another start vertex or by translation, and scales
with the absolute value of a scale. -/
theorem C25_polygon_length_laws (P : List (P2 ℝ)) (h : 2 ≤ P.length) (k : Nat) (v : P2 ℝ) (s : ℝ) :
    polygonLength P.reverse = polygonLength P ∧ polygonLength (P.rotate k) = polygonLength P ∧
    polygonLength (P.map (fun A => A + v)) = polygonLength P ∧
    polygonLength (P.map (fun A => s • A)) = .ok (|s| * cyclicSum Spec.dist P) := by
  rw [C25_polygon_length P h, C25_polygon_length _ (by simpa using h),
    C25_polygon_length _ (by simpa using h), C25_polygon_length _ (by simpa using h),
    C25_polygon_length _ (by simpa using h)]
  refine ⟨?_, ?_, ?_, ?_⟩
  · have e : (fun A B : P2 ℝ => Spec.dist B A) = Spec.dist := by
      funext A B; simp only [Spec.dist]; congr 1; ring
    rw [cyclicSum_reverse, e]
  · rw [cyclicSum_rotate]
  · rw [cyclicSum_map]
    congr 1
    apply cyclicSum_congr
    intro A B
    simp only [Spec.dist, P2.add_x, P2.add_y]
    congr 1; ring
  · rw [cyclicSum_map, ← cyclicSum_mul]
    congr 1
    apply cyclicSum_congr
    intro A B
    simp only [Spec.dist, P2.smul_x, P2.smul_y]
    rw [← Real.sqrt_sq_eq_abs, ← Real.sqrt_mul (sq_nonneg s)]
    congr 1; ring

/-- The unit square with an extra vertex. -/
example : (match signedArea ([⟨0, 0⟩, ⟨1 / 2, 0⟩, ⟨1, 0⟩, ⟨1, 1⟩, ⟨0, 1⟩] : List (P2 ℚ)) with
      | .ok a => a == 1 | _ => false) = true ∧
    (match centroid ([⟨0, 0⟩, ⟨1 / 2, 0⟩, ⟨1, 0⟩, ⟨1, 1⟩, ⟨0, 1⟩] : List (P2 ℚ)) with
      | .ok c => c == ⟨1 / 2, 1 / 2⟩ | _ => false) = true := by
  refine ⟨by decide +kernel, by decide +kernel⟩

end Geometrix
