import Verif.Lemmas.AffineMaps
import Verif.Props.PointInPolygon
import Verif.Props.PolygonSimple
import Verif.Props.Distance

/-!
# C151: moving a polygon does not change the answers about it
-/

set_option linter.unusedSectionVars false

namespace Geometrix

open Spec

variable {K : Type*} [Field K] [LinearOrder K] [IsStrictOrderedRing K]

/-- C151: no invertible affine map of the point and the polygon changes the result of `point_in_polygon` for a point which is not on the border. The polygon
may intersect itself. -/
theorem C151_affine_partial (a b c d e g : K) (h : a * d - b * c ≠ 0) (poly : List (P2 K)) (z : P2 K) (hz : ¬ OnBorder (sides poly) z) :
    pointInPolygon (affineMap a b c d e g z) (poly.map (affineMap a b c d e g)) = pointInPolygon z poly := (keeps_affine h).2 poly z hz

/-- C151: the same with `rotate_points` and `rotate_translate_points`. Missing: points on the border, see `C151_border_refuted`. -/
theorem C151_rotate_partial (v1 v2 o t : P2 K) (h1 : v1.x ^ 2 + v1.y ^ 2 = 1) (h2 : v2.x ^ 2 + v2.y ^ 2 = 1) (poly : List (P2 K)) (z : P2 K)
    (hz : ¬ OnBorder (sides poly) z) :
    pointInPolygon (rotatePoint z v1 v2 o) (rotatePoints poly v1 v2 o) = pointInPolygon z poly ∧
    pointInPolygon (rotatePoint z v1 v2 o + t) (rotateTranslatePoints poly v1 v2 t o) = pointInPolygon z poly := by
  have hd := rotate_det h1 h2
  constructor
  · have h := (motion_rotate v1 v2 o poly).1
    rw [h, rotatePoint_affine]
    exact C151_affine_partial _ _ _ _ _ _ (by rw [hd]; exact one_ne_zero) poly z hz
  · have h := (motion_translate v1 v2 o t poly)
    rw [h.1, h.2]
    exact C151_affine_partial _ _ _ _ _ _ (by rw [hd]; exact one_ne_zero) poly z hz

/-- A polygon which is not convex, turned by the angle of the triangle with the sides 3, 4 and 5. -/
example : (1 : ℚ) ^ 2 + 0 ^ 2 = 1 ∧ (3 / 5 : ℚ) ^ 2 + (4 / 5) ^ 2 = 1 ∧
    ¬ OnBorder (sides [⟨0, 0⟩, ⟨4, 0⟩, ⟨1, 1⟩, ⟨0, 4⟩]) (⟨1 / 2, 1⟩ : P2 ℚ) ∧
    pointInPolygon (⟨1 / 2, 1⟩ : P2 ℚ) [⟨0, 0⟩, ⟨4, 0⟩, ⟨1, 1⟩, ⟨0, 4⟩] = true := by
  refine ⟨by norm_num, by norm_num, ?_, by decide +kernel⟩
  rintro ⟨s, hs, t, t0, t1, ht⟩
  have hx := congrArg P2.x ht
  have hy := congrArg P2.y ht
  simp [sides] at hs
  rcases hs with rfl | rfl | rfl | rfl <;> simp at hx hy <;> first | linarith | (rcases hy with h | h <;> linarith)

/-- C151, refuted on the border: turned by half a turn, the point of the lower side of a square is not inside any more. -/
theorem C151_border_refuted : ∃ (v1 v2 o z : P2 ℚ) (poly : List (P2 ℚ)), v1.x ^ 2 + v1.y ^ 2 = 1 ∧ v2.x ^ 2 + v2.y ^ 2 = 1 ∧
    pointInPolygon z poly = true ∧ pointInPolygon (rotatePoint z v1 v2 o) (rotatePoints poly v1 v2 o) = false :=
  ⟨⟨1, 0⟩, ⟨-1, 0⟩, ⟨0, 0⟩, ⟨1, 0⟩, [⟨0, 0⟩, ⟨2, 0⟩, ⟨2, 2⟩, ⟨0, 2⟩], by norm_num, by norm_num, by decide +kernel, by decide +kernel⟩

/-- C151: `polygon_containment` answers the same after a rotation, also on the border. -/
theorem C151_containment (eps : K) (v1 v2 o : P2 K) (h1 : v1.x ^ 2 + v1.y ^ 2 = 1) (h2 : v2.x ^ 2 + v2.y ^ 2 = 1) (poly : List (P2 K)) (z : P2 K)
    (hl : 2 < poly.length) (hs : z ∉ poly → sideCount poly (fun p q => OnSegment p q z) ≤ 1) :
    polygonContainment Cmp.direct eps (rotatePoint z v1 v2 o) (rotatePoints poly v1 v2 o) = polygonContainment Cmp.direct eps z poly := by
  have hd := rotate_det h1 h2
  have hd0 : dot v1 v2 * dot v1 v2 - -cross v1 v2 * cross v1 v2 ≠ 0 := by rw [hd]; exact one_ne_zero
  rw [(motion_rotate v1 v2 o poly).1, rotatePoint_affine]
  set f := affineMap (dot v1 v2) (-cross v1 v2) (cross v1 v2) (dot v1 v2)
    (o.x - dot v1 v2 * o.x + cross v1 v2 * o.y) (o.y - cross v1 v2 * o.x - dot v1 v2 * o.y) with hf
  have hm : f z ∈ poly.map f ↔ z ∈ poly := List.mem_map_of_injective (affine_injective hd0)
  have hc : sideCount (poly.map f) (fun p q => OnSegment p q (f z)) = sideCount poly (fun p q => OnSegment p q z) := by
    rw [sideCount_map]
    congr 1
    funext p q
    exact propext (onSegment_affine_iff hd0)
  by_cases hz : z ∈ poly
  · rw [(C38_classify_partial eps z poly hl).1 hz, (C38_classify_partial eps (f z) (poly.map f) (by simpa using hl)).1 (hm.2 hz)]
  · have hz' : f z ∉ poly.map f := fun h => hz (hm.1 h)
    by_cases ho : Odd (sideCount poly (fun p q => OnSegment p q z))
    · rw [(C38_classify_partial eps z poly hl).2.1 hz ho,
        (C38_classify_partial eps (f z) (poly.map f) (by simpa using hl)).2.1 hz' (by rw [hc]; exact ho)]
    · rw [(C38_classify_partial eps z poly hl).2.2 hz ho,
        (C38_classify_partial eps (f z) (poly.map f) (by simpa using hl)).2.2 hz' (by rw [hc]; exact ho)]
      have h0 : sideCount poly (fun p q => OnSegment p q z) = 0 := by
        have := hs hz
        interval_cases h : sideCount poly (fun p q => OnSegment p q z)
        · rfl
        · exact absurd odd_one ho
      rw [C151_affine_partial _ _ _ _ _ _ hd0 poly z (not_onBorder_of_count h0)]

example : ∃ (poly : List (P2 ℚ)) (z : P2 ℚ), 2 < poly.length ∧ z ∉ poly ∧
    polygonContainment Cmp.direct 0 z poly = .ok .border ∧ (z ∉ poly → sideCount poly (fun p q => OnSegment p q z) ≤ 1) := by
  refine ⟨[⟨0, 0⟩, ⟨2, 0⟩, ⟨2, 2⟩, ⟨0, 2⟩], ⟨2, 1⟩, by simp, by simp, by decide +kernel, fun _ => ?_⟩
  have a1 : ¬ OnSegment (⟨0, 0⟩ : P2 ℚ) ⟨2, 0⟩ ⟨2, 1⟩ := by
    rintro ⟨t, -, -, h⟩; simpa using congrArg P2.y h
  have a2 : ¬ OnSegment (⟨2, 2⟩ : P2 ℚ) ⟨0, 2⟩ ⟨2, 1⟩ := by
    rintro ⟨t, -, -, h⟩; simpa using congrArg P2.y h
  have a3 : ¬ OnSegment (⟨0, 2⟩ : P2 ℚ) ⟨0, 0⟩ ⟨2, 1⟩ := by
    rintro ⟨t, -, -, h⟩; simpa using congrArg P2.x h
  simp [sideCount, sides, List.countP_cons, a1, a2, a3]
  split <;> simp

/-- C151: an affine map multiplies the signed area by its determinant. -/
theorem C151_area (a b c d e g : K) (poly : List (P2 K)) (hne : poly ≠ []) :
    ∃ s, signedArea poly = .ok s ∧ signedArea (poly.map (affineMap a b c d e g)) = .ok ((a * d - b * c) * s) ∧
      polygonArea poly = .ok |s| ∧ polygonArea (poly.map (affineMap a b c d e g)) = .ok (|a * d - b * c| * |s|) := by
  have h1 := signedArea_eq poly hne
  have h2 := signedArea_eq (poly.map (affineMap a b c d e g)) (by simpa using hne)
  rw [cross_affine, mul_div_assoc] at h2
  exact ⟨_, h1, h2, by rw [polygonArea, h1], by rw [polygonArea, h2]; simp only [abs_mul]⟩

/-- C151: the centroid moves along. -/
theorem C151_centroid (a b c d e g : K) (h : a * d - b * c ≠ 0) (poly : List (P2 K)) (hne : poly ≠ []) (h0 : signedArea poly ≠ .ok 0) :
    ∃ m, centroid poly = .ok m ∧ centroid (poly.map (affineMap a b c d e g)) = .ok (affineMap a b c d e g m) := by
  have hA : cyclicSum cross poly ≠ 0 := by
    intro h'; apply h0; rw [signedArea_eq poly hne, h', zero_div]
  refine ⟨_, centroid_eq poly hne hA, ?_⟩
  rw [centroid_eq _ (by simpa using hne) (by rw [cross_affine]; exact mul_ne_zero h hA), cross_affine, moment_affine_x, moment_affine_y]
  congr 1
  ext
  · simp only [affineMap]; field_simp
  · simp only [affineMap]; field_simp

/-- C151, with `rotate_points`: the areas are the same and the centroid is rotated. -/
theorem C151_rotate_area (v1 v2 o : P2 K) (h1 : v1.x ^ 2 + v1.y ^ 2 = 1) (h2 : v2.x ^ 2 + v2.y ^ 2 = 1) (poly : List (P2 K)) :
    signedArea (rotatePoints poly v1 v2 o) = signedArea poly ∧ polygonArea (rotatePoints poly v1 v2 o) = polygonArea poly ∧
    (poly ≠ [] → signedArea poly ≠ .ok 0 → ∃ m, centroid poly = .ok m ∧ centroid (rotatePoints poly v1 v2 o) = .ok (rotatePoint m v1 v2 o)) := by
  have hd := rotate_det h1 h2
  rw [(motion_rotate v1 v2 o poly).1]
  by_cases hne : poly = []
  · subst hne; exact ⟨rfl, rfl, fun h => absurd rfl h⟩
  · obtain ⟨s, k1, k2, k3, k4⟩ := C151_area (dot v1 v2) (-cross v1 v2) (cross v1 v2) (dot v1 v2)
      (o.x - dot v1 v2 * o.x + cross v1 v2 * o.y) (o.y - cross v1 v2 * o.x - dot v1 v2 * o.y) poly hne
    rw [hd] at k2 k4
    refine ⟨by rw [k1, k2, one_mul], by rw [k3, k4, abs_one, one_mul], fun _ h0 => ?_⟩
    obtain ⟨m, m1, m2⟩ := C151_centroid (dot v1 v2) (-cross v1 v2) (cross v1 v2) (dot v1 v2)
      (o.x - dot v1 v2 * o.x + cross v1 v2 * o.y) (o.y - cross v1 v2 * o.x - dot v1 v2 * o.y) (by rw [hd]; exact one_ne_zero) poly hne h0
    exact ⟨m, m1, by rw [m2, rotatePoint_affine]⟩

example : ∃ poly : List (P2 ℚ), poly ≠ [] ∧ signedArea poly = .ok 4 ∧ signedArea poly ≠ .ok 0 :=
  ⟨[⟨0, 0⟩, ⟨4, 0⟩, ⟨1, 1⟩, ⟨0, 4⟩], by simp, by decide +kernel, by decide +kernel⟩

/-- C151: `is_polygon_simple` answers the same. -/
theorem C151_simple (a b c d e g : K) (h : a * d - b * c ≠ 0) (poly : List (P2 K)) (hn : 4 ≤ poly.length) (hp : ProperPolygon poly) :
    isPolygonSimple Cmp.direct (poly.map (affineMap a b c d e g)) = isPolygonSimple Cmp.direct poly := by
  obtain ⟨r, r1, r2⟩ := C47_simple_partial poly hp hn
  obtain ⟨s, s1, s2⟩ := C47_simple_partial (poly.map (affineMap a b c d e g)) ((proper_affine h poly).2 hp) (by simpa using hn)
  rw [r1, s1, Bool.eq_iff_iff.2 (s2.trans ((simple_affine h poly).trans r2.symm))]

example : ∃ poly : List (P2 ℚ), 4 ≤ poly.length ∧ ProperPolygon poly := by
  refine ⟨[⟨0, 0⟩, ⟨4, 0⟩, ⟨1, 1⟩, ⟨0, 4⟩], by simp, ?_⟩
  rintro (_ | _ | _ | _ | i) A B ⟨h1, h2⟩ <;> simp at h1 h2 <;> subst h1 <;> subst h2 <;> simp

/-- C151: rotating the point and the polygon keeps the distance of the point from the border. -/
theorem C151_distance (v1 v2 o : P2 K) (h1 : v1.x ^ 2 + v1.y ^ 2 = 1) (h2 : v2.x ^ 2 + v2.y ^ 2 = 1) (poly : List (P2 K)) (hne : poly ≠ []) (z : P2 K) :
    pointPolygonDistSq (rotatePoint z v1 v2 o) (rotatePoints poly v1 v2 o) = pointPolygonDistSq z poly := by
  obtain ⟨d, d1, d2⟩ := C21_polygon_distance z poly hne
  obtain ⟨d', e1, e2⟩ := C21_polygon_distance (rotatePoint z v1 v2 o) (rotatePoints poly v1 v2 o) (by simpa [rotatePoints] using hne)
  rw [d1, e1]
  have hq := fun w => (motion_distance v1 v2 o h1 h2 z w)
  obtain ⟨⟨x, x1, x2⟩, dm⟩ := d2
  obtain ⟨⟨y, y1, y2⟩, em⟩ := e2
  obtain ⟨y', y3, rfl⟩ := (onBoundary_rotate v1 v2 o poly y).1 y1
  have l1 := em _ ((onBoundary_rotate v1 v2 o poly _).2 ⟨x, x1, rfl⟩)
  have l2 := dm _ y3
  rw [hq] at l1 y2
  rw [le_antisymm (l1.trans x2.le) (l2.trans y2.le)]

end Geometrix
