import Verif.Lemmas.RegionCentroid
import Verif.Props.SimpleBorder

/-!
# C150: `get_area` is the area of the inside of the polygon
-/

set_option linter.unusedSectionVars false

namespace Geometrix

open Spec MeasureTheory

/-- C150: for a simple polygon `get_area` is the area, in the sense of Lebesgue, of the set of points for which `point_in_polygon`
holds, and it is positive. -/
theorem C150_area (poly : List (P2 ℝ)) (hn : 2 < poly.length) (hp : ProperPolygon poly) (hs : SimplePolygon poly) :
    ∃ a, polygonArea poly = .ok a ∧ 0 < a ∧
      volume {z : ℝ × ℝ | pointInPolygon ⟨z.1, z.2⟩ poly = true} = ENNReal.ofReal a := by
  have hne : poly ≠ [] := by rintro rfl; simp at hn
  refine ⟨|cyclicSum cross poly / 2|, by rw [polygonArea, signedArea_eq poly hne], ?_⟩
  rcases bottom_turn hn hp hs with ho | ho
  · have h1 := area_pos hn hp hs ho
    have h2 : 0 < cyclicSum cross poly / 2 := by linarith
    rw [abs_of_pos h2]
    refine ⟨h2, ?_⟩
    obtain ⟨u, v, w, hb, ha⟩ := ho
    obtain ⟨i, h3, -⟩ := hb.1
    have := region_volume hn hp hs (evLeft_all hn hp hs h3 ((evLeft_bottom hn hp hs hb).1 ha))
    simpa [region] using this
  · have h1 := area_neg hn hp hs ho
    have h2 : cyclicSum cross poly / 2 < 0 := by linarith
    rw [abs_of_neg h2]
    refine ⟨by linarith, ?_⟩
    obtain ⟨u, v, w, hb, ha⟩ := ho
    obtain ⟨i, h3, -⟩ := hb.1
    have := region_volume hn hp hs (evLeft_all hn hp hs h3 ((evLeft_bottom hn hp hs hb).2 ha))
    simpa [region] using this

/-- C150, with the tests of the library: this holds for at least four points for which `is_polygon_simple` returns true. -/
theorem C150_tested (poly : List (P2 ℝ)) (hn : 4 ≤ poly.length) (hp : ProperPolygon poly)
    (h : isPolygonSimple Cmp.direct poly = .ok true) :
    ∃ a, polygonArea poly = .ok a ∧ 0 < a ∧
      volume {z : ℝ × ℝ | pointInPolygon ⟨z.1, z.2⟩ poly = true} = ENNReal.ofReal a := by
  obtain ⟨b, h1, h2⟩ := C47_simple_partial poly hp hn
  rw [h] at h1
  exact C150_area poly (by omega) hp (h2.1 (Except.ok.inj h1).symm)

/-- A polygon which is not convex. -/
example : ∃ poly : List (P2 ℝ), 4 ≤ poly.length ∧ ProperPolygon poly ∧ SimplePolygon poly ∧
    isPolygonSimple Cmp.direct poly = .ok true ∧ polygonArea poly = .ok 4 := by
  have hp : ProperPolygon [⟨0, 0⟩, ⟨4, 0⟩, ⟨1, 1⟩, (⟨0, 4⟩ : P2 ℝ)] := by
    rintro (_ | _ | _ | _ | i) A B ⟨h1, h2⟩ <;> simp at h1 h2 <;> subst h1 <;> subst h2 <;> simp
  have hs : SimplePolygon [⟨0, 0⟩, ⟨4, 0⟩, ⟨1, 1⟩, (⟨0, 4⟩ : P2 ℝ)] := by
    refine (simple_iff_apart (by simp)).1 ?_
    have h02 : ¬ EdgeTouch [⟨0, 0⟩, ⟨4, 0⟩, ⟨1, 1⟩, (⟨0, 4⟩ : P2 ℝ)] 0 2 := by
      rintro ⟨X, ⟨t, t0, t1, rfl⟩, s, s0, s1, h⟩
      have := congrArg P2.y h
      simp [vert] at this
      linarith
    have h13 : ¬ EdgeTouch [⟨0, 0⟩, ⟨4, 0⟩, ⟨1, 1⟩, (⟨0, 4⟩ : P2 ℝ)] 1 3 := by
      rintro ⟨X, ⟨t, t0, t1, rfl⟩, s, s0, s1, h⟩
      have := congrArg P2.x h
      simp [vert] at this
      linarith
    have hsym : ∀ i j, EdgeTouch [⟨0, 0⟩, ⟨4, 0⟩, ⟨1, 1⟩, (⟨0, 4⟩ : P2 ℝ)] i j →
        EdgeTouch [⟨0, 0⟩, ⟨4, 0⟩, ⟨1, 1⟩, (⟨0, 4⟩ : P2 ℝ)] j i := fun i j ⟨X, h1, h2⟩ => ⟨X, h2, h1⟩
    rintro i j ⟨h1, h2, h3, h4, h5⟩
    simp only [List.length_cons, List.length_nil] at h1 h2 h4 h5
    have : (i = 0 ∧ j = 2) ∨ (i = 2 ∧ j = 0) ∨ (i = 1 ∧ j = 3) ∨ (i = 3 ∧ j = 1) := by omega
    rcases this with ⟨rfl, rfl⟩ | ⟨rfl, rfl⟩ | ⟨rfl, rfl⟩ | ⟨rfl, rfl⟩
    · exact h02
    · exact fun h => h02 (hsym _ _ h)
    · exact h13
    · exact fun h => h13 (hsym _ _ h)
  refine ⟨_, by simp, hp, hs, ?_, ?_⟩
  · obtain ⟨b, h1, h2⟩ := C47_simple_partial _ hp (by simp)
    rw [h1, h2.2 hs]
  · norm_num [polygonArea, signedArea, areaLoop, cross]

/-- C150: for a simple polygon `get_centroid` is the centre of gravity of the set of points for which `point_in_polygon` holds: its
coordinates are the mean values of the coordinates over the set. -/
theorem C150_centroid (poly : List (P2 ℝ)) (hn : 2 < poly.length) (hp : ProperPolygon poly) (hs : SimplePolygon poly) :
    ∃ (c : P2 ℝ) (a : ℝ), centroid poly = .ok c ∧ polygonArea poly = .ok a ∧ 0 < a ∧
      c.x = (∫ z in {z : ℝ × ℝ | pointInPolygon ⟨z.1, z.2⟩ poly = true}, z.1) / a ∧
      c.y = (∫ z in {z : ℝ × ℝ | pointInPolygon ⟨z.1, z.2⟩ poly = true}, z.2) / a := by
  have hne : poly ≠ [] := by rintro rfl; simp at hn
  have harea : polygonArea poly = .ok |cyclicSum cross poly / 2| := by rw [polygonArea, signedArea_eq poly hne]
  have key : ∀ b : Bool, (∀ s ∈ sides poly, EvLeft poly s b) → 0 < (if b then 1 else -1) * cyclicSum cross poly →
      ∃ (c : P2 ℝ) (a : ℝ), centroid poly = .ok c ∧ polygonArea poly = .ok a ∧ 0 < a ∧
        c.x = (∫ z in region poly, z.1) / a ∧ c.y = (∫ z in region poly, z.2) / a := by
    intro b hall hpos
    have h0 : cyclicSum cross poly ≠ 0 := by
      intro h; rw [h, mul_zero] at hpos; exact lt_irrefl _ hpos
    refine ⟨_, _, centroid_eq poly hne h0, harea, abs_pos.2 (div_ne_zero h0 two_ne_zero), ?_, ?_⟩
    · rw [region_x hn hp hs hall]
      cases b
      · simp only [Bool.false_eq_true, if_false] at hpos ⊢
        rw [abs_of_neg (by linarith)]
        field_simp
        norm_num
        ring
      · simp only [if_true] at hpos ⊢
        rw [abs_of_pos (by linarith)]
        field_simp
        norm_num
        ring
    · rw [region_y hn hp hs hall]
      cases b
      · simp only [Bool.false_eq_true, if_false] at hpos ⊢
        rw [abs_of_neg (by linarith)]
        field_simp
        norm_num
        ring
      · simp only [if_true] at hpos ⊢
        rw [abs_of_pos (by linarith)]
        field_simp
        norm_num
        ring
  rcases bottom_turn hn hp hs with ho | ho
  · have h1 := area_pos hn hp hs ho
    obtain ⟨u, v, w, hb, ha⟩ := ho
    obtain ⟨i, h3, -⟩ := hb.1
    exact key true (evLeft_all hn hp hs h3 ((evLeft_bottom hn hp hs hb).1 ha)) (by simpa using h1)
  · have h1 := area_neg hn hp hs ho
    obtain ⟨u, v, w, hb, ha⟩ := ho
    obtain ⟨i, h3, -⟩ := hb.1
    exact key false (evLeft_all hn hp hs h3 ((evLeft_bottom hn hp hs hb).2 ha)) (by simpa using h1)

/-- C150: a polygon inside another one has no greater area. -/
theorem C150_inside (P Q : List (P2 ℝ)) (hn : 2 < P.length) (hp : ProperPolygon P) (hs : SimplePolygon P)
    (hn' : 2 < Q.length) (hp' : ProperPolygon Q) (hs' : SimplePolygon Q)
    (h : ∀ z, pointInPolygon z P = true → pointInPolygon z Q = true) :
    ∃ a b, polygonArea P = .ok a ∧ polygonArea Q = .ok b ∧ a ≤ b := by
  obtain ⟨a, h1, h2, h3⟩ := C150_area P hn hp hs
  obtain ⟨b, k1, k2, k3⟩ := C150_area Q hn' hp' hs'
  refine ⟨a, b, h1, k1, ?_⟩
  have := measure_mono (μ := volume) (s := {z : ℝ × ℝ | pointInPolygon ⟨z.1, z.2⟩ P = true})
    (t := {z : ℝ × ℝ | pointInPolygon ⟨z.1, z.2⟩ Q = true}) fun z hz => h _ hz
  rw [h3, k3] at this
  exact (ENNReal.ofReal_le_ofReal_iff k2.le).1 this

example : ∃ P Q : List (P2 ℝ), P ≠ Q ∧ ∀ z, pointInPolygon z P = true → pointInPolygon z Q = true := by
  refine ⟨[⟨0, 0⟩, ⟨1, 0⟩, ⟨0, 1⟩], [⟨0, 0⟩, ⟨2, 0⟩, ⟨0, 2⟩], by simp, fun z => ?_⟩
  simp only [pointInPolygon, closedEdges, pipLoop, rayEdge]
  norm_num [openEdges, pipLoop, rayEdge]
  split_ifs <;> simp_all <;> intros <;> linarith

/-- C150: the inside of a polygon which is cut along a diagonal is made of the insides of the two parts, without the points
which are inside both; and the signed areas add up. -/
theorem C150_diagonal {K : Type*} [Field K] [LinearOrder K] [IsStrictOrderedRing K] (a b : P2 K) (A B : List (P2 K)) :
    (∀ z, pointInPolygon z (a :: A ++ b :: B) = true ↔
      ¬ (pointInPolygon z (a :: A ++ [b]) = true ↔ pointInPolygon z (a :: b :: B) = true)) ∧
    ∃ r s, signedArea (a :: A ++ [b]) = .ok r ∧ signedArea (a :: b :: B) = .ok s ∧ signedArea (a :: A ++ b :: B) = .ok (r + s) := by
  refine ⟨fun z => ?_, _, _, signedArea_eq _ (by simp), signedArea_eq _ (by simp), ?_⟩
  · rw [pip_diagonal]
    cases pointInPolygon z (a :: A ++ [b]) <;> cases pointInPolygon z (a :: b :: B) <;> simp
  · rw [signedArea_eq _ (by simp)]
    have h := cyclicSum_diagonal cross a b A B
    have h0 : cross a b + cross b a = 0 := by unfold cross; ring
    rw [h0, add_zero] at h
    rw [← h, add_div]

end Geometrix
