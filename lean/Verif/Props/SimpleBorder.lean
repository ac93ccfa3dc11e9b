import Verif.Lemmas.AreaSign
import Verif.Props.Agreement
import Verif.Props.PolygonSimple

/-!
# C148, C149: simple polygons bound the points for which `point_in_polygon` holds
-/

set_option linter.unusedSectionVars false

namespace Geometrix

open Spec

variable {K : Type*} [Field K] [LinearOrder K] [IsStrictOrderedRing K]

/-- C149: a simple polygon turns to the left or to the right at its lowest vertex. -/
theorem C149_turn (poly : List (P2 K)) (hn : 2 < poly.length) (hp : ProperPolygon poly) (hs : SimplePolygon poly) :
    BottomLeftTurn poly ∨ BottomRightTurn poly := bottom_turn hn hp hs

/-- C149: if it turns left there, its sides are the border of the set of points for which `point_in_polygon` holds, and this
set is on the left of every side. -/
theorem C149_left (poly : List (P2 K)) (hn : 2 < poly.length) (hp : ProperPolygon poly) (hs : SimplePolygon poly)
    (ho : BottomLeftTurn poly) : LeftBorderOf (sides poly) (fun p => pointInPolygon p poly = true) :=
  leftBorderOf_simple hn hp hs ho

/-- C149: if it turns right there, this set is on the right of every side. -/
theorem C149_right (poly : List (P2 K)) (hn : 2 < poly.length) (hp : ProperPolygon poly) (hs : SimplePolygon poly)
    (ho : BottomRightTurn poly) : BorderOf (sides poly) (fun p => pointInPolygon p poly = true) :=
  borderOf_simple hn hp hs ho

/-- C149: `get_signed_area` is positive exactly if the polygon turns left at its lowest vertex, and exactly if the points for
which `point_in_polygon` holds are on the left of the sides; it is negative exactly in the other case, and never zero. -/
theorem C149_area (poly : List (P2 K)) (hn : 2 < poly.length) (hp : ProperPolygon poly) (hs : SimplePolygon poly) :
    ∃ a, signedArea poly = .ok a ∧ a ≠ 0 ∧
      (0 < a ↔ BottomLeftTurn poly) ∧ (a < 0 ↔ BottomRightTurn poly) ∧
      (0 < a ↔ LeftBorderOf (sides poly) (fun p => pointInPolygon p poly = true)) ∧
      (a < 0 ↔ BorderOf (sides poly) (fun p => pointInPolygon p poly = true)) := by
  have hne : poly ≠ [] := by rintro rfl; simp at hn
  refine ⟨_, signedArea_eq poly hne, ?_⟩
  have hx : ¬ (LeftBorderOf (sides poly) (fun p => pointInPolygon p poly = true) ∧
      BorderOf (sides poly) (fun p => pointInPolygon p poly = true)) := fun h => not_both_borders hn hp hs h.1 h.2
  rcases bottom_turn hn hp hs with ho | ho
  · have h1 := area_pos hn hp hs ho
    have h2 : 0 < cyclicSum cross poly / 2 := by linarith
    have h3 := leftBorderOf_simple hn hp hs ho
    refine ⟨h2.ne', ⟨fun _ => ho, fun _ => h2⟩, ⟨fun h => absurd h h2.le.not_gt, fun h => ?_⟩, ⟨fun _ => h3, fun _ => h2⟩,
      ⟨fun h => absurd h h2.le.not_gt, fun h => absurd ⟨h3, h⟩ hx⟩⟩
    exact absurd (area_neg hn hp hs h) h1.le.not_gt
  · have h1 := area_neg hn hp hs ho
    have h2 : cyclicSum cross poly / 2 < 0 := by linarith
    have h3 := borderOf_simple hn hp hs ho
    refine ⟨h2.ne, ⟨fun h => absurd h h2.le.not_gt, fun h => ?_⟩, ⟨fun _ => ho, fun _ => h2⟩,
      ⟨fun h => absurd h h2.le.not_gt, fun h => absurd ⟨h, h3⟩ hx⟩, ⟨fun _ => h3, fun _ => h2⟩⟩
    exact absurd (area_pos hn hp hs h) h1.le.not_gt

/-- C149, with the tests of the library: if `is_polygon_simple` returns true for at least four points of which no two consecutive
ones are equal, the points for which `point_in_polygon` holds are on one hand of all the sides, which is the left one if and only
if `get_signed_area` is positive. -/
theorem C149_tested (poly : List (P2 K)) (hn : 4 ≤ poly.length) (hp : ProperPolygon poly)
    (h : isPolygonSimple Cmp.direct poly = .ok true) :
    ∃ a, signedArea poly = .ok a ∧
      (0 < a ∧ LeftBorderOf (sides poly) (fun p => pointInPolygon p poly = true) ∨
        a < 0 ∧ BorderOf (sides poly) (fun p => pointInPolygon p poly = true)) := by
  obtain ⟨b, h1, h2⟩ := C47_simple_partial poly hp hn
  rw [h] at h1
  have hs := h2.1 (Except.ok.inj h1).symm
  obtain ⟨a, k1, k2, -, -, k3, k4⟩ := C149_area poly (by omega) hp hs
  rcases lt_or_gt_of_ne k2 with k | k
  · exact ⟨a, k1, Or.inr ⟨k, k4.1 k⟩⟩
  · exact ⟨a, k1, Or.inl ⟨k, k3.1 k⟩⟩

/-- A polygon which is not convex: it is simple and turns left at the bottom. -/
example : ∃ poly : List (P2 ℚ), 4 ≤ poly.length ∧ ProperPolygon poly ∧ SimplePolygon poly ∧ BottomLeftTurn poly ∧
    isPolygonSimple Cmp.direct poly = .ok true ∧ ¬ StrictlyConvex poly := by
  have hp : ProperPolygon [⟨0, 0⟩, ⟨4, 0⟩, ⟨1, 1⟩, (⟨0, 4⟩ : P2 ℚ)] := by
    rintro (_ | _ | _ | _ | i) A B ⟨h1, h2⟩ <;> simp at h1 h2 <;> subst h1 <;> subst h2 <;> decide +kernel
  have ht : isPolygonSimple Cmp.direct [⟨0, 0⟩, ⟨4, 0⟩, ⟨1, 1⟩, (⟨0, 4⟩ : P2 ℚ)] = .ok true := by decide +kernel
  refine ⟨[⟨0, 0⟩, ⟨4, 0⟩, ⟨1, 1⟩, ⟨0, 4⟩], by simp, hp, ?_, ?_, ht, ?_⟩
  · obtain ⟨b, h1, h2⟩ := C47_simple_partial _ hp (by simp)
    rw [ht] at h1
    exact h2.1 (Except.ok.inj h1).symm
  · refine ⟨⟨0, 4⟩, ⟨0, 0⟩, ⟨4, 0⟩, ⟨⟨3, ⟨rfl, rfl⟩, ⟨rfl, rfl⟩⟩, ?_⟩, by norm_num [area2]⟩
    decide +kernel
  · intro h
    have := h 1 2 3 ⟨4, 0⟩ ⟨1, 1⟩ ⟨0, 4⟩ (by decide) (by decide) rfl rfl rfl
    norm_num [area2] at this

/-- C148, points of a simple polygon, in part: a node tree of its sides, if these have the inside on the left, the classification and the
even-odd test give one answer for every point with a distance from the border. On the border the first says boundary. Missing
are points of the border on the line through a side which does not contain them. -/
theorem C148_simple_partial (poly : List (P2 K)) (hn : 2 < poly.length) (hp : ProperPolygon poly) (hs : SimplePolygon poly)
    (ho : BottomLeftTurn poly) {t : NodeTree K} (ht : GrownTree Cmp.direct (sides poly) t) (eps : K) (p : P2 K) :
    (pointPolygonDistSq p poly ≠ .ok (some 0) →
      (pointInPolygon p poly = true ∧ locatePoint Cmp.direct t p = .inside ∧
          polygonContainment Cmp.direct eps p poly = .ok .interior) ∨
      (pointInPolygon p poly = false ∧ locatePoint Cmp.direct t p = .outside ∧
          polygonContainment Cmp.direct eps p poly = .ok .exterior)) ∧
    (pointPolygonDistSq p poly = .ok (some 0) →
      (polygonContainment Cmp.direct eps p poly = .ok .vertex ∨ polygonContainment Cmp.direct eps p poly = .ok .border) ∧
      (OnlyOwnLines (sides poly) p → locatePoint Cmp.direct t p = .boundary)) := by
  obtain ⟨d, h1, h2⟩ := C21_polygon_distance p poly (by rintro rfl; simp at hn)
  have h3 := minOver_zero h2
  obtain ⟨k1, k2⟩ := C148_polygon_partial eps p poly hn (simple_one_side hn hp hs)
  have hz : pointPolygonDistSq p poly = .ok (some 0) ↔ OnBorder (sides poly) p := by
    rw [onBorder_sides, h1, ← h3]; simp
  refine ⟨fun hd => ?_, fun hd => ⟨k1.2 hd, fun hown => ?_⟩⟩
  · obtain ⟨l1, l2⟩ := C83_off_border (leftBorderOf_simple hn hp hs ho) ht (mt hz.2 hd)
    have e2 := k2 hd
    cases hq : pointInPolygon p poly
    · rw [hq] at e2
      exact Or.inr ⟨rfl, l2 (by simp [hq]), e2⟩
    · rw [hq] at e2
      exact Or.inl ⟨rfl, l1 hq, e2⟩
  · exact C83_on_border_partial (simple_side_ne hn hp hs) ht (hz.1 hd) hown

/-- C148, points of a simple polygon and solid leaf trees, in part: if the inside is on the right of the sides and no two of them
are on a line, a solid leaf tree of the sides and the classification give one answer for every point. Missing are polygons with
two sides on a line. -/
theorem C148_simple_solid_partial (poly : List (P2 K)) (hn : 2 < poly.length) (hp : ProperPolygon poly) (hs : SimplePolygon poly)
    (ho : BottomRightTurn poly) (hno : NoTwoOnALine (sides poly)) {mk : P2 K → P2 K → Res (Plane2 K)}
    (hm : ∀ s ∈ sides poly, ∃ pl, mk s.1 s.2 = .ok pl ∧ NormalForm s.1 s.2 pl.n pl.d)
    {sel : List (BspItem K) → Option Nat} (hsel : sel = autoSelect ∨ sel = scoredSelect Cmp.direct)
    {fuel : Nat} (hf : poly.length < fuel) (eps : K) :
    ∃ u, solidBsp mk Cmp.direct sel fuel (sides poly) = .ok u ∧ ∀ p,
      (pointInSolid Cmp.direct u p = .onBoundary ↔
        polygonContainment Cmp.direct eps p poly = .ok .vertex ∨ polygonContainment Cmp.direct eps p poly = .ok .border) ∧
      (pointInSolid Cmp.direct u p = .inSolid ↔ polygonContainment Cmp.direct eps p poly = .ok .interior) ∧
      (pointInSolid Cmp.direct u p = .inEmpty ↔ polygonContainment Cmp.direct eps p poly = .ok .exterior) := by
  have hlen : (sides poly).length = poly.length := by simp [sides]
  obtain ⟨u, h1, h2⟩ := C80_no_two_on_a_line_partial (sides := sides poly)
    (by intro h; rw [h] at hlen; simp at hlen; omega) (borderOf_simple hn hp hs ho) hno hm hsel (by rw [hlen]; exact hf)
  refine ⟨u, h1, fun p => ?_⟩
  obtain ⟨a1, a2, a3⟩ := h2 p
  obtain ⟨d, g1, g2⟩ := C21_polygon_distance p poly (by rintro rfl; simp at hn)
  have g3 := minOver_zero g2
  obtain ⟨k1, k2⟩ := C148_polygon_partial eps p poly hn (simple_one_side hn hp hs)
  have hz : pointPolygonDistSq p poly = .ok (some 0) ↔ OnBorder (sides poly) p := by
    rw [onBorder_sides, g1, ← g3]; simp
  rw [a1, a2, a3, k1, hz]
  by_cases hb : OnBorder (sides poly) p
  · have := k1.2 (hz.2 hb)
    refine ⟨Iff.rfl, ?_, ?_⟩ <;> rcases this with h | h <;> simp [hb, h]
  · have e2 := k2 (mt hz.1 hb)
    rw [e2]
    cases hq : pointInPolygon p poly <;> simp [hb]

/-- The same polygon backwards turns right at the bottom, and no two of its sides are on a line. -/
example : ∃ poly : List (P2 ℚ), 2 < poly.length ∧ ProperPolygon poly ∧ SimplePolygon poly ∧ BottomRightTurn poly ∧
    NoTwoOnALine (sides poly) := by
  have hp : ProperPolygon [⟨0, 0⟩, ⟨0, 4⟩, ⟨1, 1⟩, (⟨4, 0⟩ : P2 ℚ)] := by
    rintro (_ | _ | _ | _ | i) A B ⟨h1, h2⟩ <;> simp at h1 h2 <;> subst h1 <;> subst h2 <;> decide +kernel
  have ht : isPolygonSimple Cmp.direct [⟨0, 0⟩, ⟨0, 4⟩, ⟨1, 1⟩, (⟨4, 0⟩ : P2 ℚ)] = .ok true := by decide +kernel
  refine ⟨[⟨0, 0⟩, ⟨0, 4⟩, ⟨1, 1⟩, ⟨4, 0⟩], by simp, hp, ?_, ?_, ?_⟩
  · obtain ⟨b, h1, h2⟩ := C47_simple_partial _ hp (by simp)
    rw [ht] at h1
    exact h2.1 (Except.ok.inj h1).symm
  · refine ⟨⟨4, 0⟩, ⟨0, 0⟩, ⟨0, 4⟩, ⟨⟨3, ⟨rfl, rfl⟩, ⟨rfl, rfl⟩⟩, ?_⟩, by norm_num [area2]⟩
    decide +kernel
  · unfold NoTwoOnALine sides; decide +kernel

end Geometrix
