import Verif.Lemmas.Agreement

/-!
# C148: functions that answer the same question agree
-/

set_option linter.unusedSectionVars false

namespace Geometrix

open Spec

variable {K : Type*} [Field K] [LinearOrder K] [IsStrictOrderedRing K]

/-- C148, segments: `segment_segment_intersection` finds something exactly if `segment_segment_distance_sqrd` is zero. -/
theorem C148_segments (A B C D : P2 K) (hAB : A ≠ B) (hCD : C ≠ D) :
    ∃ r pts, segSegIntersection Cmp.direct A B C D = .ok (r, pts) ∧
      (r = .nonCrossing ↔ segSegDistSq Cmp.direct A B C D ≠ .ok 0) := by
  obtain ⟨r, pts, h1, h2⟩ := C09_segment_segment A B C D hAB hCD
  refine ⟨r, pts, h1, ?_⟩
  rw [h2.nonCrossing, Ne, C18_zero]
  rfl

example : (⟨0, 0⟩ : P2 ℚ) ≠ ⟨2, 2⟩ ∧ (⟨0, 2⟩ : P2 ℚ) ≠ ⟨2, 0⟩ ∧
    segSegDistSq Cmp.direct (⟨0, 0⟩ : P2 ℚ) ⟨2, 2⟩ ⟨0, 2⟩ ⟨2, 0⟩ = .ok 0 := by decide +kernel

/-- C148, a point and a segment: `is_between` with its bounds holds exactly if `point_segment_distance_sqrd` is zero. -/
theorem C148_point_segment (A B p : P2 K) (hAB : A ≠ B) :
    isBetween Cmp.direct A B p true = true ↔ pointSegDistSq p A B = .ok 0 := by
  rw [C06_isBetween_closed A B p hAB, C17_distance_zero]

example : isBetween Cmp.direct (⟨0, 0⟩ : P2 ℚ) ⟨3, 3⟩ ⟨1, 1⟩ true = true := by decide +kernel

/-- C148, a point and a box: `intersects` holds exactly if the distance of the point from the box is zero, and exactly
if the closest point of the box is the point. -/
theorem C148_box (p : P2 K) (b : Box K) (hb : ValidBox b) :
    (b.intersectsPoint Cmp.direct p = true ↔ pointAabbDistSq p b = 0) ∧
      (b.intersectsPoint Cmp.direct p = true ↔ pointAabbClosest p b = p) := by
  obtain ⟨h1, h2, h3⟩ := C19_plane p b hb
  have h4 := minOver_zero h1
  rw [C14_point, h4]
  refine ⟨Iff.rfl, ?_⟩
  rw [← h4, ← h3, sqDist_zero_iff]
  exact eq_comm

example : ValidBox (⟨⟨0, 0⟩, ⟨1, 1⟩⟩ : Box ℚ) ∧
    Box.intersectsPoint Cmp.direct (⟨⟨0, 0⟩, ⟨1, 1⟩⟩ : Box ℚ) ⟨1, 1 / 2⟩ = true := by
  refine ⟨⟨by norm_num, by norm_num⟩, by decide +kernel⟩

/-- C148, a segment and a polyline: `segment_polyline_intersect` returns true exactly if the distance of the segment from the
polyline is zero, whatever the visitor does. -/
theorem C148_polyline {σ : Type*} (A B : P2 K) (poly : List (P2 K)) (visit : σ → EdgeCall K → Bool × σ) (s : σ)
    (hAB : A ≠ B) (hp : ProperEdges poly) (hl : 2 ≤ poly.length) :
    ∃ r s', segPolylineIntersect Cmp.direct A B poly visit s = .ok (r, s') ∧
      (r = true ↔ segPolylineDistSq Cmp.direct A B poly = .ok (some 0)) := by
  obtain ⟨calls, -, -, -, r, h1, h2⟩ := C45_segment_polyline A B poly visit s hAB hp
  obtain ⟨d, h3, h4⟩ := (C53_distance A B poly).1 hl
  refine ⟨r, _, h1, ?_⟩
  rw [h2, h3]
  simp only [Except.ok.injEq, Option.some.injEq]
  rw [minDist_zero h4]
  constructor
  · rintro ⟨i, C, D, P, e1, e2, e3⟩
    exact ⟨P, e2, i, C, D, e1, e3⟩
  · rintro ⟨P, e2, i, C, D, e1, e3⟩
    exact ⟨i, C, D, P, e1, e2, e3⟩

example : ProperEdges [⟨0, 0⟩, ⟨1, 0⟩, (⟨1, 1⟩ : P2 ℚ)] ∧
    segPolylineDistSq Cmp.direct (⟨0, 1⟩ : P2 ℚ) ⟨2, 1 / 2⟩ [⟨0, 0⟩, ⟨1, 0⟩, ⟨1, 1⟩] = .ok (some 0) := by
  refine ⟨?_, by decide +kernel⟩
  rintro (_ | _ | _ | i) A B ⟨h1, h2⟩ <;> simp at h1 h2
  · subst h1; subst h2; decide +kernel
  · subst h1; subst h2; decide +kernel

/-- C148, a segment and the border of a polygon: `segment_polygon_border_intersect` returns true exactly if the distance of
the segment from the border is zero. -/
theorem C148_polygon_border {σ : Type*} (A B : P2 K) (poly : List (P2 K)) (visit : σ → EdgeCall K → Bool × σ) (s : σ)
    (hAB : A ≠ B) (hp : ProperPolygon poly) (hl : 2 ≤ poly.length) :
    ∃ r s', segPolygonBorder Cmp.direct A B poly visit s = .ok (r, s') ∧
      (r = true ↔ segPolygonDistSq Cmp.direct A B poly = .ok (some 0)) := by
  obtain ⟨calls, -, -, -, r, h1, h2⟩ := C92_border A B poly visit s hAB (by omega) hp
  obtain ⟨d, h3, h4⟩ := (C53_distance A B poly).2 (by rintro rfl; simp at hl)
  refine ⟨r, _, h1, ?_⟩
  rw [h2, h3]
  simp only [Except.ok.injEq, Option.some.injEq]
  rw [minDist_zero h4]

example : segPolygonDistSq Cmp.direct (⟨-1, 1 / 2⟩ : P2 ℚ) ⟨3, 1 / 2⟩ [⟨0, 0⟩, ⟨1, 0⟩, ⟨1, 1⟩] = .ok (some 0) ∧
    segPolygonDistSq Cmp.direct (⟨-1, 2⟩ : P2 ℚ) ⟨3, 2⟩ [⟨0, 0⟩, ⟨1, 0⟩, ⟨1, 1⟩] = .ok (some 1) := by decide +kernel

/-- C148, a segment and a disc: `segment_sphere_intersection` finds a point exactly if the squared distance of the centre
from the segment is at most the squared radius. -/
theorem C148_disc (a b c : P2 ℝ) (r : ℝ) (h : a ≠ b) :
    ∃ o d, segSphere Cmp.direct a b c r = .ok o ∧ pointSegDistSq c a b = .ok d ∧ (o ≠ none ↔ d ≤ r ^ 2) := by
  obtain ⟨o, h1, h2, -⟩ := C63_segment a b c r h
  obtain ⟨d, h3, ⟨Q, ⟨t, t0, t1, rfl⟩, hQ⟩, hmin⟩ := C17_distance c a b
  have hsq : ∀ P : P2 ℝ, InDisc c r P ↔ sqDist c P ≤ r ^ 2 := by
    intro P
    have : sqDist c P = (P.x - c.x) ^ 2 + (P.y - c.y) ^ 2 := by unfold sqDist; ring
    rw [this]; rfl
  refine ⟨o, d, h1, h3, ?_⟩
  cases o with
  | none =>
    simp only [Option.map_none, IsFirst] at h2
    simp only [ne_eq, not_true_eq_false, false_iff]
    intro hd
    refine h2 t ⟨t0, t1⟩ ((hsq _).2 ?_)
    rw [hQ]; exact hd
  | some x =>
    simp only [Option.map_some, IsFirst] at h2
    simp only [ne_eq, reduceCtorEq, not_false_eq_true, true_iff]
    exact (hmin _ ⟨x.1, h2.1.1, h2.1.2, rfl⟩).trans ((hsq _).1 h2.2.1)

example : (⟨-2, 0⟩ : P2 ℝ) ≠ ⟨2, 0⟩ := by
  intro h; have := congrArg P2.x h; norm_num at this

/-- C148, points of any polygon, in part: `polygon_containment` answers vertex or border exactly if the distance from the border
is zero, and otherwise as `point_in_polygon`. Missing are points inside two or more sides. -/
theorem C148_polygon_partial (eps : K) (p : P2 K) (poly : List (P2 K)) (hl : 2 < poly.length)
    (hs : p ∉ poly → sideCount poly (fun a b => OnSegment a b p) ≤ 1) :
    ((polygonContainment Cmp.direct eps p poly = .ok .vertex ∨ polygonContainment Cmp.direct eps p poly = .ok .border) ↔
      pointPolygonDistSq p poly = .ok (some 0)) ∧
    (pointPolygonDistSq p poly ≠ .ok (some 0) →
      polygonContainment Cmp.direct eps p poly = .ok (if pointInPolygon p poly then .interior else .exterior)) := by
  classical
  obtain ⟨d, h1, h2⟩ := C21_polygon_distance p poly (by rintro rfl; simp at hl)
  have h3 := minOver_zero h2
  have h4 := C38_classify eps p poly hl hs
  have hv : p ∈ poly → OnBoundary poly p := by
    intro hp
    obtain ⟨i, hi, rfl⟩ := List.mem_iff_getElem.1 hp
    exact ⟨i, _, _, ⟨List.getElem?_eq_getElem hi, List.getElem?_eq_getElem (Nat.mod_lt _ (by omega))⟩, onSegment_left _ _⟩
  rw [h1, h4]
  simp only [Except.ok.injEq, Option.some.injEq, ne_eq]
  rw [h3]
  by_cases hp : p ∈ poly
  · simp [hp, hv hp]
  · by_cases hb : OnBoundary poly p
    · simp [hp, hb]
    · cases hq : pointInPolygon p poly <;> simp [hp, hb]

example : polygonContainment Cmp.direct 0 (⟨2, 1⟩ : P2 ℚ) [⟨0, 0⟩, ⟨2, 0⟩, ⟨2, 2⟩, ⟨0, 2⟩] = .ok .border ∧
    pointPolygonDistSq (⟨2, 1⟩ : P2 ℚ) [⟨0, 0⟩, ⟨2, 0⟩, ⟨2, 2⟩, ⟨0, 2⟩] = .ok (some 0) ∧
    pointPolygonDistSq (⟨1, 1⟩ : P2 ℚ) [⟨0, 0⟩, ⟨2, 0⟩, ⟨2, 2⟩, ⟨0, 2⟩] = .ok (some 1) := by decide +kernel

/-- C148 is false for points inside two sides: here the polygon runs through a side twice, and a point with distance zero from the
border is classed as outside. -/
theorem C148_polygon_refuted : ∃ (poly : List (P2 ℚ)) (p : P2 ℚ), pointPolygonDistSq p poly = .ok (some 0) ∧
    polygonContainment Cmp.direct 0 p poly = .ok .exterior :=
  ⟨[⟨0, 0⟩, ⟨2, 0⟩, ⟨2, 2⟩, ⟨2, 0⟩], ⟨2, 1⟩, by decide +kernel⟩

/-- C148 is false on the border: the even-odd test does not hold for a point on a side of a triangle for which the bisecting test
holds, and holds for a point on another side. -/
theorem C148_border_refuted : ∃ (poly : List (P2 ℚ)) (p q : P2 ℚ),
    pointInConvex Cmp.direct 3 p poly = .ok true ∧ pointInPolygon p poly = false ∧ pointPolygonDistSq p poly = .ok (some 0) ∧
    pointInConvex Cmp.direct 3 q poly = .ok true ∧ pointInPolygon q poly = true ∧ pointPolygonDistSq q poly = .ok (some 0) :=
  ⟨[⟨0, 0⟩, ⟨2, 0⟩, ⟨0, 2⟩], ⟨1, 1⟩, ⟨0, 1⟩, by decide +kernel⟩

/-- C148, points of a strictly convex counterclockwise polygon: the bisecting test, the even-odd test, the classification, the
distance from the border and `locate_point` of any node tree of the sides give one answer. -/
theorem C148_convex (poly : List (P2 K)) (hc : StrictlyConvex poly) (hn : 2 < poly.length) {t : NodeTree K}
    (ht : GrownTree Cmp.direct (sides poly) t) (eps : K) (fuel : Nat) (hf : poly.length ≤ fuel) (p : P2 K) :
    (locatePoint Cmp.direct t p = .boundary ∧ pointPolygonDistSq p poly = .ok (some 0) ∧
        pointInConvex Cmp.direct fuel p poly = .ok true ∧
        (polygonContainment Cmp.direct eps p poly = .ok .vertex ∨ polygonContainment Cmp.direct eps p poly = .ok .border)) ∨
    (locatePoint Cmp.direct t p = .inside ∧ pointPolygonDistSq p poly ≠ .ok (some 0) ∧
        pointInConvex Cmp.direct fuel p poly = .ok true ∧ pointInPolygon p poly = true ∧
        polygonContainment Cmp.direct eps p poly = .ok .interior) ∨
    (locatePoint Cmp.direct t p = .outside ∧ pointPolygonDistSq p poly ≠ .ok (some 0) ∧
        pointInConvex Cmp.direct fuel p poly = .ok false ∧ pointInPolygon p poly = false ∧
        polygonContainment Cmp.direct eps p poly = .ok .exterior) := by
  obtain ⟨d, h1, h2⟩ := C21_polygon_distance p poly (by rintro rfl; simp at hn)
  have h3 := minOver_zero h2
  obtain ⟨k1, k2⟩ := C148_polygon_partial eps p poly hn (convex_one_side hn hc)
  have hz : pointPolygonDistSq p poly = .ok (some 0) ↔ OnBoundary poly p := by
    rw [h1, ← h3]; simp
  obtain ⟨r, r1, r2⟩ := C60_convex poly hc hn p fuel hf
  by_cases hb : OnBoundary poly p
  · refine Or.inl ⟨?_, hz.2 hb, ?_, k1.2 (hz.2 hb)⟩
    · exact C83_on_border_partial (fun e he => convex_side_ne hn hc he) ht ((onBorder_sides _ _).2 hb) (onlyOwnLines_convex hn hc hb)
    · rw [r1, r2.2 (inside_boundary hc hb)]
  · have hd : pointPolygonDistSq p poly ≠ .ok (some 0) := mt hz.1 hb
    have l := C83_off_border (leftBorderOf_convex hn hc) ht (p := p) (by rwa [onBorder_sides])
    have e1 := C38_convex poly hc hn p hb
    have e2 := k2 hd
    by_cases hin : InsideAllSides poly p
    · refine Or.inr (Or.inl ⟨l.1 ?_, hd, by rw [r1, r2.2 hin], e1.2 hin, ?_⟩)
      · by_contra h'
        exact hb ((convex_boundary_iff hn hc p).2 ⟨hin, h'⟩)
      · rw [e2, e1.2 hin]; rfl
    · have hf' : pointInPolygon p poly = false := by rw [← Bool.not_eq_true]; exact mt e1.1 hin
      refine Or.inr (Or.inr ⟨l.2 fun h' => hin fun e he => (h' e he).le, hd, ?_, hf', ?_⟩)
      · rw [r1]; congr 1; rw [← Bool.not_eq_true]; exact mt r2.1 hin
      · rw [e2, hf']; rfl

/-- C148, the two kinds of trees: for the sides of a strictly convex polygon, clockwise for the solid leaf tree and
counterclockwise for the node tree, `point_in_solid_space` and `locate_point` give one answer. -/
theorem C148_trees (poly : List (P2 K)) (hc : StrictlyConvex poly) (hn : 2 < poly.length) {t : NodeTree K}
    (ht : GrownTree Cmp.direct (sides poly) t) {mk : P2 K → P2 K → Res (Plane2 K)}
    (hm : ∀ s ∈ sides poly.reverse, ∃ pl, mk s.1 s.2 = .ok pl ∧ NormalForm s.1 s.2 pl.n pl.d)
    {sel : List (BspItem K) → Option Nat} (hsel : sel = autoSelect ∨ sel = scoredSelect Cmp.direct)
    {fuel : Nat} (hf : poly.length < fuel) :
    ∃ u, solidBsp mk Cmp.direct sel fuel (sides poly.reverse) = .ok u ∧ ∀ p,
      (pointInSolid Cmp.direct u p = .onBoundary ↔ locatePoint Cmp.direct t p = .boundary) ∧
      (pointInSolid Cmp.direct u p = .inSolid ↔ locatePoint Cmp.direct t p = .inside) ∧
      (pointInSolid Cmp.direct u p = .inEmpty ↔ locatePoint Cmp.direct t p = .outside) := by
  have hlen : (sides poly.reverse).length = poly.length := by simp [sides]
  have hperm := sides_reverse poly
  have hbo := leftBorderOf_convex hn hc
  obtain ⟨u, h1, h2⟩ := C80_no_two_on_a_line_partial (sides := sides poly.reverse)
    (by intro h; rw [h] at hlen; simp at hlen; omega) (borderOf_swap hperm hbo) (noTwoOnALine_convex hn hc) hm hsel
    (by rw [hlen]; exact hf)
  refine ⟨u, h1, fun p => ?_⟩
  obtain ⟨a1, a2, a3⟩ := h2 p
  rw [a1, a2, a3, onBorder_perm hperm]
  by_cases hb : OnBorder (sides poly) p
  · have l := C83_on_border_partial (fun e he => convex_side_ne hn hc he) ht hb
      (onlyOwnLines_convex hn hc ((onBorder_sides _ _).1 hb))
    simp [l, hb]
  · obtain ⟨l1, l2⟩ := C83_off_border hbo ht hb
    by_cases hin : ∀ e ∈ sides poly, 0 < area2 e.1 e.2 p
    · rw [l1 hin]
      exact ⟨⟨fun h => absurd h hb, nofun⟩, ⟨fun _ => rfl, fun _ => ⟨hb, hin⟩⟩, ⟨fun h => absurd hin h.2, nofun⟩⟩
    · rw [l2 hin]
      exact ⟨⟨fun h => absurd h hb, nofun⟩, ⟨fun h => absurd h.2 hin, nofun⟩, ⟨fun _ => rfl, fun _ => ⟨hb, hin⟩⟩⟩

/-- A triangle has trees of both kinds. -/
example : StrictlyConvex [(⟨0, 0⟩ : P2 ℝ), ⟨1, 0⟩, ⟨0, 1⟩] ∧
    (∃ t, GrownTree Cmp.direct (sides [(⟨0, 0⟩ : P2 ℝ), ⟨1, 0⟩, ⟨0, 1⟩]) t) ∧
    ∀ s ∈ sides [(⟨0, 0⟩ : P2 ℝ), ⟨1, 0⟩, ⟨0, 1⟩].reverse, ∃ pl, makeHyperplane s.1 s.2 = .ok pl ∧ NormalForm s.1 s.2 pl.n pl.d := by
  have hs : StrictlyConvex [(⟨0, 0⟩ : P2 ℝ), ⟨1, 0⟩, ⟨0, 1⟩] := strictlyConvex_triangle (by norm_num [area2])
  refine ⟨hs, ?_, ?_⟩
  · obtain ⟨t, ht⟩ := (C83_total (K := ℝ) firstSelector_selects (sides := sides [(⟨0, 0⟩ : P2 ℝ), ⟨1, 0⟩, ⟨0, 1⟩])
      (fun e he => convex_side_ne (by simp) hs he)).1 (by simp [sides])
    exact ⟨t, .built firstSelector_selects (by simp [sides]) ht⟩
  · intro s h
    refine C80_hyperplane fun h' => ?_
    have := ((sides_reverse [(⟨0, 0⟩ : P2 ℝ), ⟨1, 0⟩, ⟨0, 1⟩]).mem_iff).1 h
    obtain ⟨u, hu, rfl⟩ := List.mem_map.1 this
    exact convex_side_ne (by simp) hs hu h'.symm

end Geometrix
