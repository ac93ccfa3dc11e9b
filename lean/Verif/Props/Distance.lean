import Verif.Lemmas.Distance

/-!
# C17, C18, C21: closest points and distances of points, segments, polylines and polygons
-/

set_option linter.unusedSectionVars false

namespace Geometrix

open Spec

variable {K : Type*} [Field K] [LinearOrder K] [IsStrictOrderedRing K]

/-- C17: the overload for a segment returns a point of the closed segment, and no point of the
segment is closer; degenerate segments included. -/
theorem C17_segment (p : P2 K) (seg : Seg K) :
    ∃ c, pointSegClosest p seg = .ok c ∧ IsClosest (OnSegment seg.s seg.e) p c :=
  pointSegClosest_spec p seg

/-- C17: so does the overload for two distinct points. Missing: equal points, see
`C17_two_points_refuted`. -/
theorem C17_two_points_partial (p A B : P2 K) (h : A ≠ B) :
    ∃ c, pointSegClosestPts p A B = .ok c ∧ IsClosest (OnSegment A B) p c := by
  rw [pointSegClosestPts_eq p A B h]
  exact pointSegClosest_spec p ⟨A, B⟩

example : (⟨0, 0⟩ : P2 ℚ) ≠ ⟨2, 1⟩ ∧
    (match pointSegClosestPts (⟨0, 5⟩ : P2 ℚ) ⟨0, 0⟩ ⟨2, 1⟩ with
      | .ok c => c == ⟨2, 1⟩
      | _ => false) = true := by decide +kernel

/-- C17 is false for the overload for two points when they are equal: it divides by zero, for every
point. -/
theorem C17_two_points_refuted (p A : P2 K) : pointSegClosestPts p A A = .error .divByZero := by
  have h : dot (A - A) (A - A) = 0 := by simp [dot]
  simp [pointSegClosestPts, cdiv, h]

/-- C17: the overload with a parameter returns the same point; the parameter is that of the
projection to the line and is not clamped, so it is the parameter of the returned point exactly when
it is between 0 and 1. -/
theorem C17_param_partial (p A B : P2 K) (h : A ≠ B) :
    ∃ c t, pointSegClosestParam p A B = .ok (c, t) ∧ IsClosest (OnSegment A B) p c ∧
      IsClosest (OnLine A B) p (A + t • (B - A)) ∧
      (c = A + t • (B - A) ↔ 0 ≤ t ∧ t ≤ 1) := by
  obtain ⟨c, hc, hcl⟩ := C17_two_points_partial p A B h
  have hw : B - A ≠ 0 := sub_ne_zero_P2 h
  have hpos : 0 < dot (B - A) (B - A) := normSq_pos hw
  refine ⟨c, dot (p - A) (B - A) / dot (B - A) (B - A), ?_, hcl, ⟨⟨_, rfl⟩, ?_⟩, ?_⟩
  · unfold pointSegClosestPts at hc
    unfold pointSegClosestParam
    simp only [cdiv_ok hpos.ne'] at hc ⊢
    split_ifs at hc ⊢ <;> cases hc <;> rfl
  · rintro Q ⟨u, rfl⟩
    set t := dot (p - A) (B - A) / dot (B - A) (B - A) with ht
    have h3 : t * dot (B - A) (B - A) = dot (p - A) (B - A) := div_mul_cancel₀ _ hpos.ne'
    have hid : sqDist p (A + u • (B - A)) = sqDist p (A + t • (B - A)) +
        2 * ((u - t) * (t * dot (B - A) (B - A) - dot (p - A) (B - A))) +
        (u - t) ^ 2 * dot (B - A) (B - A) := by
      simp only [sqDist, dot, P2.add_x, P2.add_y, P2.sub_x, P2.sub_y, P2.smul_x, P2.smul_y]
      ring
    rw [hid, h3, sub_self, mul_zero, mul_zero, add_zero]
    have : 0 ≤ (u - t) ^ 2 * dot (B - A) (B - A) := mul_nonneg (sq_nonneg _) hpos.le
    linarith
  · constructor
    · intro he
      obtain ⟨⟨u, h0, h1, hu⟩, -⟩ := hcl
      rw [he] at hu
      rw [P2.ext_iff] at hu
      simp only [P2.add_x, P2.add_y, P2.smul_x, P2.smul_y, add_right_inj] at hu
      have : dot (p - A) (B - A) / dot (B - A) (B - A) = u := by
        rcases (P2.ne_zero_iff _).mp hw with hx | hy
        · exact mul_right_cancel₀ hx hu.1
        · exact mul_right_cancel₀ hy hu.2
      rw [this]; exact ⟨h0, h1⟩
    · rintro ⟨h0, h1⟩
      unfold pointSegClosestPts at hc
      simp only [cdiv_ok hpos.ne'] at hc
      split_ifs at hc with h2 h3
      · cases hc
        rw [le_antisymm h2 h0]; ext <;> simp
      · cases hc
        rw [le_antisymm h1 h3]; ext <;> simp
      · cases hc; rfl

/-- C17: the squared distance is the minimum over the segment, degenerate segments included. -/
theorem C17_distance (p A B : P2 K) :
    ∃ d, pointSegDistSq p A B = .ok d ∧ IsMinOver (OnSegment A B) (sqDist p) d :=
  pointSegDistSq_spec p A B

/-- C17: hence it is zero exactly on the segment. -/
theorem C17_distance_zero (p A B : P2 K) : pointSegDistSq p A B = .ok 0 ↔ OnSegment A B p := by
  obtain ⟨d, hd, ⟨c, hc, hcd⟩, hmin⟩ := pointSegDistSq_spec p A B
  rw [hd]
  simp only [Except.ok.injEq]
  have hz : ∀ Q : P2 K, sqDist p Q = 0 ↔ p = Q := by
    intro Q; rw [← dot_self_sub, dot_self_eq_zero, sub_eq_zero_P2]; exact eq_comm
  constructor
  · rintro rfl
    rw [(hz c).mp hcd]; exact hc
  · intro h
    have := hmin p h
    rw [(hz p).mpr rfl] at this
    refine le_antisymm this ?_
    rw [← hcd]; exact sqDist_nonneg _ _

example : (match pointSegDistSq (⟨0, 5⟩ : P2 ℚ) ⟨0, 0⟩ ⟨2, 2⟩ with
      | .ok c => c == 13
      | _ => false) = true := by decide +kernel

/-- C18: for every pair of segments, degenerate and parallel ones included, the call succeeds, the
points are the ones at the returned parameters, they lie on the segments, the returned number is
their squared distance, and it is the minimum over all pairs of points of the two segments. -/
theorem C18_closest (p1 q1 p2 q2 : P2 K) :
    ∃ r, segSegClosest Cmp.direct p1 q1 p2 q2 = .ok r ∧
      (0 ≤ r.s ∧ r.s ≤ 1 ∧ r.c1 = p1 + r.s • (q1 - p1)) ∧
      (0 ≤ r.t ∧ r.t ≤ 1 ∧ r.c2 = p2 + r.t • (q2 - p2)) ∧
      r.d2 = sqDist r.c1 r.c2 ∧
      IsMinDist (OnSegment p1 q1) (OnSegment p2 q2) r.d2 := by
  obtain ⟨r, h, a1, a2, a3, a4, a5, a6, a7, a8⟩ := segSegClosest_spec p1 q1 p2 q2
  refine ⟨r, h, ⟨a1, a2, a5⟩, ⟨a3, a4, a6⟩, a7, ⟨⟨(r.c1, r.c2), ⟨⟨_, a1, a2, a5⟩, _, a3, a4, a6⟩,
    a7.symm⟩, ?_⟩⟩
  rintro ⟨P, Q⟩ ⟨hP, hQ⟩
  exact a8 P Q hP hQ

example : (match segSegClosest Cmp.direct (⟨0, 0⟩ : P2 ℚ) ⟨4, 0⟩ ⟨6, 1⟩ ⟨2, 3⟩ with
      | .ok r => r.d2 == (16 / 5) && r.s == 1
      | _ => false) = true := by decide +kernel

/-- C18: the same for `segment_segment_distance_sqrd`. -/
theorem C18_distance (p1 q1 p2 q2 : P2 K) :
    ∃ d, segSegDistSq Cmp.direct p1 q1 p2 q2 = .ok d ∧
      IsMinDist (OnSegment p1 q1) (OnSegment p2 q2) d := by
  obtain ⟨r, h, -, -, -, h2⟩ := C18_closest p1 q1 p2 q2
  exact ⟨r.d2, by simp [segSegDistSq, h], h2⟩

/-- C18: hence the distance is the same whichever segment comes first. -/
theorem C18_symmetric (p1 q1 p2 q2 : P2 K) :
    segSegDistSq Cmp.direct p1 q1 p2 q2 = segSegDistSq Cmp.direct p2 q2 p1 q1 := by
  obtain ⟨d, h, ⟨⟨⟨P, Q⟩, ⟨hP, hQ⟩, hd⟩, hm⟩⟩ := C18_distance p1 q1 p2 q2
  obtain ⟨d', h', ⟨⟨⟨P', Q'⟩, ⟨hP', hQ'⟩, hd'⟩, hm'⟩⟩ := C18_distance p2 q2 p1 q1
  rw [h, h']
  congr 1
  have k1 := hm (Q', P') ⟨hQ', hP'⟩
  have k2 := hm' (Q, P) ⟨hQ, hP⟩
  simp only at hd hd' k1 k2
  rw [sqDist_comm] at k1 k2
  rw [hd'] at k1
  rw [hd] at k2
  exact le_antisymm k1 k2

/-- C18: and it is zero exactly when the segments share a point. -/
theorem C18_zero (p1 q1 p2 q2 : P2 K) :
    segSegDistSq Cmp.direct p1 q1 p2 q2 = .ok 0 ↔
      ∃ P, OnSegment p1 q1 P ∧ OnSegment p2 q2 P := by
  obtain ⟨d, h, ⟨⟨⟨P, Q⟩, ⟨hP, hQ⟩, hd⟩, hm⟩⟩ := C18_distance p1 q1 p2 q2
  have hz : ∀ P Q : P2 K, sqDist P Q = 0 ↔ P = Q := by
    intro P Q; rw [← dot_self_sub, dot_self_eq_zero, sub_eq_zero_P2]; exact eq_comm
  rw [h]
  simp only [Except.ok.injEq] at hd hm ⊢
  constructor
  · rintro rfl
    rw [hz] at hd
    exact ⟨P, hP, hd ▸ hQ⟩
  · rintro ⟨R, h1, h2⟩
    have := hm (R, R) ⟨h1, h2⟩
    simp only [(hz R R).mpr rfl] at this
    refine le_antisymm this ?_
    rw [← hd]; exact sqDist_nonneg _ _

/-- C21: the polyline distance is the minimum over all its points. -/
theorem C21_polyline_distance (p : P2 K) (poly : List (P2 K)) (h : 2 ≤ poly.length) :
    ∃ d, pointPolylineDistSq p poly = .ok (some d) ∧ IsMinOver (OnPolyline poly) (sqDist p) d := by
  obtain ⟨e, he, d, h1, h2, h3⟩ := edges_min p (openEdges poly) (openEdges_ne_nil h)
  refine ⟨d, by simp [pointPolylineDistSq, minLoopValue, h1], ?_⟩
  simpa only [← onPolyline_iff] using h3

example : (match pointPolylineDistSq (⟨0, 2⟩ : P2 ℚ) [⟨3, 0⟩, ⟨3, 3⟩, ⟨0, 3⟩] with
      | .ok (some d) => d == 1
      | _ => false) = true := by decide +kernel

/-- C21: with fewer than two points there is no edge and the result is infinite. -/
theorem C21_polyline_short (p : P2 K) (poly : List (P2 K)) (h : poly.length < 2) :
    pointPolylineDistSq p poly = .ok none := by
  match poly, h with
  | [], _ => rfl
  | [a], _ => rfl

/-- C21: the polygon distance is the minimum over all points of the boundary, closing edge
included. -/
theorem C21_polygon_distance (p : P2 K) (poly : List (P2 K)) (h : poly ≠ []) :
    ∃ d, pointPolygonDistSq p poly = .ok (some d) ∧ IsMinOver (OnBoundary poly) (sqDist p) d := by
  obtain ⟨e, he, d, h1, h2, h3⟩ := edges_min p (closedEdges poly) (closedEdges_ne_nil h)
  refine ⟨d, by simp [pointPolygonDistSq, minLoopValue, h1], ?_⟩
  simpa only [← onBoundary_iff] using h3

example : (match pointPolygonDistSq (⟨0, 0⟩ : P2 ℚ) [⟨2, 0⟩, ⟨2, 2⟩, ⟨0, 2⟩] with
      | .ok (some d) => d == 2
      | _ => false) = true := by decide +kernel

/-- C21: the closest point of a polyline whose first edge is not degenerate; other edges may be.
Missing: a degenerate first edge, see `C21_closest_degenerate_refuted`. -/
theorem C21_polyline_closest_partial (p : P2 K) (poly : List (P2 K)) (h : 2 ≤ poly.length)
    (hdeg : poly[0]? ≠ poly[1]?) :
    ∃ c, pointPolylineClosest p poly = .ok c ∧ IsClosest (OnPolyline poly) p c := by
  obtain ⟨e, he, d, c, h1, h2, h3⟩ := edges_closest p (openEdges poly) (openEdges_ne_nil h)
    (by rintro k ⟨A, B⟩ hk hAB
        simp only at hAB
        subst hAB
        rw [openEdges_get] at hk
        cases k with
        | zero => exact absurd (hk.1.trans hk.2.symm) hdeg
        | succ k =>
          have hlt := (List.getElem?_eq_some_iff.mp hk.1).1
          refine ⟨k, by omega, (poly[k], A), ?_, 1, zero_le_one, le_rfl, ?_⟩
          · rw [openEdges_get]
            exact ⟨List.getElem?_eq_getElem _, hk.1⟩
          · ext <;> simp)
  refine ⟨c, by simp [pointPolylineClosest, h1, h2], ?_⟩
  unfold IsClosest at h3 ⊢
  simpa only [← onPolyline_iff] using h3

example : (match pointPolylineClosest (⟨0, 2⟩ : P2 ℚ) [⟨3, 0⟩, ⟨3, 3⟩, ⟨3, 3⟩, ⟨1, 3⟩] with
      | .ok c => c == ⟨1, 3⟩
      | _ => false) = true := by decide +kernel

/-- C21: the closest point of a polygon whose last vertex does not repeat the first one. -/
theorem C21_polygon_closest_partial (p : P2 K) (poly : List (P2 K)) (h : poly ≠ [])
    (hdeg : poly[0]? ≠ poly[poly.length - 1]?) :
    ∃ c, pointPolygonClosest p poly = .ok c ∧ IsClosest (OnBoundary poly) p c := by
  obtain ⟨e, he, d, c, h1, h2, h3⟩ := edges_closest p (closedEdges poly) (closedEdges_ne_nil h)
    (by rintro k ⟨A, B⟩ hk hAB
        simp only at hAB
        subst hAB
        rw [closedEdges_get] at hk
        unfold closedStart at hk
        cases k with
        | zero => exact absurd (hk.2.trans hk.1.symm) hdeg
        | succ k =>
          simp only [Nat.add_eq_zero_iff, one_ne_zero, and_false, if_false,
            Nat.add_sub_cancel] at hk
          have hlt := (List.getElem?_eq_some_iff.mp hk.1).1
          have hs : closedStart poly.length k < poly.length := by
            unfold closedStart; split_ifs <;> omega
          refine ⟨k, by omega, (poly[closedStart poly.length k], A), ?_, 1, zero_le_one, le_rfl, ?_⟩
          · rw [closedEdges_get]
            exact ⟨List.getElem?_eq_getElem _, hk.1⟩
          · ext <;> simp)
  refine ⟨c, by simp [pointPolygonClosest, h1, h2], ?_⟩
  unfold IsClosest at h3 ⊢
  simpa only [← onBoundary_iff] using h3

example : [(⟨2, 0⟩ : P2 ℚ), ⟨2, 2⟩, ⟨0, 2⟩][0]? ≠ [(⟨2, 0⟩ : P2 ℚ), ⟨2, 2⟩, ⟨0, 2⟩][2]? ∧
    (match pointPolygonClosest (⟨0, 0⟩ : P2 ℚ) [⟨2, 0⟩, ⟨2, 2⟩, ⟨0, 2⟩] with
      | .ok c => c == ⟨1, 1⟩
      | _ => false) = true := by decide +kernel

/-- C21: the closest point of a collection of polygons without degenerate edges is the closest one
over all their boundaries; an empty collection breaks the assertion. -/
theorem C21_polygons_closest_partial (p : P2 K) (polys : List (List (P2 K)))
    (hne : ∃ poly ∈ polys, poly ≠ [])
    (hdeg : ∀ poly ∈ polys, ∀ i A B, IsPolygonEdge poly i A B → A ≠ B) :
    ∃ c, pointPolygonsClosest p polys = .ok c ∧
      IsClosest (fun Q => ∃ poly ∈ polys, OnBoundary poly Q) p c := by
  have hset : ∀ Q : P2 K, (∃ e ∈ polys.flatMap closedEdges, OnSegment e.1 e.2 Q) ↔
      ∃ poly ∈ polys, OnBoundary poly Q := by
    intro Q
    simp only [onBoundary_iff, List.mem_flatMap]
    constructor
    · rintro ⟨e, ⟨poly, h1, h2⟩, h3⟩; exact ⟨poly, h1, e, h2, h3⟩
    · rintro ⟨poly, h1, e, h2, h3⟩; exact ⟨e, ⟨poly, h1, h2⟩, h3⟩
  obtain ⟨e, he, d, c, h1, h2, h3⟩ := edges_closest p (polys.flatMap closedEdges)
    (by obtain ⟨poly, h1, h2⟩ := hne
        obtain ⟨e, he⟩ := List.exists_mem_of_ne_nil _ (closedEdges_ne_nil h2)
        exact List.ne_nil_of_mem (List.mem_flatMap.mpr ⟨poly, h1, he⟩))
    (by rintro k ⟨A, B⟩ hk hAB'
        have hAB := List.mem_iff_getElem?.mpr ⟨k, hk⟩
        obtain ⟨poly, h1, h2⟩ := List.mem_flatMap.mp hAB
        obtain ⟨i, hi⟩ := (mem_closedEdges _ _ _).mp h2
        exact absurd hAB' (hdeg poly h1 i A B hi))
  refine ⟨c, by simp [pointPolygonsClosest, h1, h2], ?_⟩
  unfold IsClosest at h3 ⊢
  simpa only [hset] using h3

example : (match pointPolygonsClosest (⟨5, 1⟩ : P2 ℚ)
      [[⟨0, 0⟩, ⟨1, 0⟩, ⟨0, 1⟩], [⟨4, 0⟩, ⟨4, 3⟩, ⟨2, 1⟩]] with
      | .ok c => c == ⟨4, 1⟩
      | _ => false) = true := by decide +kernel

/-- C21 is false when the first edge is degenerate: the closest point of this polyline to `(-1, 0)`
is its first vertex, but the call divides by zero; so it does for a polygon given with its first
vertex repeated at the end. -/
theorem C21_closest_degenerate_refuted :
    (match pointPolylineClosest (⟨-1, 0⟩ : P2 ℚ) [⟨0, 0⟩, ⟨0, 0⟩, ⟨1, 0⟩] with
      | .error .divByZero => true
      | _ => false) = true ∧
    (match pointPolygonClosest (⟨-1, 0⟩ : P2 ℚ) [⟨0, 0⟩, ⟨2, 0⟩, ⟨2, 2⟩, ⟨0, 0⟩] with
      | .error .divByZero => true
      | _ => false) = true := by
  decide +kernel

end Geometrix
