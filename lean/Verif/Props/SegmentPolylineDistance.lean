import Verif.Lemmas.Distance

/-!
# C52, C53: distance of points of any dimension; closest points of a segment and a polyline or
polygon
-/

set_option linter.unusedSectionVars false

namespace Geometrix

open Spec

variable {K : Type*} [Field K] [LinearOrder K] [IsStrictOrderedRing K]

/-- C52: `point_point_distance_sqrd` is the sum of the squared coordinate differences for points of
one to four dimensions. Missing: higher dimensions, see `C52_dimension_five_refuted`. -/
theorem C52_distance_partial (a b : List K) (h : a.length = b.length) (h0 : a ≠ [])
    (h4 : a.length ≤ 4) :
    distSqN a b = some ((List.zipWith (fun x y => (x - y) ^ 2) a b).sum) := by
  match a, b, h, h0, h4 with
  | [a0], [b0], _, _, _ => simp [distSqN, distSqIndex]; ring
  | [a0, a1], [b0, b1], _, _, _ => simp [distSqN, distSqIndex]; ring
  | [a0, a1, a2], [b0, b1, b2], _, _, _ => simp [distSqN, distSqIndex]; ring
  | [a0, a1, a2, a3], [b0, b1, b2, b3], _, _, _ => simp [distSqN, distSqIndex]; ring
  | _ :: _ :: _ :: _ :: _ :: _, _, _, _, h => simp at h

example : distSqN [(1 : ℚ), 2, 3, 4] [0, 0, 0, 0] = some 30 := by decide +kernel

/-- C52 is false from dimension five on: the last coordinate never matters, so distinct points have
the distance zero, and the coordinate before it counts twice. -/
theorem C52_dimension_five_refuted :
    distSqN [(0 : ℚ), 0, 0, 0, 7] [0, 0, 0, 0, 0] = some 0 ∧
      distSqN [(0 : ℚ), 0, 0, 1, 0] [0, 0, 0, 0, 0] = some 2 := by
  decide +kernel

/-- C53: for every segment and every polyline of at least two points, the call succeeds, the two
points are the ones at the returned parameters of the segment and of the reported edge, their
squared distance is the returned one and is the minimum over the segment and the polyline, and every
earlier edge is farther away. -/
theorem C53_polyline_closest (p1 p2 : P2 K) (poly : List (P2 K)) (h : 2 ≤ poly.length) :
    ∃ r A B, segPolylineClosest Cmp.direct p1 p2 poly = .ok (some r) ∧
      IsEdge poly r.index A B ∧
      (0 ≤ r.pair.s ∧ r.pair.s ≤ 1 ∧ r.pair.c1 = p1 + r.pair.s • (p2 - p1)) ∧
      (0 ≤ r.pair.t ∧ r.pair.t ≤ 1 ∧ r.pair.c2 = A + r.pair.t • (B - A)) ∧
      r.pair.d2 = sqDist r.pair.c1 r.pair.c2 ∧
      IsMinDist (OnSegment p1 p2) (OnPolyline poly) r.pair.d2 ∧
      ∀ j < r.index, ∀ C D, IsEdge poly j C D → ∀ P Q, OnSegment p1 p2 P → OnSegment C D Q →
        r.pair.d2 < sqDist P Q := by
  have hne : openEdgesIdx poly ≠ [] := by
    unfold openEdgesIdx
    simpa using openEdges_ne_nil h
  obtain ⟨x, r, k, h1, h2, h3, h4, h5, h6, h7, h8⟩ := segEdges_min p1 p2
    (fun e : Nat × P2 K × P2 K => e.2.1) (fun e => e.2.2) (openEdgesIdx poly) hne
  obtain ⟨hxk, hedge⟩ := (openEdgesIdx_get _ _ _).mp h2
  obtain ⟨r', q, a1, a2, a3, a4, a5, a6, a7, -⟩ := segSegClosest_spec p1 p2 x.2.1 x.2.2
  rw [h3] at q
  cases q
  refine ⟨⟨x.1, r⟩, x.2.1, x.2.2, ?_, ?_, ⟨a1, a2, a5⟩, ⟨a3, a4, a6⟩, h6, ⟨?_, ?_⟩, ?_⟩
  · simp only [segPolylineClosest, segEdgesClosest, h1]
  · simp only [hxk]; exact hedge
  · exact ⟨(r.c1, r.c2), ⟨h4, k, _, _, hedge, h5⟩, h6.symm⟩
  · rintro ⟨P, Q⟩ ⟨hP, j, A, B, hj, hQ⟩
    exact h7 P hP (j, A, B) (List.mem_iff_getElem?.mpr ⟨j, (openEdgesIdx_get _ _ _).mpr ⟨rfl, hj⟩⟩)
      Q hQ
  · intro j hj C D hCD P Q hP hQ
    simp only [hxk] at hj
    exact h8 j hj (j, C, D) ((openEdgesIdx_get _ _ _).mpr ⟨rfl, hCD⟩) P hP Q hQ

example : (match segPolylineClosest Cmp.direct (⟨0, 0⟩ : P2 ℚ) ⟨1, 0⟩ [⟨0, 5⟩, ⟨3, 3⟩, ⟨0, 2⟩] with
      | .ok (some r) => r.index == 1 && r.pair.d2 == 4 && r.pair.t == 1
      | _ => false) = true := by decide +kernel

/-- C53: the same for a polygon, whose closing edge is examined first. -/
theorem C53_polygon_closest (p1 p2 : P2 K) (poly : List (P2 K)) (h : poly ≠ []) :
    ∃ r A B, segPolygonClosest Cmp.direct p1 p2 poly = .ok (some r) ∧
      IsPolygonEdge poly r.index A B ∧
      (0 ≤ r.pair.s ∧ r.pair.s ≤ 1 ∧ r.pair.c1 = p1 + r.pair.s • (p2 - p1)) ∧
      (0 ≤ r.pair.t ∧ r.pair.t ≤ 1 ∧ r.pair.c2 = A + r.pair.t • (B - A)) ∧
      r.pair.d2 = sqDist r.pair.c1 r.pair.c2 ∧
      IsMinDist (OnSegment p1 p2) (OnBoundary poly) r.pair.d2 := by
  have hne : closedEdgesIdx poly ≠ [] := by
    unfold closedEdgesIdx
    simpa using closedEdges_ne_nil h
  obtain ⟨x, r, k, h1, h2, h3, h4, h5, h6, h7, h8⟩ := segEdges_min p1 p2
    (fun e : Nat × P2 K × P2 K => e.2.1) (fun e => e.2.2) (closedEdgesIdx poly) hne
  obtain ⟨-, hxk, hedge⟩ := (closedEdgesIdx_get _ _ _).mp h2
  obtain ⟨r', q, a1, a2, a3, a4, a5, a6, a7, -⟩ := segSegClosest_spec p1 p2 x.2.1 x.2.2
  rw [h3] at q
  cases q
  refine ⟨⟨x.1, r⟩, x.2.1, x.2.2, ?_, ?_, ⟨a1, a2, a5⟩, ⟨a3, a4, a6⟩, h6, ⟨?_, ?_⟩⟩
  · simp only [segPolygonClosest, segEdgesClosest, h1]
  · simp only [hxk]; exact hedge
  · exact ⟨(r.c1, r.c2), ⟨h4, _, _, _, hedge, h5⟩, h6.symm⟩
  · rintro ⟨P, Q⟩ ⟨hP, hQ⟩
    obtain ⟨⟨A, B⟩, he, hQ⟩ := (onBoundary_iff _ _).mp hQ
    obtain ⟨m, hm⟩ := List.mem_iff_getElem?.mp he
    refine h7 P hP (closedStart poly.length m, A, B) (List.mem_iff_getElem?.mpr ⟨m, ?_⟩) Q hQ
    have hlt := (List.getElem?_eq_some_iff.mp hm).1
    unfold closedEdgesIdx
    simp [hm, closedStart]

example : (match segPolygonClosest Cmp.direct (⟨0, 0⟩ : P2 ℚ) ⟨1, 0⟩ [⟨0, 2⟩, ⟨3, 3⟩, ⟨2, 1⟩] with
      | .ok (some r) => r.index == 2 && r.pair.d2 == 9 / 5
      | _ => false) = true := by decide +kernel

/-- C53: the distance functions return the same number. -/
theorem C53_distance (p1 p2 : P2 K) (poly : List (P2 K)) :
    (2 ≤ poly.length → ∃ d, segPolylineDistSq Cmp.direct p1 p2 poly = .ok (some d) ∧
      IsMinDist (OnSegment p1 p2) (OnPolyline poly) d) ∧
    (poly ≠ [] → ∃ d, segPolygonDistSq Cmp.direct p1 p2 poly = .ok (some d) ∧
      IsMinDist (OnSegment p1 p2) (OnBoundary poly) d) := by
  constructor
  · intro h
    obtain ⟨d, h1, h2⟩ := segEdgesDist_min p1 p2 (openEdges poly) (openEdges_ne_nil h)
    refine ⟨d, h1, ?_⟩
    simpa only [← onPolyline_iff] using h2
  · intro h
    obtain ⟨d, h1, h2⟩ := segEdgesDist_min p1 p2 (closedEdges poly) (closedEdges_ne_nil h)
    refine ⟨d, h1, ?_⟩
    simpa only [← onBoundary_iff] using h2

end Geometrix
