import Verif.Lemmas.PolylineDistance

/-!
# C22, C23, C54: distance and closest points of two polylines or polygons
-/

set_option linter.unusedSectionVars false

namespace Geometrix

open Spec

variable {K : Type*} [Field K] [LinearOrder K] [IsStrictOrderedRing K]

/-- C22: for every two polylines of at least two points and every priority queue, the call returns
the minimum squared distance of a point of the one and a point of the other polyline. -/
theorem C22_distance {pop : List (WorkItem K) → Option (WorkItem K × List (WorkItem K))}
    (hpop : IsPriorityPop (fun w => w.d2) pop) (p1 p2 : List (P2 K)) (h1 : 2 ≤ p1.length)
    (h2 : 2 ≤ p2.length) :
    ∃ d, polylineDistSq pop Cmp.direct p1 p2 = .ok (some d) ∧
      IsMinDist (OnPolyline p1) (OnPolyline p2) d := by
  unfold polylineDistSq
  by_cases hs : p1.length < 6 ∨ p2.length < 6
  · rw [if_pos hs]
    exact polylineDistBrute_spec p1 p2 h1 h2
  rw [if_neg hs]
  push Not at hs
  obtain ⟨A, B, m, out, hA, hB, e, hmin, hor⟩ := search_spec hpop (key := id)
    (Good := fun d => ∃ P Q, OnPolyline p1 P ∧ OnPolyline p2 Q ∧ sqDist P Q = d) p1 p2 hs.1 hs.2
    (fun r1 r2 k1 k2 k3 k4 => subDistBrute_spec p1 p2 r1 r2 k1 k2 k3 k4)
  refine ⟨m, by rw [e], ?_, fun PQ hPQ => hmin _ _ hPQ.1 hPQ.2⟩
  rcases hor with ⟨rfl, -⟩ | ⟨b, -, ⟨P, Q, hP, hQ, hd⟩, rfl, -⟩
  · refine ⟨(A, B), ⟨⟨0, A, p1[1], ⟨hA, List.getElem?_eq_getElem _⟩, 0, le_rfl, zero_le_one, ?_⟩,
      ⟨0, B, p2[1], ⟨hB, List.getElem?_eq_getElem _⟩, 0, le_rfl, zero_le_one, ?_⟩⟩, rfl⟩ <;>
      ext <;> simp
  · exact ⟨(P, Q), ⟨hP, hQ⟩, hd⟩

example : IsPriorityPop (fun w : WorkItem ℚ => w.d2) popFirstLeast := isPriorityPop_popFirstLeast

example : (match polylineDistSq popFirstLeast Cmp.direct
      [(⟨0, 0⟩ : P2 ℚ), ⟨1, 1⟩, ⟨2, 0⟩, ⟨3, 1⟩, ⟨4, 0⟩, ⟨5, 1⟩, ⟨6, 0⟩]
      [⟨9, 9⟩, ⟨1, 5⟩, ⟨2, 4⟩, ⟨3, 5⟩, ⟨4, 6⟩, ⟨5, 2⟩, ⟨6, 7⟩] with
      | .ok (some d) => d == 1
      | _ => false) = true := by decide +kernel

/-- C22: hence the search and the brute force loops agree. -/
theorem C22_equals_brute {pop : List (WorkItem K) → Option (WorkItem K × List (WorkItem K))}
    (hpop : IsPriorityPop (fun w => w.d2) pop) (p1 p2 : List (P2 K)) (h1 : 2 ≤ p1.length)
    (h2 : 2 ≤ p2.length) :
    polylineDistSq pop Cmp.direct p1 p2 = polylineDistBrute Cmp.direct p1 p2 := by
  obtain ⟨d, e, ⟨PQ, hPQ, hd⟩, hm⟩ := C22_distance hpop p1 p2 h1 h2
  obtain ⟨d', e', ⟨PQ', hPQ', hd'⟩, hm'⟩ := polylineDistBrute_spec p1 p2 h1 h2
  rw [e, e']
  congr 2
  exact le_antisymm (hd' ▸ hm PQ' hPQ') (hd ▸ hm' PQ hPQ)

/-- C23: for polygons of which one has fewer than six vertices, the call returns the minimum squared
distance of the boundaries. Missing: two polygons of six or more vertices each, see
`C23_closing_edge_refuted` and `C23_large_partial`. -/
theorem C23_small_partial
    (pop : List (WorkItem K) → Option (WorkItem K × List (WorkItem K))) (p1 p2 : List (P2 K))
    (h1 : p1 ≠ []) (h2 : p2 ≠ []) (hs : p1.length < 6 ∨ p2.length < 6) :
    ∃ d, polygonDistSq pop Cmp.direct p1 p2 = .ok (some d) ∧
      IsMinDist (OnBoundary p1) (OnBoundary p2) d := by
  unfold polygonDistSq
  rw [if_pos hs]
  exact polygonDistBrute_spec p1 p2 h1 h2

example : (match polygonDistSq popFirstLeast Cmp.direct
      [(⟨0, 0⟩ : P2 ℚ), ⟨1, 0⟩, ⟨0, 1⟩] [⟨9, 9⟩, ⟨1, 5⟩, ⟨2, 4⟩, ⟨3, 5⟩, ⟨4, 6⟩, ⟨5, 2⟩] with
      | .ok (some d) => d == 13
      | _ => false) = true := by decide +kernel

/-- C23: for larger polygons the call returns the minimum over all edges but the closing ones. -/
theorem C23_large_partial {pop : List (WorkItem K) → Option (WorkItem K × List (WorkItem K))}
    (hpop : IsPriorityPop (fun w => w.d2) pop) (p1 p2 : List (P2 K)) (h1 : 6 ≤ p1.length)
    (h2 : 6 ≤ p2.length) :
    ∃ d, polygonDistSq pop Cmp.direct p1 p2 = .ok (some d) ∧
      IsMinDist (OnPolyline p1) (OnPolyline p2) d := by
  have := C22_distance hpop p1 p2 (by omega) (by omega)
  unfold polylineDistSq at this
  unfold polygonDistSq
  rw [if_neg (by omega)] at this ⊢
  exact this

/-- C23 is false for two polygons of six vertices: their closing edges touch, on the line `x = 0`,
but the result is the distance 1 of other edges. -/
theorem C23_closing_edge_refuted :
    let p1 : List (P2 ℚ) := [⟨0, 0⟩, ⟨-4, 0⟩, ⟨-4, 1⟩, ⟨-4, 2⟩, ⟨-4, 3⟩, ⟨0, 3⟩]
    let p2 : List (P2 ℚ) := [⟨0, 1⟩, ⟨4, 1⟩, ⟨4, 3 / 2⟩, ⟨4, 7 / 4⟩, ⟨4, 15 / 8⟩, ⟨0, 2⟩]
    (∃ P, OnBoundary p1 P ∧ OnBoundary p2 P) ∧
      (match polygonDistSq popFirstLeast Cmp.direct p1 p2 with
        | .ok (some d) => d == 1
        | _ => false) = true := by
  refine ⟨⟨⟨0, 1⟩, ⟨5, ⟨0, 3⟩, ⟨0, 0⟩, ⟨rfl, rfl⟩, 2 / 3, by decide +kernel, by decide +kernel,
    by decide +kernel⟩, ⟨0, ⟨0, 1⟩, ⟨4, 1⟩, ⟨rfl, rfl⟩, 0, by decide +kernel, by decide +kernel,
    by decide +kernel⟩⟩, by decide +kernel⟩

/-- C54: if one of the polylines has fewer than six points, the reported edges, parameters and points
belong together and attain the returned squared distance, which is the minimum. -/
theorem C54_small {pop : List (WorkItem K) → Option (WorkItem K × List (WorkItem K))}
    (p1 p2 : List (P2 K)) (h1 : 2 ≤ p1.length) (h2 : 2 ≤ p2.length)
    (hs : p1.length < 6 ∨ p2.length < 6) :
    ∃ r, polylineClosest pop Cmp.direct p1 p2 = .ok (some r.pair.d2, some r) ∧
      IsClosestReport (IsEdge p1) (IsEdge p2) r ∧
      IsMinDist (OnPolyline p1) (OnPolyline p2) r.pair.d2 := by
  obtain ⟨r, e, hgood, hmin⟩ := polylineClosestBrute_spec p1 p2 h1 h2
  refine ⟨r, ?_, hgood, isMinDist_of_report hgood hmin⟩
  simp [polylineClosest, if_pos hs, e]

/-- C54: with six points or more on both sides, the returned number is the minimum; the output
arguments are right if the minimum is less than the distance of the two first points. Missing: the
other case, in which the output arguments are not written, see `C54_outputs_refuted`. -/
theorem C54_large_partial {pop : List (WorkItem K) → Option (WorkItem K × List (WorkItem K))}
    (hpop : IsPriorityPop (fun w => w.d2) pop) (p1 p2 : List (P2 K)) (h1 : 6 ≤ p1.length)
    (h2 : 6 ≤ p2.length) :
    ∃ A B d out, p1[0]? = some A ∧ p2[0]? = some B ∧
      polylineClosest pop Cmp.direct p1 p2 = .ok (some d, out) ∧
      IsMinDist (OnPolyline p1) (OnPolyline p2) d ∧
      (d < sqDist A B → ∃ r, out = some r ∧ r.pair.d2 = d ∧
        IsClosestReport (IsEdge p1) (IsEdge p2) r) ∧
      (d = sqDist A B → out = none) := by
  obtain ⟨A, B, m, out, hA, hB, e, hmin, hor⟩ := searchClosest_spec hpop p1 p2 h1 h2
  refine ⟨A, B, m, out, hA, hB, ?_, ⟨?_, fun PQ hPQ => hmin _ _ hPQ.1 hPQ.2⟩, ?_, ?_⟩
  · simp only [polylineClosest, if_neg (by omega : ¬(p1.length < 6 ∨ p2.length < 6)), e]
  · rcases hor with ⟨rfl, -⟩ | ⟨b, -, hgood, rfl, -⟩
    · exact ⟨(A, B), ⟨onPolyline_first hA (by omega), onPolyline_first hB (by omega)⟩, rfl⟩
    · obtain ⟨P, Q, hP, hQ, hd⟩ := report_points hgood
      exact ⟨(P, Q), ⟨hP, hQ⟩, hd⟩
  · intro hlt
    rcases hor with ⟨rfl, -⟩ | ⟨b, hb, hgood, hk, -⟩
    · exact absurd hlt (lt_irrefl _)
    · exact ⟨b, hb, hk, hgood⟩
  · intro heq
    rcases hor with ⟨-, h⟩ | ⟨b, -, -, -, hlt⟩
    · exact h
    · exact absurd heq hlt.ne

example : (match polylineClosest popFirstLeast Cmp.direct
      [(⟨0, 0⟩ : P2 ℚ), ⟨1, 1⟩, ⟨2, 0⟩, ⟨3, 1⟩, ⟨4, 0⟩, ⟨5, 1⟩, ⟨6, 0⟩]
      [⟨9, 9⟩, ⟨1, 5⟩, ⟨2, 4⟩, ⟨3, 5⟩, ⟨4, 6⟩, ⟨5, 2⟩, ⟨6, 7⟩] with
      | .ok (some d, some r) => d == 1 && r.i1 == 4 && r.i2 == 4 && r.pair.c1 == ⟨5, 1⟩
      | _ => false) = true := by decide +kernel

/-- C54 is false for these polylines of six points: the distance is right, but no output argument is
written. -/
theorem C54_outputs_refuted :
    (match polylineClosest popFirstLeast Cmp.direct
      [(⟨0, 0⟩ : P2 ℚ), ⟨0, 1⟩, ⟨0, 2⟩, ⟨0, 3⟩, ⟨0, 4⟩, ⟨0, 5⟩]
      [⟨3, 0⟩, ⟨4, 1⟩, ⟨4, 2⟩, ⟨4, 3⟩, ⟨4, 4⟩, ⟨4, 5⟩] with
      | .ok (some d, none) => d == 9
      | _ => false) = true := by decide +kernel

/-- C54: polygons, one of them with fewer than six vertices. Missing: larger polygons, which are
treated like polylines, without their closing edges; see `C54_polygon_refuted`. -/
theorem C54_polygon_partial {pop : List (WorkItem K) → Option (WorkItem K × List (WorkItem K))}
    (p1 p2 : List (P2 K)) (h1 : p1 ≠ []) (h2 : p2 ≠ [])
    (hs : p1.length < 6 ∨ p2.length < 6) :
    ∃ r, polygonClosest pop Cmp.direct p1 p2 = .ok (some r.pair.d2, some r) ∧
      IsClosestReport (IsPolygonEdge p1) (IsPolygonEdge p2) r ∧
      IsMinDist (OnBoundary p1) (OnBoundary p2) r.pair.d2 := by
  obtain ⟨r, e, hgood, hmin⟩ := polygonClosestBrute_spec p1 p2 h1 h2
  refine ⟨r, ?_, hgood, isMinDist_of_report hgood hmin⟩
  simp [polygonClosest, if_pos hs, e]

/-- C54 is false for the polygons of `C23_closing_edge_refuted`, which touch. -/
theorem C54_polygon_refuted :
    let p1 : List (P2 ℚ) := [⟨0, 0⟩, ⟨-4, 0⟩, ⟨-4, 1⟩, ⟨-4, 2⟩, ⟨-4, 3⟩, ⟨0, 3⟩]
    let p2 : List (P2 ℚ) := [⟨0, 1⟩, ⟨4, 1⟩, ⟨4, 3 / 2⟩, ⟨4, 7 / 4⟩, ⟨4, 15 / 8⟩, ⟨0, 2⟩]
    (∃ P, OnBoundary p1 P ∧ OnBoundary p2 P) ∧
      (match polygonClosest popFirstLeast Cmp.direct p1 p2 with
        | .ok (some d, none) => d == 1
        | _ => false) = true := by
  refine ⟨⟨⟨0, 1⟩, ⟨5, ⟨0, 3⟩, ⟨0, 0⟩, ⟨rfl, rfl⟩, 2 / 3, by decide +kernel, by decide +kernel,
    by decide +kernel⟩, ⟨0, ⟨0, 1⟩, ⟨4, 1⟩, ⟨rfl, rfl⟩, 0, by decide +kernel, by decide +kernel,
    by decide +kernel⟩⟩, by decide +kernel⟩

end Geometrix
