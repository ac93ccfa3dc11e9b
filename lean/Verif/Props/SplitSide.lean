import Verif.Lemmas.SplitSide
import Verif.Props.ArcLength
import Verif.Props.PolygonBox
import Verif.Props.Renumber

/-!
# C155: an additional vertex on a side changes nothing
-/

set_option linter.unusedSectionVars false

namespace Geometrix

open Spec

variable {K : Type*} [Field K] [LinearOrder K] [IsStrictOrderedRing K]

/-- C155: `point_in_polygon` gives the same answer for every point, also on the border. -/
theorem C155_inside {l m : List (P2 K)} (h : SplitSide l m) (p : P2 K) : pointInPolygon p m = pointInPolygon p l := by
  obtain ⟨A, B, M, r, hM, h1, h2⟩ := h
  rw [(C153_inside 0 h1 p).1, (C153_inside 0 h2 p).1, Bool.eq_iff_iff, C38_ray, C38_ray, sideCount_insert hM]

/-- C155: `get_area` and `get_centroid`; the centroid fails for one exactly if it fails for the other. -/
theorem C155_area {l m : List (P2 K)} (h : SplitSide l m) : polygonArea m = polygonArea l ∧ centroid m = centroid l := by
  obtain ⟨A, B, M, r, ⟨t, h0, h1, rfl⟩, hl, hm⟩ := h
  rw [(C153_area hl).1, (C153_area hl).2, (C153_area hm).1, (C153_area hm).2]
  set M := A + t • (B - A) with hM
  have ex : M.x = A.x + t * (B.x - A.x) := by simp [hM]
  have ey : M.y = A.y + t * (B.y - A.y) := by simp [hM]
  have s0 : cyclicSum cross (A :: M :: B :: r) = cyclicSum cross (A :: B :: r) :=
    cyclicSum_insert _ _ _ _ _ (by simp only [cross, ex, ey]; ring)
  have s1 : cyclicSum (fun a b : P2 K => cross a b * (a.x + b.x)) (A :: M :: B :: r) =
      cyclicSum (fun a b : P2 K => cross a b * (a.x + b.x)) (A :: B :: r) :=
    cyclicSum_insert _ _ _ _ _ (by simp only [cross, ex, ey]; ring)
  have s2 : cyclicSum (fun a b : P2 K => cross a b * (a.y + b.y)) (A :: M :: B :: r) =
      cyclicSum (fun a b : P2 K => cross a b * (a.y + b.y)) (A :: B :: r) :=
    cyclicSum_insert _ _ _ _ _ (by simp only [cross, ex, ey]; ring)
  have a1 := signedArea_eq (A :: B :: r) (by simp)
  have a2 := signedArea_eq (A :: M :: B :: r) (by simp)
  rw [s0] at a2
  constructor
  · simp only [polygonArea, a1, a2]
  · by_cases hz : cyclicSum cross (A :: B :: r) = 0
    · rw [(C25_centroid_total _ _ a1).2 (by rw [hz, zero_div]), (C25_centroid_total _ _ a2).2 (by rw [hz, zero_div])]
    · rw [centroid_eq _ (by simp) hz, centroid_eq _ (by simp) (by rw [s0]; exact hz), s0, s1, s2]

/-- C155: the distances of points and segments from the border, and the test against a box without tolerance. -/
theorem C155_border {l m : List (P2 K)} (h : SplitSide l m) (p q : P2 K) :
    pointPolygonDistSq p m = pointPolygonDistSq p l ∧
    segPolygonDistSq Cmp.direct p q m = segPolygonDistSq Cmp.direct p q l ∧
    ∀ b, ValidBox b → polygonAabb 0 m b = polygonAabb 0 l b := by
  have hin := C155_inside h
  obtain ⟨A, B, M, r, hM, h1, h2⟩ := h
  have hl := h1.ne_nil (by simp)
  have hm := h2.ne_nil (by simp)
  have hb : ∀ X, OnBoundary m X ↔ OnBoundary l X := fun X => by
    rw [onBoundary_sameCycle h1, onBoundary_sameCycle h2, onBoundary_insert hM]
  refine ⟨?_, ?_, fun b hv => ?_⟩
  · obtain ⟨d, d1, ⟨x, x1, x2⟩, d3⟩ := C21_polygon_distance p l hl
    obtain ⟨d', e1, ⟨y, y1, y2⟩, e3⟩ := C21_polygon_distance p m hm
    rw [d1, e1, le_antisymm ((e3 x ((hb x).2 x1)).trans x2.le) ((d3 y ((hb y).1 y1)).trans y2.le)]
  · obtain ⟨d, d1, d2⟩ := (C53_distance p q l).2 hl
    obtain ⟨d', e1, e2⟩ := (C53_distance p q m).2 hm
    rw [d1, e1, isMinDist_unique (fun _ => Iff.rfl) hb e2 d2]
  · have n1 := h1.length
    have n2 := h2.length
    simp only [List.length_cons] at n1 n2
    obtain ⟨x, x1, x2⟩ := C91_polygon l b hv (by omega)
    obtain ⟨y, y1, y2⟩ := C91_polygon m b hv (by omega)
    have hc : ∀ X, InClosed m X ↔ InClosed l X := fun X => by
      unfold InClosed
      rw [hb, ← C38_ray, ← C38_ray, hin X]
    simp only [hc] at y2
    rw [x1, y1, Bool.eq_iff_iff.2 (y2.trans x2.symm)]

/-- C155: the distances of points and segments from a polyline, and its test against a box without tolerance. -/
theorem C155_polyline {l m : List (P2 K)} (h : SplitEdge l m) (p q : P2 K) :
    pointPolylineDistSq p m = pointPolylineDistSq p l ∧
    segPolylineDistSq Cmp.direct p q m = segPolylineDistSq Cmp.direct p q l ∧
    ∀ b, ValidBox b → polylineAabb 0 b m = polylineAabb 0 b l := by
  obtain ⟨a, A, B, M, r, hM, rfl, rfl⟩ := h
  have hb := onPolyline_insert hM a r
  have hl : 2 ≤ (a ++ A :: B :: r).length := by simp; omega
  have hm : 2 ≤ (a ++ A :: M :: B :: r).length := by simp; omega
  refine ⟨?_, ?_, fun b hv => ?_⟩
  · obtain ⟨d, d1, ⟨x, x1, x2⟩, d3⟩ := C21_polyline_distance p _ hl
    obtain ⟨d', e1, ⟨y, y1, y2⟩, e3⟩ := C21_polyline_distance p _ hm
    rw [d1, e1, le_antisymm ((e3 x ((hb x).2 x1)).trans x2.le) ((d3 y ((hb y).1 y1)).trans y2.le)]
  · obtain ⟨d, d1, d2⟩ := (C53_distance p q _).1 hl
    obtain ⟨d', e1, e2⟩ := (C53_distance p q _).1 hm
    rw [d1, e1, isMinDist_unique (fun _ => Iff.rfl) hb e2 d2]
  · rw [Bool.eq_iff_iff, C91_polyline _ b hv, C91_polyline _ b hv]
    simp only [hb]

/-- C155: the distance between two polylines, either of which may have the additional point. -/
theorem C155_polylines {pop : List (WorkItem K) → Option (WorkItem K × List (WorkItem K))}
    (hpop : IsPriorityPop (fun w => w.d2) pop) {l m n : List (P2 K)} (h : SplitEdge l m) (hn : 2 ≤ n.length) :
    polylineDistSq pop Cmp.direct m n = polylineDistSq pop Cmp.direct l n ∧
    polylineDistSq pop Cmp.direct n m = polylineDistSq pop Cmp.direct n l := by
  obtain ⟨a, A, B, M, r, hM, rfl, rfl⟩ := h
  have hb := onPolyline_insert hM a r
  have hl : 2 ≤ (a ++ A :: B :: r).length := by simp; omega
  have hm : 2 ≤ (a ++ A :: M :: B :: r).length := by simp; omega
  constructor
  · obtain ⟨d, d1, d2⟩ := C22_distance hpop _ _ hl hn
    obtain ⟨d', e1, e2⟩ := C22_distance hpop _ _ hm hn
    rw [d1, e1, isMinDist_unique hb (fun _ => Iff.rfl) e2 d2]
  · obtain ⟨d, d1, d2⟩ := C22_distance hpop _ _ hn hl
    obtain ⟨d', e1, e2⟩ := C22_distance hpop _ _ hn hm
    rw [d1, e1, isMinDist_unique (fun _ => Iff.rfl) hb e2 d2]

example : IsPriorityPop (fun w : WorkItem ℚ => w.d2) popFirstLeast := isPriorityPop_popFirstLeast

/-- C155: the length of a polyline. -/
theorem C155_length {l m : List (P2 ℝ)} (h : SplitEdge l m) : polylineLength m = polylineLength l := by
  obtain ⟨a, A, B, M, r, hM, rfl, rfl⟩ := h
  have e := dist_insert hM
  rw [← C50_segment, ← C50_segment, ← C50_segment] at e
  have c1 := C50_additive a (M :: B :: r) A
  have c2 := C50_additive a (B :: r) A
  have c3 := C50_additive [A] (B :: r) M
  have c4 := C50_additive [M] r B
  have c5 := C50_additive [A] r B
  simp only [List.cons_append, List.nil_append] at c3 c4 c5
  linarith

/-- C155: the length of the border of a polygon. -/
theorem C155_perimeter {l m : List (P2 ℝ)} (h : SplitSide l m) : polygonLength m = polygonLength l := by
  obtain ⟨A, B, M, r, hM, h1, h2⟩ := h
  have n1 := h1.length
  have n2 := h2.length
  simp only [List.length_cons] at n1 n2
  have hs : (fun a b => Spec.dist b a) = Spec.dist := by funext a b; exact dist_comm' _ _
  have hc : ∀ {l m : List (P2 ℝ)}, SameCycle l m → cyclicSum Spec.dist m = cyclicSum Spec.dist l := fun h =>
    h.induct (cyclicSum Spec.dist) (fun l => cyclicSum_rotate_one _ l) (fun l => by rw [cyclicSum_reverse, hs])
  rw [C25_polygon_length l (by omega), C25_polygon_length m (by omega), hc h1, hc h2,
    cyclicSum_insert _ _ _ _ _ (dist_insert hM)]

/-- C155 is false for `polygon_polygon_distance_sqrd`: the sixth vertex selects an algorithm that leaves out the closing sides. -/
theorem C155_distance_refuted : ∃ l m n : List (P2 ℚ), SplitSide l m ∧
    (match polygonDistSq popFirstLeast Cmp.direct l n, polygonDistSq popFirstLeast Cmp.direct m n with
      | .ok (some d), .ok (some d') => d == 0 && d' == 1
      | _, _ => false) = true :=
  ⟨[⟨0, 0⟩, ⟨-4, 0⟩, ⟨-4, 2⟩, ⟨-4, 3⟩, ⟨0, 3⟩], [⟨0, 0⟩, ⟨-4, 0⟩, ⟨-4, 1⟩, ⟨-4, 2⟩, ⟨-4, 3⟩, ⟨0, 3⟩],
    [⟨0, 1⟩, ⟨4, 1⟩, ⟨4, 3 / 2⟩, ⟨4, 7 / 4⟩, ⟨4, 15 / 8⟩, ⟨0, 2⟩],
    ⟨⟨-4, 0⟩, ⟨-4, 2⟩, ⟨-4, 1⟩, [⟨-4, 3⟩, ⟨0, 3⟩, ⟨0, 0⟩], ⟨1 / 2, by decide +kernel, by decide +kernel, by decide +kernel⟩,
      ⟨4, Or.inl rfl⟩, ⟨5, Or.inl rfl⟩⟩, by decide +kernel⟩

/-- The closing side of a square and an edge of a polyline with an additional vertex. -/
example : SplitSide ([⟨0, 0⟩, ⟨2, 0⟩, ⟨2, 2⟩, ⟨0, 2⟩] : List (P2 ℚ)) [⟨0, 0⟩, ⟨2, 0⟩, ⟨2, 2⟩, ⟨0, 2⟩, ⟨0, 1⟩] ∧
    SplitEdge ([⟨0, 0⟩, ⟨2, 0⟩, ⟨2, 2⟩] : List (P2 ℚ)) [⟨0, 0⟩, ⟨2, 0⟩, ⟨2, 1⟩, ⟨2, 2⟩] :=
  ⟨⟨⟨0, 2⟩, ⟨0, 0⟩, ⟨0, 1⟩, [⟨2, 0⟩, ⟨2, 2⟩], ⟨1 / 2, by decide +kernel, by decide +kernel, by decide +kernel⟩,
      ⟨1, Or.inl rfl⟩, ⟨2, Or.inl rfl⟩⟩,
    [⟨0, 0⟩], ⟨2, 0⟩, ⟨2, 2⟩, ⟨2, 1⟩, [], ⟨1 / 2, by decide +kernel, by decide +kernel, by decide +kernel⟩, rfl, rfl⟩

end Geometrix
