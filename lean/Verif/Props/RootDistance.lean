import Verif.Lemmas.RootDistance
import Verif.Props.BoxDistance
import Verif.Props.Distance
import Verif.Props.Obb
import Verif.Props.PolylineDistance
import Verif.Props.SegmentPolylineDistance

/-!
# C154: the distance functions are distances
-/

set_option linter.unusedSectionVars false

namespace Geometrix

open Spec

/-- C154: `point_point_distance` is a metric. -/
theorem C154_point (A B C : P2 ℝ) :
    0 ≤ pointDist A B ∧ (pointDist A B = 0 ↔ A = B) ∧ pointDist A B = pointDist B A ∧
      pointDist A C ≤ pointDist A B + pointDist B C := by
  simp only [pointDist_eq]
  refine ⟨dist_nonneg' A B, dist_eq_zero', ?_, dist_triangle' A B C⟩
  simp only [Spec.dist]; congr 1; ring

/-- C154: `point_segment_distance` is the least distance from a point of the segment, which may be
a single point. -/
theorem C154_segment (p : P2 ℝ) (s : Seg ℝ) :
    ∃ d, pointSegDist p s = .ok d ∧ IsMinOver (OnSegment s.s s.e) (Spec.dist p) d := by
  obtain ⟨d, h, hm⟩ := C17_distance p s.s s.e
  exact ⟨_, rootOf_ok h (isMinOver_nonneg (sqDist_nonneg_real p) hm),
    isMinOver_sqrt (dist_eq_sqrt_sqDist p) hm⟩

/-- C154: `point_polyline_distance` is the least distance from a point of the polyline; with fewer
than two points the distance is infinite. -/
theorem C154_polyline (p : P2 ℝ) (poly : List (P2 ℝ)) :
    (2 ≤ poly.length → ∃ d, pointPolylineDist p poly = .ok (some d) ∧
      IsMinOver (OnPolyline poly) (Spec.dist p) d) ∧
    (poly.length < 2 → pointPolylineDist p poly = .ok none) := by
  constructor
  · intro h
    obtain ⟨d, h, hm⟩ := C21_polyline_distance p poly h
    exact ⟨_, rootOfInf_ok h (isMinOver_nonneg (sqDist_nonneg_real p) hm),
      isMinOver_sqrt (dist_eq_sqrt_sqDist p) hm⟩
  · intro h
    match poly, h with
    | [], _ => rfl
    | [a], _ => rfl

example : 2 ≤ ([⟨3, 0⟩, ⟨3, 3⟩, ⟨0, 3⟩] : List (P2 ℝ)).length := by simp

/-- C154: `point_polygon_distance` is the least distance from a point of the boundary; without
vertices the distance is infinite. -/
theorem C154_polygon (p : P2 ℝ) (poly : List (P2 ℝ)) :
    (poly ≠ [] → ∃ d, pointPolygonDist p poly = .ok (some d) ∧
      IsMinOver (OnBoundary poly) (Spec.dist p) d) ∧
    pointPolygonDist p [] = .ok none := by
  refine ⟨fun h => ?_, rfl⟩
  obtain ⟨d, h, hm⟩ := C21_polygon_distance p poly h
  exact ⟨_, rootOfInf_ok h (isMinOver_nonneg (sqDist_nonneg_real p) hm),
    isMinOver_sqrt (dist_eq_sqrt_sqDist p) hm⟩

example : ([⟨2, 0⟩, ⟨2, 2⟩, ⟨0, 2⟩] : List (P2 ℝ)) ≠ [] := by simp

/-- C154: `point_aabb_distance` and `point_obb_distance` are the least distance from a point of the
box. -/
theorem C154_box (p : P2 ℝ) :
    (∀ b : Box ℝ, ValidBox b → ∃ d, pointAabbDist p b = .ok d ∧
      IsMinOver (InBox b) (Spec.dist p) d) ∧
    (∀ o : Obb ℝ, ValidObb o → ∃ d, pointObbDist p o = .ok d ∧
      IsMinOver (InObb o) (Spec.dist p) d) := by
  constructor
  · intro b hb
    have hm := (C19_plane p b hb).1
    exact ⟨_, csqrt_ok (isMinOver_nonneg (sqDist_nonneg_real p) hm),
      isMinOver_sqrt (dist_eq_sqrt_sqDist p) hm⟩
  · intro o ho
    have hm := (C24_point p o ho).1
    exact ⟨_, csqrt_ok (isMinOver_nonneg (sqDist_nonneg_real p) hm),
      isMinOver_sqrt (dist_eq_sqrt_sqDist p) hm⟩

example : ValidBox (⟨⟨0, 0⟩, ⟨2, 1⟩⟩ : Box ℝ) ∧
    ValidObb (⟨⟨0, 0⟩, ⟨3 / 5, 4 / 5⟩, ⟨-4 / 5, 3 / 5⟩, 2, 1⟩ : Obb ℝ) := by
  unfold ValidBox ValidObb; norm_num [dot]

/-- C154: `aabb_aabb_distance` is the least distance between points of the two boxes. -/
theorem C154_boxes (a b : Box ℝ) (ha : ValidBox a) (hb : ValidBox b) :
    ∃ d, aabbAabbDist a b = .ok d ∧
      IsMinOver (fun PQ : P2 ℝ × P2 ℝ => InBox a PQ.1 ∧ InBox b PQ.2)
        (fun PQ => Spec.dist PQ.1 PQ.2) d := by
  have hm := C20_minimum a b ha hb
  exact ⟨_, csqrt_ok (isMinDist_nonneg hm), isMinDist_sqrt hm⟩

example : ValidBox (⟨⟨0, 0⟩, ⟨2, 1⟩⟩ : Box ℝ) ∧ ValidBox (⟨⟨5, 5⟩, ⟨6, 7⟩⟩ : Box ℝ) := by
  unfold ValidBox; norm_num

/-- C154: `segment_segment_distance` is the least distance between points of the two segments. -/
theorem C154_segments (p1 q1 p2 q2 : P2 ℝ) :
    ∃ d, segSegDist Cmp.direct p1 q1 p2 q2 = .ok d ∧
      IsMinOver (fun PQ : P2 ℝ × P2 ℝ => OnSegment p1 q1 PQ.1 ∧ OnSegment p2 q2 PQ.2)
        (fun PQ => Spec.dist PQ.1 PQ.2) d := by
  obtain ⟨d, h, hm⟩ := C18_distance p1 q1 p2 q2
  exact ⟨_, rootOf_ok h (isMinDist_nonneg hm), isMinDist_sqrt hm⟩

/-- C154: `segment_polyline_distance` and `segment_polygon_distance` are the least distance between
a point of the segment and one of the polyline or boundary. -/
theorem C154_segment_chain (p1 p2 : P2 ℝ) (poly : List (P2 ℝ)) :
    (2 ≤ poly.length → ∃ d, segPolylineDist Cmp.direct p1 p2 poly = .ok (some d) ∧
      IsMinOver (fun PQ : P2 ℝ × P2 ℝ => OnSegment p1 p2 PQ.1 ∧ OnPolyline poly PQ.2)
        (fun PQ => Spec.dist PQ.1 PQ.2) d) ∧
    (poly ≠ [] → ∃ d, segPolygonDist Cmp.direct p1 p2 poly = .ok (some d) ∧
      IsMinOver (fun PQ : P2 ℝ × P2 ℝ => OnSegment p1 p2 PQ.1 ∧ OnBoundary poly PQ.2)
        (fun PQ => Spec.dist PQ.1 PQ.2) d) := by
  obtain ⟨h1, h2⟩ := C53_distance p1 p2 poly
  constructor
  · intro h
    obtain ⟨d, h, hm⟩ := h1 h
    exact ⟨_, rootOfInf_ok h (isMinDist_nonneg hm), isMinDist_sqrt hm⟩
  · intro h
    obtain ⟨d, h, hm⟩ := h2 h
    exact ⟨_, rootOfInf_ok h (isMinDist_nonneg hm), isMinDist_sqrt hm⟩

example : 2 ≤ ([⟨3, 0⟩, ⟨3, 3⟩] : List (P2 ℝ)).length ∧ ([⟨3, 0⟩, ⟨3, 3⟩] : List (P2 ℝ)) ≠ [] := by
  simp

/-- C154: `polyline_polyline_distance` is the least distance between points of the two polylines. -/
theorem C154_polylines {pop : List (WorkItem ℝ) → Option (WorkItem ℝ × List (WorkItem ℝ))}
    (hpop : IsPriorityPop (fun w => w.d2) pop) (p1 p2 : List (P2 ℝ)) (h1 : 2 ≤ p1.length)
    (h2 : 2 ≤ p2.length) :
    ∃ d, polylineDist pop Cmp.direct p1 p2 = .ok (some d) ∧
      IsMinOver (fun PQ : P2 ℝ × P2 ℝ => OnPolyline p1 PQ.1 ∧ OnPolyline p2 PQ.2)
        (fun PQ => Spec.dist PQ.1 PQ.2) d := by
  obtain ⟨d, h, hm⟩ := C22_distance hpop p1 p2 h1 h2
  exact ⟨_, rootOfInf_ok h (isMinDist_nonneg hm), isMinDist_sqrt hm⟩

example : 2 ≤ ([⟨3, 0⟩, ⟨3, 3⟩] : List (P2 ℝ)).length ∧
    IsPriorityPop (fun w : WorkItem ℝ => w.d2) popFirstLeast :=
  ⟨by simp, isPriorityPop_popFirstLeast⟩

/-- C154: `polygon_polygon_distance` is the least distance between points of the two boundaries if
one polygon has fewer than six vertices. Missing: two polygons of six or more vertices, for which
the value before the root is wrong, see `C23_closing_edge_refuted`. -/
theorem C154_polygons_partial
    (pop : List (WorkItem ℝ) → Option (WorkItem ℝ × List (WorkItem ℝ))) (p1 p2 : List (P2 ℝ))
    (h1 : p1 ≠ []) (h2 : p2 ≠ []) (hs : p1.length < 6 ∨ p2.length < 6) :
    ∃ d, polygonDist pop Cmp.direct p1 p2 = .ok (some d) ∧
      IsMinOver (fun PQ : P2 ℝ × P2 ℝ => OnBoundary p1 PQ.1 ∧ OnBoundary p2 PQ.2)
        (fun PQ => Spec.dist PQ.1 PQ.2) d := by
  obtain ⟨d, h, hm⟩ := C23_small_partial pop p1 p2 h1 h2 hs
  exact ⟨_, rootOfInf_ok h (isMinDist_nonneg hm), isMinDist_sqrt hm⟩

example : ([⟨2, 0⟩, ⟨2, 2⟩, ⟨0, 2⟩] : List (P2 ℝ)) ≠ [] ∧
    ([⟨2, 0⟩, ⟨2, 2⟩, ⟨0, 2⟩] : List (P2 ℝ)).length < 6 := by simp

/-- C154: moving the point changes its distance from a segment, polyline, polygon or box by at most
the distance it is moved. -/
theorem C154_lipschitz (p q : P2 ℝ) :
    (∀ s d e, pointSegDist p s = .ok d → pointSegDist q s = .ok e → |d - e| ≤ pointDist p q) ∧
    (∀ poly d e, pointPolylineDist p poly = .ok (some d) →
      pointPolylineDist q poly = .ok (some e) → |d - e| ≤ pointDist p q) ∧
    (∀ poly d e, pointPolygonDist p poly = .ok (some d) →
      pointPolygonDist q poly = .ok (some e) → |d - e| ≤ pointDist p q) ∧
    (∀ b d e, ValidBox b → pointAabbDist p b = .ok d → pointAabbDist q b = .ok e →
      |d - e| ≤ pointDist p q) ∧
    (∀ o d e, ValidObb o → pointObbDist p o = .ok d → pointObbDist q o = .ok e →
      |d - e| ≤ pointDist p q) := by
  simp only [pointDist_eq]
  refine ⟨?_, ?_, ?_, ?_, ?_⟩
  · intro s d e hd he
    obtain ⟨d', h1, m1⟩ := C154_segment p s
    obtain ⟨e', h2, m2⟩ := C154_segment q s
    rw [hd] at h1; rw [he] at h2
    cases h1; cases h2
    exact isMinOver_lipschitz m1 m2
  · intro poly d e hd he
    by_cases hl : 2 ≤ poly.length
    · obtain ⟨d', h1, m1⟩ := (C154_polyline p poly).1 hl
      obtain ⟨e', h2, m2⟩ := (C154_polyline q poly).1 hl
      rw [hd] at h1; rw [he] at h2
      cases h1; cases h2
      exact isMinOver_lipschitz m1 m2
    · rw [(C154_polyline p poly).2 (by omega)] at hd
      cases hd
  · intro poly d e hd he
    by_cases hl : poly = []
    · subst hl
      rw [(C154_polygon p []).2] at hd
      cases hd
    · obtain ⟨d', h1, m1⟩ := (C154_polygon p poly).1 hl
      obtain ⟨e', h2, m2⟩ := (C154_polygon q poly).1 hl
      rw [hd] at h1; rw [he] at h2
      cases h1; cases h2
      exact isMinOver_lipschitz m1 m2
  · intro b d e hb hd he
    obtain ⟨d', h1, m1⟩ := (C154_box p).1 b hb
    obtain ⟨e', h2, m2⟩ := (C154_box q).1 b hb
    rw [hd] at h1; rw [he] at h2
    cases h1; cases h2
    exact isMinOver_lipschitz m1 m2
  · intro o d e ho hd he
    obtain ⟨d', h1, m1⟩ := (C154_box p).2 o ho
    obtain ⟨e', h2, m2⟩ := (C154_box q).2 o ho
    rw [hd] at h1; rw [he] at h2
    cases h1; cases h2
    exact isMinOver_lipschitz m1 m2

example : ∃ d e, pointSegDist ⟨0, 0⟩ ⟨⟨3, 0⟩, ⟨3, 3⟩⟩ = .ok d ∧
    pointSegDist ⟨1, 1⟩ ⟨⟨3, 0⟩, ⟨3, 3⟩⟩ = .ok e :=
  let ⟨d, h, _⟩ := C154_segment ⟨0, 0⟩ ⟨⟨3, 0⟩, ⟨3, 3⟩⟩
  let ⟨e, h', _⟩ := C154_segment ⟨1, 1⟩ ⟨⟨3, 0⟩, ⟨3, 3⟩⟩
  ⟨d, e, h, h'⟩

/-- C154: the distance of a point from a segment, polyline, polygon or box is zero exactly on it. -/
theorem C154_zero (p : P2 ℝ) :
    (∀ s, pointSegDist p s = .ok 0 ↔ OnSegment s.s s.e p) ∧
    (∀ poly, 2 ≤ poly.length →
      (pointPolylineDist p poly = .ok (some 0) ↔ OnPolyline poly p)) ∧
    (∀ poly, poly ≠ [] → (pointPolygonDist p poly = .ok (some 0) ↔ OnBoundary poly p)) ∧
    (∀ b, ValidBox b → (pointAabbDist p b = .ok 0 ↔ InBox b p)) ∧
    (∀ o, ValidObb o → (pointObbDist p o = .ok 0 ↔ InObb o p)) := by
  refine ⟨fun s => ?_, fun poly h => ?_, fun poly h => ?_, fun b h => ?_, fun o h => ?_⟩
  · obtain ⟨d, h1, m⟩ := C154_segment p s
    rw [h1, ← isMinOver_zero m, Except.ok.injEq]
  · obtain ⟨d, h1, m⟩ := (C154_polyline p poly).1 h
    rw [h1, ← isMinOver_zero m, Except.ok.injEq, Option.some.injEq]
  · obtain ⟨d, h1, m⟩ := (C154_polygon p poly).1 h
    rw [h1, ← isMinOver_zero m, Except.ok.injEq, Option.some.injEq]
  · obtain ⟨d, h1, m⟩ := (C154_box p).1 b h
    rw [h1, ← isMinOver_zero m, Except.ok.injEq]
  · obtain ⟨d, h1, m⟩ := (C154_box p).2 o h
    rw [h1, ← isMinOver_zero m, Except.ok.injEq]

example : 2 ≤ ([⟨3, 0⟩, ⟨3, 3⟩] : List (P2 ℝ)).length ∧
    ValidBox (⟨⟨0, 0⟩, ⟨2, 1⟩⟩ : Box ℝ) := by
  refine ⟨by simp, ?_⟩
  unfold ValidBox; norm_num

/-- C154: the distances between two boxes, segments or polylines do not depend on which comes
first. -/
theorem C154_symmetric :
    (∀ a b, ValidBox a → ValidBox b → aabbAabbDist a b = aabbAabbDist b a) ∧
    (∀ p1 q1 p2 q2, segSegDist Cmp.direct p1 q1 p2 q2 = segSegDist Cmp.direct p2 q2 p1 q1) ∧
    (∀ pop p1 p2, IsPriorityPop (fun w => w.d2) pop → 2 ≤ p1.length → 2 ≤ p2.length →
      polylineDist pop Cmp.direct p1 p2 = polylineDist pop Cmp.direct p2 p1) := by
  refine ⟨fun a b ha hb => ?_, fun p1 q1 p2 q2 => ?_, fun pop p1 p2 hpop h1 h2 => ?_⟩
  · obtain ⟨d, hd, md⟩ := C154_boxes a b ha hb
    obtain ⟨e, he, me⟩ := C154_boxes b a hb ha
    rw [hd, he, isMinOver_pair_symm md me]
  · obtain ⟨d, hd, md⟩ := C154_segments p1 q1 p2 q2
    obtain ⟨e, he, me⟩ := C154_segments p2 q2 p1 q1
    rw [hd, he, isMinOver_pair_symm md me]
  · obtain ⟨d, hd, md⟩ := C154_polylines hpop p1 p2 h1 h2
    obtain ⟨e, he, me⟩ := C154_polylines hpop p2 p1 h2 h1
    rw [hd, he, isMinOver_pair_symm md me]

example : ValidBox (⟨⟨0, 0⟩, ⟨2, 1⟩⟩ : Box ℝ) ∧ ValidBox (⟨⟨5, 5⟩, ⟨6, 7⟩⟩ : Box ℝ) := by
  unfold ValidBox; norm_num

/-- C154: the distances between two shapes are zero exactly if the shapes have a common point. -/
theorem C154_touch :
    (∀ a b, ValidBox a → ValidBox b →
      (aabbAabbDist a b = .ok 0 ↔ ∃ P, InBox a P ∧ InBox b P)) ∧
    (∀ p1 q1 p2 q2, segSegDist Cmp.direct p1 q1 p2 q2 = .ok 0 ↔
      ∃ P, OnSegment p1 q1 P ∧ OnSegment p2 q2 P) ∧
    (∀ p1 p2 poly, 2 ≤ poly.length → (segPolylineDist Cmp.direct p1 p2 poly = .ok (some 0) ↔
      ∃ P, OnSegment p1 p2 P ∧ OnPolyline poly P)) ∧
    (∀ p1 p2 poly, poly ≠ [] → (segPolygonDist Cmp.direct p1 p2 poly = .ok (some 0) ↔
      ∃ P, OnSegment p1 p2 P ∧ OnBoundary poly P)) ∧
    (∀ pop p1 p2, IsPriorityPop (fun w => w.d2) pop → 2 ≤ p1.length → 2 ≤ p2.length →
      (polylineDist pop Cmp.direct p1 p2 = .ok (some 0) ↔
        ∃ P, OnPolyline p1 P ∧ OnPolyline p2 P)) := by
  refine ⟨fun a b ha hb => ?_, fun p1 q1 p2 q2 => ?_, fun p1 p2 poly h => ?_,
    fun p1 p2 poly h => ?_, fun pop p1 p2 hpop h1 h2 => ?_⟩
  · obtain ⟨d, hd, md⟩ := C154_boxes a b ha hb
    rw [hd, ← isMinOver_pair_zero md, Except.ok.injEq]
  · obtain ⟨d, hd, md⟩ := C154_segments p1 q1 p2 q2
    rw [hd, ← isMinOver_pair_zero md, Except.ok.injEq]
  · obtain ⟨d, hd, md⟩ := (C154_segment_chain p1 p2 poly).1 h
    rw [hd, ← isMinOver_pair_zero md, Except.ok.injEq, Option.some.injEq]
  · obtain ⟨d, hd, md⟩ := (C154_segment_chain p1 p2 poly).2 h
    rw [hd, ← isMinOver_pair_zero md, Except.ok.injEq, Option.some.injEq]
  · obtain ⟨d, hd, md⟩ := C154_polylines hpop p1 p2 h1 h2
    rw [hd, ← isMinOver_pair_zero md, Except.ok.injEq, Option.some.injEq]

example : 2 ≤ ([⟨3, 0⟩, ⟨3, 3⟩] : List (P2 ℝ)).length ∧
    IsPriorityPop (fun w : WorkItem ℝ => w.d2) popFirstLeast :=
  ⟨by simp, isPriorityPop_popFirstLeast⟩

end Geometrix
