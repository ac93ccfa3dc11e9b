import Verif.Lemmas.MotionSegments

/-!
# C152: moving segments moves the answers about them
-/

set_option linter.unusedSectionVars false

namespace Geometrix

open Spec

variable {K : Type*} [Field K] [LinearOrder K] [IsStrictOrderedRing K]

/-- C152: under every invertible affine map `segment_segment_intersection` reports the same kind of intersection, and the
reported points are the mapped ones in the same order. Missing: segments that are points, see `C152_degenerate_refuted`. -/
theorem C152_intersection_partial (a b c d e g : K) (h : a * d - b * c ≠ 0) (A B C D : P2 K) (hAB : A ≠ B) (hCD : C ≠ D) (r : IType) (pts : List (P2 K)) :
    segSegIntersection Cmp.direct A B C D = .ok (r, pts) →
    segSegIntersection Cmp.direct (affineMap a b c d e g A) (affineMap a b c d e g B) (affineMap a b c d e g C) (affineMap a b c d e g D) =
      .ok (r, pts.map (affineMap a b c d e g)) := by
  unfold segSegIntersection
  simp only [xDenom_affine, xNumS_affine, xNumT_affine, direct_equals_scale h, direct_equals_scale_zero h, cdiv_scale h, parallel_affine h hAB hCD]
  intro hr
  split_ifs at hr ⊢ with hz
  · rw [Except.ok.injEq] at hr ⊢
    rw [hr]
  all_goals
    cases hs : cdiv (xNumS A C D) (xDenom A B C D) with
    | error f => simp [hs] at hr
    | ok s =>
      cases ht : cdiv (xNumT A B C) (xDenom A B C D) with
      | error f => simp [hs, ht] at hr
      | ok t =>
        simp only [hs, ht] at hr ⊢
        split_ifs at hr ⊢ <;>
          (simp only [Except.ok.injEq, Prod.mk.injEq] at hr ⊢
           obtain ⟨rfl, rfl⟩ := hr
           simp [affine_param])

example : segSegIntersection Cmp.direct (⟨0, 0⟩ : P2 ℚ) ⟨2, 2⟩ ⟨0, 2⟩ ⟨2, 0⟩ = .ok (.crossing, [⟨1, 1⟩]) ∧
    segSegIntersection Cmp.direct (affineMap 2 1 0 3 5 7 (⟨0, 0⟩ : P2 ℚ)) (affineMap 2 1 0 3 5 7 ⟨2, 2⟩) (affineMap 2 1 0 3 5 7 ⟨0, 2⟩)
      (affineMap 2 1 0 3 5 7 ⟨2, 0⟩) = .ok (.crossing, [⟨8, 10⟩]) := by decide +kernel

/-- Disagreement: two different points on a horizontal line, given as segments, are reported to overlap; rotated by a right
angle they are reported not to meet. -/
theorem C152_degenerate_refuted : ∃ (v1 v2 o A C : P2 ℚ), v1.x ^ 2 + v1.y ^ 2 = 1 ∧ v2.x ^ 2 + v2.y ^ 2 = 1 ∧
    segSegIntersection Cmp.direct A A C C = .ok (.overlapping, [C, C]) ∧
    segSegIntersection Cmp.direct (rotatePoint A v1 v2 o) (rotatePoint A v1 v2 o) (rotatePoint C v1 v2 o) (rotatePoint C v1 v2 o) =
      .ok (.nonCrossing, []) :=
  ⟨⟨1, 0⟩, ⟨0, 1⟩, ⟨0, 0⟩, ⟨0, 0⟩, ⟨5, 0⟩, by norm_num, by norm_num, by decide +kernel, by decide +kernel⟩

/-- C152: the crossing of two lines moves along, and its parameters on the two lines stay the same. -/
theorem C152_lines (a b c d e g : K) (h : a * d - b * c ≠ 0) (A B C D : P2 K) :
    lineLineIntersectST Cmp.direct (affineMap a b c d e g A) (affineMap a b c d e g B) (affineMap a b c d e g C) (affineMap a b c d e g D) =
      (lineLineIntersectST Cmp.direct A B C D).map (fun r => (r.1, r.2.map fun x => (affineMap a b c d e g x.1, x.2))) ∧
    lineLineIntersect Cmp.direct (affineMap a b c d e g A) (affineMap a b c d e g B) (affineMap a b c d e g C) (affineMap a b c d e g D) =
      (lineLineIntersect Cmp.direct A B C D).map (fun r => (r.1, r.2.map (affineMap a b c d e g))) := by
  unfold lineLineIntersectST lineLineIntersect
  simp only [xDenom_affine, xNumS_affine, xNumT_affine, direct_equals_scale_zero h, cdiv_scale h, isCollinear_affine h]
  constructor
  · split_ifs
    · rfl
    · rfl
    · cases cdiv (xNumS A C D) (xDenom A B C D) with
      | error f => rfl
      | ok s =>
        cases cdiv (xNumT A B C) (xDenom A B C D) with
        | error f => rfl
        | ok t => simp [Except.map, affine_param]
  · split_ifs
    · rfl
    · rfl
    · cases cdiv (xNumT A B C) (xDenom A B C D) with
      | error f => rfl
      | ok t => simp [Except.map, affine_param]

/-- C152: `get_orientation` of three points is unchanged by rotations. -/
theorem C152_orientation (v1 v2 o : P2 K) (h1 : v1.x ^ 2 + v1.y ^ 2 = 1) (h2 : v2.x ^ 2 + v2.y ^ 2 = 1) (A B C : P2 K) :
    getOrientation Cmp.direct (rotatePoint A v1 v2 o) (rotatePoint B v1 v2 o) (rotatePoint C v1 v2 o) = getOrientation Cmp.direct A B C := by
  have h := rotate_area2 v1 v2 o h1 h2 A B C
  simp only [getOrientation, getOrientationV, cross] at h ⊢
  generalize (rotatePoint B v1 v2 o - rotatePoint A v1 v2 o).x * (rotatePoint C v1 v2 o - rotatePoint A v1 v2 o).y = u at *
  generalize (rotatePoint B v1 v2 o - rotatePoint A v1 v2 o).y * (rotatePoint C v1 v2 o - rotatePoint A v1 v2 o).x = v at *
  generalize (B - A).x * (C - A).y = u' at *
  generalize (B - A).y * (C - A).x = v' at *
  have e1 : (Cmp.direct : Cmp K).lt u v = (Cmp.direct : Cmp K).lt u' v' := by
    rw [Bool.eq_iff_iff, direct_lt, direct_lt]; constructor <;> intro <;> linarith
  have e2 : (Cmp.direct : Cmp K).lt v u = (Cmp.direct : Cmp K).lt v' u' := by
    rw [Bool.eq_iff_iff, direct_lt, direct_lt]; constructor <;> intro <;> linarith
  have e3 : (Cmp.direct : Cmp K).gt u v = (Cmp.direct : Cmp K).gt u' v' := by
    rw [Bool.eq_iff_iff, direct_gt, direct_gt]; constructor <;> intro <;> linarith
  have e4 : (Cmp.direct : Cmp K).equals u v = (Cmp.direct : Cmp K).equals u' v' := by
    rw [Bool.eq_iff_iff, direct_equals, direct_equals]; constructor <;> intro <;> linarith
  simp only [orientationOf, e1, e2, e3, e4]

/-- C152: the closest point of a segment rotates along, and its parameter and the distance stay the same. -/
theorem C152_point_segment (v1 v2 o : P2 K) (h1 : v1.x ^ 2 + v1.y ^ 2 = 1) (h2 : v2.x ^ 2 + v2.y ^ 2 = 1) (p A B : P2 K) :
    pointSegClosest (rotatePoint p v1 v2 o) ⟨rotatePoint A v1 v2 o, rotatePoint B v1 v2 o⟩ =
      (pointSegClosest p ⟨A, B⟩).map (fun x => rotatePoint x v1 v2 o) ∧
    pointSegClosestPts (rotatePoint p v1 v2 o) (rotatePoint A v1 v2 o) (rotatePoint B v1 v2 o) =
      (pointSegClosestPts p A B).map (fun x => rotatePoint x v1 v2 o) ∧
    pointSegClosestParam (rotatePoint p v1 v2 o) (rotatePoint A v1 v2 o) (rotatePoint B v1 v2 o) =
      (pointSegClosestParam p A B).map (fun x => (rotatePoint x.1 v1 v2 o, x.2)) ∧
    pointSegDistSq (rotatePoint p v1 v2 o) (rotatePoint A v1 v2 o) (rotatePoint B v1 v2 o) = pointSegDistSq p A B := by
  unfold pointSegClosest pointSegClosestPts pointSegClosestParam pointSegDistSq
  simp only [rotate_dot v1 v2 o h1 h2]
  refine ⟨?_, ?_, ?_, trivial⟩
  · split_ifs
    · rfl
    · rfl
    · cases cdiv (dot (p - A) (B - A)) (dot (B - A) (B - A)) with
      | error f => rfl
      | ok t => simp [Except.map, rotate_param]
  · cases cdiv (dot (p - A) (B - A)) (dot (B - A) (B - A)) with
    | error f => rfl
    | ok t => simp only; split_ifs <;> simp [Except.map, rotate_param]
  · cases cdiv (dot (p - A) (B - A)) (dot (B - A) (B - A)) with
    | error f => rfl
    | ok t => simp only; split_ifs <;> simp [Except.map, rotate_param]

/-- C152: the closest points of two segments rotate along; the parameters and the distance stay the same, also for parallel
segments, where the closest points are not unique, and for segments that are points. -/
theorem C152_segment_segment (v1 v2 o : P2 K) (h1 : v1.x ^ 2 + v1.y ^ 2 = 1) (h2 : v2.x ^ 2 + v2.y ^ 2 = 1) (p1 q1 p2 q2 : P2 K) :
    segSegClosest Cmp.direct (rotatePoint p1 v1 v2 o) (rotatePoint q1 v1 v2 o) (rotatePoint p2 v1 v2 o) (rotatePoint q2 v1 v2 o) =
      (segSegClosest Cmp.direct p1 q1 p2 q2).map (fun r => ⟨r.s, r.t, rotatePoint r.c1 v1 v2 o, rotatePoint r.c2 v1 v2 o, r.d2⟩) ∧
    segSegDistSq Cmp.direct (rotatePoint p1 v1 v2 o) (rotatePoint q1 v1 v2 o) (rotatePoint p2 v1 v2 o) (rotatePoint q2 v1 v2 o) =
      segSegDistSq Cmp.direct p1 q1 p2 q2 := by
  have key : segSegClosest Cmp.direct (rotatePoint p1 v1 v2 o) (rotatePoint q1 v1 v2 o) (rotatePoint p2 v1 v2 o) (rotatePoint q2 v1 v2 o) =
      (segSegClosest Cmp.direct p1 q1 p2 q2).map (fun r => ⟨r.s, r.t, rotatePoint r.c1 v1 v2 o, rotatePoint r.c2 v1 v2 o, r.d2⟩) := by
    unfold segSegClosest
    simp only [rotate_dot v1 v2 o h1 h2]
    split_ifs
    · rfl
    · cases segSegParams Cmp.direct (dot (q1 - p1) (q1 - p1)) (dot (q1 - p1) (q2 - p2)) (dot (q1 - p1) (p1 - p2)) (dot (q2 - p2) (q2 - p2))
        (dot (q2 - p2) (p1 - p2)) with
      | error f => rfl
      | ok st => simp only [Except.map, ← rotate_param, rotate_dot v1 v2 o h1 h2]
  refine ⟨key, ?_⟩
  unfold segSegDistSq
  rw [key]
  cases segSegClosest Cmp.direct p1 q1 p2 q2 <;> rfl

/-- C152: distances from polylines and polygons are unchanged by rotations of everything. -/
theorem C152_distances (v1 v2 o : P2 K) (h1 : v1.x ^ 2 + v1.y ^ 2 = 1) (h2 : v2.x ^ 2 + v2.y ^ 2 = 1) (p q : P2 K) (l m : List (P2 K)) :
    pointPolylineDistSq (rotatePoint p v1 v2 o) (rotatePoints l v1 v2 o) = pointPolylineDistSq p l ∧
    pointPolygonDistSq (rotatePoint p v1 v2 o) (rotatePoints l v1 v2 o) = pointPolygonDistSq p l ∧
    segPolylineDistSq Cmp.direct (rotatePoint p v1 v2 o) (rotatePoint q v1 v2 o) (rotatePoints l v1 v2 o) = segPolylineDistSq Cmp.direct p q l ∧
    segPolygonDistSq Cmp.direct (rotatePoint p v1 v2 o) (rotatePoint q v1 v2 o) (rotatePoints l v1 v2 o) = segPolygonDistSq Cmp.direct p q l ∧
    polylineDistBrute Cmp.direct (rotatePoints l v1 v2 o) (rotatePoints m v1 v2 o) = polylineDistBrute Cmp.direct l m ∧
    polygonDistBrute Cmp.direct (rotatePoints l v1 v2 o) (rotatePoints m v1 v2 o) = polygonDistBrute Cmp.direct l m := by
  have hps := fun p A B => (C152_point_segment v1 v2 o h1 h2 p A B).2.2.2
  have hss := fun p q A B => (C152_segment_segment v1 v2 o h1 h2 p q A B).2
  have k3 : ∀ p q : P2 K, ∀ l, segPolylineDistSq Cmp.direct (rotatePoint p v1 v2 o) (rotatePoint q v1 v2 o) (rotatePoints l v1 v2 o) =
      segPolylineDistSq Cmp.direct p q l := by
    intro p q l
    unfold segPolylineDistSq
    rw [rotatePoints_map, openEdges_pairMap]
    exact minLoopValue_map _ _ _ (by intro x; exact hss _ _ _ _) _
  have k4 : ∀ p q : P2 K, ∀ l, segPolygonDistSq Cmp.direct (rotatePoint p v1 v2 o) (rotatePoint q v1 v2 o) (rotatePoints l v1 v2 o) =
      segPolygonDistSq Cmp.direct p q l := by
    intro p q l
    unfold segPolygonDistSq
    rw [rotatePoints_map, closedEdges_pairMap]
    exact minLoopValue_map _ _ _ (by intro x; exact hss _ _ _ _) _
  have hid : ∀ r : Res (Option K), r = r.map (Option.map id) := by rintro (_ | (_ | _)) <;> rfl
  refine ⟨?_, ?_, k3 p q l, k4 p q l, ?_, ?_⟩
  · unfold pointPolylineDistSq
    rw [rotatePoints_map, openEdges_pairMap]
    exact minLoopValue_map _ _ _ (by intro x; exact hps _ _ _) _
  · unfold pointPolygonDistSq
    rw [rotatePoints_map, closedEdges_pairMap]
    exact minLoopValue_map _ _ _ (by intro x; exact hps _ _ _) _
  · unfold polylineDistBrute
    have h := minLoopInf_map (Prod.map (fun p => rotatePoint p v1 v2 o) (fun p => rotatePoint p v1 v2 o)) id
      (fun e : P2 K × P2 K => segPolylineDistSq Cmp.direct e.1 e.2 m)
      (fun e : P2 K × P2 K => segPolylineDistSq Cmp.direct e.1 e.2 (rotatePoints m v1 v2 o)) id id
      (fun x => (k3 x.1 x.2 m).trans (hid _)) (fun _ => rfl) (openEdges l) none
    rw [← openEdges_pairMap, ← rotatePoints_map, Option.map_none] at h
    rw [h]
    rcases minLoopInf (fun e : P2 K × P2 K => segPolylineDistSq Cmp.direct e.1 e.2 m) id (openEdges l) none with e | (_ | ⟨x, v⟩) <;> rfl
  · unfold polygonDistBrute
    have h := minLoopInf_map (Prod.map (fun p => rotatePoint p v1 v2 o) (fun p => rotatePoint p v1 v2 o)) id
      (fun e : P2 K × P2 K => segPolygonDistSq Cmp.direct e.1 e.2 m)
      (fun e : P2 K × P2 K => segPolygonDistSq Cmp.direct e.1 e.2 (rotatePoints m v1 v2 o)) id id
      (fun x => (k4 x.1 x.2 m).trans (hid _)) (fun _ => rfl) (closedEdges l) none
    rw [← closedEdges_pairMap, ← rotatePoints_map, Option.map_none] at h
    rw [h]
    rcases minLoopInf (fun e : P2 K × P2 K => segPolygonDistSq Cmp.direct e.1 e.2 m) id (closedEdges l) none with e | (_ | ⟨x, v⟩) <;> rfl

/-- C152: the closest point of a polyline or polygon rotates along, also where several points are equally near. -/
theorem C152_closest (v1 v2 o : P2 K) (h1 : v1.x ^ 2 + v1.y ^ 2 = 1) (h2 : v2.x ^ 2 + v2.y ^ 2 = 1) (p : P2 K) (l : List (P2 K)) :
    pointPolylineClosest (rotatePoint p v1 v2 o) (rotatePoints l v1 v2 o) = (pointPolylineClosest p l).map (fun x => rotatePoint x v1 v2 o) ∧
    pointPolygonClosest (rotatePoint p v1 v2 o) (rotatePoints l v1 v2 o) = (pointPolygonClosest p l).map (fun x => rotatePoint x v1 v2 o) := by
  have hid : ∀ r : Res K, r = r.map id := by rintro (_ | _) <;> rfl
  have h := minLoop_map (Prod.map (fun p => rotatePoint p v1 v2 o) (fun p => rotatePoint p v1 v2 o)) id
      (fun e : P2 K × P2 K => pointSegDistSq p e.1 e.2)
      (fun e : P2 K × P2 K => pointSegDistSq (rotatePoint p v1 v2 o) e.1 e.2) id id
      (fun x => ((C152_point_segment v1 v2 o h1 h2 p x.1 x.2).2.2.2).trans (hid _)) (fun _ => rfl)
  have ho := h (openEdges l) none
  have hc := h (closedEdges l) none
  rw [← openEdges_pairMap, ← rotatePoints_map, Option.map_none] at ho
  rw [← closedEdges_pairMap, ← rotatePoints_map, Option.map_none] at hc
  have hpts := fun A B => (C152_point_segment v1 v2 o h1 h2 p A B).2.1
  unfold pointPolylineClosest pointPolygonClosest
  rw [ho, hc]
  constructor
  · rcases minLoop (fun e : P2 K × P2 K => pointSegDistSq p e.1 e.2) id (openEdges l) none with e | (_ | ⟨x, v⟩)
    · rfl
    · cases l with
      | nil => rfl
      | cons a l => exact hpts a a
    · exact hpts x.1 x.2
  · rcases minLoop (fun e : P2 K × P2 K => pointSegDistSq p e.1 e.2) id (closedEdges l) none with e | (_ | ⟨x, v⟩)
    · rfl
    · rfl
    · exact hpts x.1 x.2

/-- C152: the same for the closest points of a segment and a polyline or polygon: same edge, same parameters, rotated points. -/
theorem C152_segment_closest (v1 v2 o : P2 K) (h1 : v1.x ^ 2 + v1.y ^ 2 = 1) (h2 : v2.x ^ 2 + v2.y ^ 2 = 1) (p q : P2 K) (l : List (P2 K)) :
    segPolylineClosest Cmp.direct (rotatePoint p v1 v2 o) (rotatePoint q v1 v2 o) (rotatePoints l v1 v2 o) =
      (segPolylineClosest Cmp.direct p q l).map (Option.map fun r =>
        ⟨r.index, ⟨r.pair.s, r.pair.t, rotatePoint r.pair.c1 v1 v2 o, rotatePoint r.pair.c2 v1 v2 o, r.pair.d2⟩⟩) ∧
    segPolygonClosest Cmp.direct (rotatePoint p v1 v2 o) (rotatePoint q v1 v2 o) (rotatePoints l v1 v2 o) =
      (segPolygonClosest Cmp.direct p q l).map (Option.map fun r =>
        ⟨r.index, ⟨r.pair.s, r.pair.t, rotatePoint r.pair.c1 v1 v2 o, rotatePoint r.pair.c2 v1 v2 o, r.pair.d2⟩⟩) := by
  have h := minLoop_map (Prod.map id (Prod.map (fun p => rotatePoint p v1 v2 o) (fun p => rotatePoint p v1 v2 o)))
      (fun r : SegSegClosest K => (⟨r.s, r.t, rotatePoint r.c1 v1 v2 o, rotatePoint r.c2 v1 v2 o, r.d2⟩ : SegSegClosest K))
      (fun e : Nat × P2 K × P2 K => segSegClosest Cmp.direct p q e.2.1 e.2.2)
      (fun e : Nat × P2 K × P2 K => segSegClosest Cmp.direct (rotatePoint p v1 v2 o) (rotatePoint q v1 v2 o) e.2.1 e.2.2)
      SegSegClosest.d2 SegSegClosest.d2
      (fun x => (C152_segment_segment v1 v2 o h1 h2 p q x.2.1 x.2.2).1) (fun _ => rfl)
  have ho := h (openEdgesIdx l) none
  have hc := h (closedEdgesIdx l) none
  rw [← openEdgesIdx_map, ← rotatePoints_map, Option.map_none] at ho
  rw [← closedEdgesIdx_map, ← rotatePoints_map, Option.map_none] at hc
  unfold segPolylineClosest segPolygonClosest segEdgesClosest
  rw [ho, hc]
  constructor
  · rcases minLoop (fun e : Nat × P2 K × P2 K => segSegClosest Cmp.direct p q e.2.1 e.2.2) SegSegClosest.d2 (openEdgesIdx l) none
      with e | (_ | ⟨x, v⟩) <;> rfl
  · rcases minLoop (fun e : Nat × P2 K × P2 K => segSegClosest Cmp.direct p q e.2.1 e.2.2) SegSegClosest.d2 (closedEdgesIdx l) none
      with e | (_ | ⟨x, v⟩) <;> rfl

example : ∃ v1 v2 : P2 ℚ, v1 ≠ v2 ∧ v1.x ^ 2 + v1.y ^ 2 = 1 ∧ v2.x ^ 2 + v2.y ^ 2 = 1 :=
  ⟨⟨3 / 5, 4 / 5⟩, ⟨0, 1⟩, by decide +kernel, by norm_num, by norm_num⟩

end Geometrix
