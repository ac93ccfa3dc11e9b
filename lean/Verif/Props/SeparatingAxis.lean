import Verif.Lemmas.SeparatingAxis

/-!
# C77: the intersection of convex polygons; C78, C79: moving boxes and convex polygons
-/

set_option linter.unusedSectionVars false

namespace Geometrix
open Spec

variable {K : Type*} [Field K] [LinearOrder K] [IsStrictOrderedRing K]

/-! ## C77 -/

/-- C77, for two clockwise triangles or parallelograms (one of each, or two of a kind): the answer is `true` exactly if
they share a point. Missing from the full property: polygons with more vertices and those that are
counterclockwise, for which it is false. -/
theorem C77_small_partial {P Q : List (P2 K)} (hP : StrictlyConvexCw P) (hQ : StrictlyConvexCw Q)
    (sP : P.length = 3 ∨ IsParallelogram P) (sQ : Q.length = 3 ∨ IsParallelogram Q) {fuel : Nat} (hf : 5 ≤ fuel) :
    ∃ b, convexIntersection Cmp.direct fuel P Q = .ok b ∧ (b = true ↔ ∃ X, InConvex P X ∧ InConvex Q X) := by
  have size : ∀ {R : List (P2 K)}, (R.length = 3 ∨ IsParallelogram R) → 2 < R.length := by
    rintro R (h | ⟨A, u, v, rfl⟩)
    · omega
    · simp
  exact convexIntersection_ok (oriented_cw (size sP) hP) (oriented_cw (size sQ) hQ) (extremeOk_small sP hf)
    (extremeOk_small sQ hf)

/-- C77, for two clockwise convex polygons of any size: where the search for the furthest vertex gives a furthest vertex
for every direction, the answer is right. Missing from the full property: polygons for which the search fails. -/
theorem C77_clockwise_partial {P Q : List (P2 K)} (nP : 2 < P.length) (nQ : 2 < Q.length) (hP : StrictlyConvexCw P)
    (hQ : StrictlyConvexCw Q) {fuel : Nat}
    (eP : ∀ d, ∃ m, extremeIndex Cmp.direct fuel P d = .ok m ∧ IsExtreme P d m)
    (eQ : ∀ d, ∃ m, extremeIndex Cmp.direct fuel Q d = .ok m ∧ IsExtreme Q d m) :
    ∃ b, convexIntersection Cmp.direct fuel P Q = .ok b ∧ (b = true ↔ ∃ X, InConvex P X ∧ InConvex Q X) :=
  convexIntersection_ok (oriented_cw nP hP) (oriented_cw nQ hQ) eP eQ

/-- C77, for two clockwise convex polygons: the answer `true` is always right. Missing from the full property: the
answer `false`. -/
theorem C77_true_partial {P Q : List (P2 K)} (nP : 2 < P.length) (nQ : 2 < Q.length) (hP : StrictlyConvexCw P)
    (hQ : StrictlyConvexCw Q) {fuel : Nat} (h : convexIntersection Cmp.direct fuel P Q = .ok true) :
    ∃ X, InConvex P X ∧ InConvex Q X :=
  convexIntersection_true (oriented_cw nP hP) (oriented_cw nQ hQ) h

example : StrictlyConvexCw [(⟨0, 0⟩ : P2 ℚ), ⟨0, 2⟩, ⟨2, 2⟩, ⟨2, 0⟩] ∧
    IsParallelogram [(⟨0, 0⟩ : P2 ℚ), ⟨0, 2⟩, ⟨2, 2⟩, ⟨2, 0⟩] ∧
    StrictlyConvexCw [(⟨1, 1⟩ : P2 ℚ), ⟨1, 5⟩, ⟨4, 1⟩] ∧
    convexIntersection Cmp.direct 5 [(⟨0, 0⟩ : P2 ℚ), ⟨0, 2⟩, ⟨2, 2⟩, ⟨2, 0⟩] [⟨1, 1⟩, ⟨1, 5⟩, ⟨4, 1⟩] = .ok true ∧
    convexIntersection Cmp.direct 5 [(⟨0, 0⟩ : P2 ℚ), ⟨0, 2⟩, ⟨2, 2⟩, ⟨2, 0⟩] [⟨3, 1⟩, ⟨3, 5⟩, ⟨4, 1⟩] = .ok false := by
  refine ⟨?_, ⟨⟨0, 0⟩, ⟨0, 2⟩, ⟨2, 0⟩, by decide +kernel⟩, ?_, by decide +kernel, by decide +kernel⟩
  · exact cw_of_four (by norm_num [area2]) (by norm_num [area2]) (by norm_num [area2]) (by norm_num [area2])
  · exact cw_of_three (by norm_num [area2])

/-- C77, `get_extreme_index`: a vertex that the search gives for a convex polygon is furthest in the direction, or it is
the first vertex and the second is further. Missing from the full property: that case, and that the search ends. -/
theorem C77_extreme_partial {P : List (P2 K)} (hP : ConvexPolygon P) (d : P2 K) {fuel m : Nat}
    (h : extremeIndex Cmp.direct fuel P d = .ok m) :
    IsExtreme P d m ∨ (m = 0 ∧ ∃ a b, P[0]? = some a ∧ P[1]? = some b ∧ dot d a < dot d b) :=
  extremeLoop_sound hP d fuel 0 0 m (by have := hP.1; omega) (by have := hP.1; omega) (Or.inl rfl) h

/-- C77 refuted for counterclockwise polygons: the smaller of two triangles is inside the larger one and the answer is
`false`. -/
theorem C77_counterclockwise_refuted :
    StrictlyConvex [(⟨0, 0⟩ : P2 ℚ), ⟨9, 0⟩, ⟨0, 9⟩] ∧ StrictlyConvex [(⟨1, 1⟩ : P2 ℚ), ⟨2, 1⟩, ⟨1, 2⟩] ∧
    (∃ X, InConvex [(⟨0, 0⟩ : P2 ℚ), ⟨9, 0⟩, ⟨0, 9⟩] X ∧ InConvex [(⟨1, 1⟩ : P2 ℚ), ⟨2, 1⟩, ⟨1, 2⟩] X) ∧
    convexIntersection Cmp.direct 5 [(⟨0, 0⟩ : P2 ℚ), ⟨9, 0⟩, ⟨0, 9⟩] [⟨1, 1⟩, ⟨2, 1⟩, ⟨1, 2⟩] = .ok false := by
  refine ⟨ccw_of_three (by norm_num [area2]), ccw_of_three (by norm_num [area2]), ⟨⟨1, 1⟩, ?_, ?_⟩, by decide +kernel⟩
  · refine ⟨⟨0, 0⟩, by simp, ⟨9, 0⟩, by simp, ⟨0, 9⟩, by simp, 7 / 9, 1 / 9, 1 / 9, by norm_num, by norm_num,
      by norm_num, by norm_num, ?_⟩
    ext <;> simp
  · refine ⟨⟨1, 1⟩, by simp, ⟨2, 1⟩, by simp, ⟨1, 2⟩, by simp, 1, 0, 0, by norm_num, by norm_num,
      by norm_num, by norm_num, ?_⟩
    ext <;> simp

/-- C77 refuted for a clockwise quadrilateral: a vertex of the triangle is inside it and the answer is `false`, because the
vertex that the search gives is not the furthest. -/
theorem C77_quadrilateral_refuted :
    StrictlyConvexCw [(⟨0, 1⟩ : P2 ℚ), ⟨1, 3⟩, ⟨4, 2⟩, ⟨1, 1⟩] ∧ StrictlyConvexCw [(⟨1, 2⟩ : P2 ℚ), ⟨1, 4⟩, ⟨3, 3⟩] ∧
    (∃ X, InConvex [(⟨0, 1⟩ : P2 ℚ), ⟨1, 3⟩, ⟨4, 2⟩, ⟨1, 1⟩] X ∧ InConvex [(⟨1, 2⟩ : P2 ℚ), ⟨1, 4⟩, ⟨3, 3⟩] X) ∧
    convexIntersection Cmp.direct 5 [(⟨0, 1⟩ : P2 ℚ), ⟨1, 3⟩, ⟨4, 2⟩, ⟨1, 1⟩] [⟨1, 2⟩, ⟨1, 4⟩, ⟨3, 3⟩] = .ok false := by
  refine ⟨cw_of_four (by norm_num [area2]) (by norm_num [area2]) (by norm_num [area2]) (by norm_num [area2]),
    cw_of_three (by norm_num [area2]), ⟨⟨1, 2⟩, ?_, ?_⟩, by decide +kernel⟩
  · refine ⟨⟨1, 3⟩, by simp, ⟨1, 1⟩, by simp, ⟨1, 1⟩, by simp, 1 / 2, 1 / 2, 0, by norm_num, by norm_num,
      by norm_num, by norm_num, ?_⟩
    ext <;> simp <;> norm_num
  · refine ⟨⟨1, 2⟩, by simp, ⟨1, 4⟩, by simp, ⟨3, 3⟩, by simp, 1, 0, 0, by norm_num, by norm_num,
      by norm_num, by norm_num, ?_⟩
    ext <;> simp

/-- C77, `get_extreme_index` gives the first vertex of a clockwise quadrilateral although the second is further. -/
theorem C77_extreme_refuted :
    StrictlyConvexCw [(⟨0, 1⟩ : P2 ℚ), ⟨1, 3⟩, ⟨4, 2⟩, ⟨1, 1⟩] ∧
    ∃ d : P2 ℚ, extremeIndex Cmp.direct 5 [⟨0, 1⟩, ⟨1, 3⟩, ⟨4, 2⟩, ⟨1, 1⟩] d = .ok 0 ∧
      ¬ IsExtreme [⟨0, 1⟩, ⟨1, 3⟩, ⟨4, 2⟩, ⟨1, 1⟩] d 0 := by
  refine ⟨cw_of_four (by norm_num [area2]) (by norm_num [area2]) (by norm_num [area2]) (by norm_num [area2]),
    ⟨-1, 1⟩, by decide +kernel, ?_⟩
  rintro ⟨p, hp, h⟩
  simp at hp
  subst hp
  have := h ⟨1, 3⟩ (by simp)
  norm_num [dot] at this

/-- C77 refuted for a clockwise triangle and a clockwise pentagon that overlap: no number of rounds is enough for the
search. -/
theorem C77_diverges_refuted (fuel : Nat) :
    convexIntersection Cmp.direct fuel [(⟨2, 2⟩ : P2 ℚ), ⟨1, 0⟩, ⟨0, 2⟩] [⟨1, 1⟩, ⟨1, 2⟩, ⟨2, 3⟩, ⟨3, 3⟩, ⟨3, 0⟩] =
      .error .diverges := by
  have h : sideSeparates Cmp.direct fuel pentagon (⟨0, 2⟩, ⟨2, 2⟩) = .error .diverges := by
    unfold sideSeparates extremePoint
    have e : -leftNormal ((⟨2, 2⟩ : P2 ℚ) - ⟨0, 2⟩) = ⟨0, -2⟩ := by decide +kernel
    dsimp only
    rw [e, pentagon_diverges 2 (by norm_num)]
  show convexIntersection Cmp.direct fuel [(⟨2, 2⟩ : P2 ℚ), ⟨1, 0⟩, ⟨0, 2⟩] pentagon = .error .diverges
  unfold convexIntersection
  have e : closedEdges [(⟨2, 2⟩ : P2 ℚ), ⟨1, 0⟩, ⟨0, 2⟩] =
      (⟨0, 2⟩, ⟨2, 2⟩) :: [(⟨2, 2⟩, ⟨1, 0⟩), (⟨1, 0⟩, ⟨0, 2⟩)] := rfl
  rw [e]
  unfold anyRes
  rw [h]

/-! ## C78 -/

/-- C78: two boxes with orthonormal axes, each moving with its own velocity: the answer says whether they share a point at
some time between 0 and `tmax`, and if so, they do it at a time from 0 on exactly if it is not before `tfirst` and
not after `tlast`. -/
theorem C78_moving_boxes (o1 o2 : Obb K) (h1 : ValidObb o1) (h2 : ValidObb o2) (v1 v2 : P2 K) {tmax : K}
    (ht : 0 ≤ tmax) :
    ∃ r, movingObbObb o1 v1 o2 v2 tmax = .ok r ∧
      CorrectMoving (InObb o1) (InObb o2) v1 v2 tmax r.hit r.tfirst r.tlast :=
  axesLoop_correct _ id tmax _ (fun _ _ => rfl) ht _ _ v1 v2 (fun t _ => obbAxes_meet o1 o2 h1 h2 v1 v2 t)

example : ValidObb (⟨⟨0, 0⟩, ⟨1, 0⟩, ⟨0, 1⟩, 1, 1⟩ : Obb ℚ) ∧
    ValidObb (⟨⟨10, 0⟩, ⟨3 / 5, 4 / 5⟩, ⟨-4 / 5, 3 / 5⟩, 5, 0⟩ : Obb ℚ) ∧
    movingObbObb (⟨⟨0, 0⟩, ⟨1, 0⟩, ⟨0, 1⟩, 1, 1⟩ : Obb ℚ) ⟨1, 0⟩ ⟨⟨10, 0⟩, ⟨3 / 5, 4 / 5⟩, ⟨-4 / 5, 3 / 5⟩, 5, 0⟩ ⟨-1, 0⟩
      100 = .ok ⟨true, 33 / 8, some (47 / 8)⟩ := by
  refine ⟨by norm_num [ValidObb, dot], by norm_num [ValidObb, dot], by decide +kernel⟩

/-- C78 needs a `tmax` that is not negative: two overlapping boxes at rest are reported even if it is. -/
theorem C78_negative_tmax : movingObbObb (⟨⟨0, 0⟩, ⟨1, 0⟩, ⟨0, 1⟩, 1, 1⟩ : Obb ℚ) ⟨0, 0⟩
    ⟨⟨0, 0⟩, ⟨1, 0⟩, ⟨0, 1⟩, 1, 1⟩ ⟨0, 0⟩ (-1) = .ok ⟨true, 0, none⟩ := by decide +kernel

/-! ## C79 -/

/-- C79, for triangles and parallelograms in one of the two orders: the answer says whether the moving polygons share a
point at some time between 0 and `tmax`, and gives the first and the last time. Missing from the full property:
convex polygons with more vertices, for which it is false. -/
theorem C79_small_partial {P Q : List (P2 K)} (hP : ConvexPolygon P) (hQ : ConvexPolygon Q)
    (sP : P.length = 3 ∨ IsParallelogram P) (sQ : Q.length = 3 ∨ IsParallelogram Q) {fuel : Nat} (hf : 5 ≤ fuel)
    (v1 v2 : P2 K) {tmax : K} (ht : 0 ≤ tmax) :
    ∃ r, movingConvex Cmp.direct fuel P v1 Q v2 tmax = .ok r ∧
      CorrectMoving (InConvex P) (InConvex Q) v1 v2 tmax r.hit r.tfirst r.tlast :=
  movingConvex_ok hP hQ (extremeOk_small sP hf) (extremeOk_small sQ hf) v1 v2 ht

/-- C79, for convex polygons of any size and in either order, where the search for the furthest vertex gives a furthest
vertex for every direction. Missing from the full property: polygons for which the search fails. -/
theorem C79_convex_partial {P Q : List (P2 K)} (hP : ConvexPolygon P) (hQ : ConvexPolygon Q) {fuel : Nat}
    (eP : ∀ d, ∃ m, extremeIndex Cmp.direct fuel P d = .ok m ∧ IsExtreme P d m)
    (eQ : ∀ d, ∃ m, extremeIndex Cmp.direct fuel Q d = .ok m ∧ IsExtreme Q d m)
    (v1 v2 : P2 K) {tmax : K} (ht : 0 ≤ tmax) :
    ∃ r, movingConvex Cmp.direct fuel P v1 Q v2 tmax = .ok r ∧
      CorrectMoving (InConvex P) (InConvex Q) v1 v2 tmax r.hit r.tfirst r.tlast :=
  movingConvex_ok hP hQ eP eQ v1 v2 ht

/-- C79, for convex polygons of any size and in either order: if the answer is that they meet, then they do so at all
times from `tfirst` to `tlast`, and `tfirst` is between 0 and `tmax`. Missing from the full property: the answer that
they do not meet, and that the times are the first and the last. -/
theorem C79_hit_partial {P Q : List (P2 K)} (hP : ConvexPolygon P) (hQ : ConvexPolygon Q) {fuel : Nat}
    (v1 v2 : P2 K) {tmax : K} (ht : 0 ≤ tmax) {r : MovingHit K}
    (h : movingConvex Cmp.direct fuel P v1 Q v2 tmax = .ok r) (hr : r.hit = true) :
    0 ≤ r.tfirst ∧ r.tfirst ≤ tmax ∧ (∀ l, r.tlast = some l → r.tfirst ≤ l) ∧
      ∀ t, r.tfirst ≤ t → (∀ l, r.tlast = some l → t ≤ l) → MeetAt (InConvex P) (InConvex Q) v1 v2 t :=
  movingConvex_hit hP hQ v1 v2 ht h hr

example : ConvexPolygon [(⟨0, 0⟩ : P2 ℚ), ⟨0, 2⟩, ⟨2, 2⟩, ⟨2, 0⟩] ∧ ConvexPolygon [(⟨10, 1⟩ : P2 ℚ), ⟨11, 0⟩, ⟨11, 2⟩] ∧
    movingConvex Cmp.direct 5 [(⟨0, 0⟩ : P2 ℚ), ⟨0, 2⟩, ⟨2, 2⟩, ⟨2, 0⟩] ⟨1, 0⟩ [⟨10, 1⟩, ⟨11, 0⟩, ⟨11, 2⟩] ⟨-1, 0⟩ 100 =
      .ok ⟨true, 4, some (11 / 2)⟩ := by
  refine ⟨⟨by simp, Or.inr (cw_of_four (by norm_num [area2]) (by norm_num [area2]) (by norm_num [area2])
    (by norm_num [area2]))⟩, ⟨by simp, Or.inl (ccw_of_three (by norm_num [area2]))⟩, by decide +kernel⟩

/-- C79 refuted for a quadrilateral and a triangle at rest that share a point: the answer is that they do not meet. -/
theorem C79_quadrilateral_refuted :
    ConvexPolygon [(⟨0, 1⟩ : P2 ℚ), ⟨1, 3⟩, ⟨4, 2⟩, ⟨1, 1⟩] ∧ ConvexPolygon [(⟨1, 2⟩ : P2 ℚ), ⟨1, 4⟩, ⟨3, 3⟩] ∧
    MeetAt (InConvex [(⟨0, 1⟩ : P2 ℚ), ⟨1, 3⟩, ⟨4, 2⟩, ⟨1, 1⟩]) (InConvex [⟨1, 2⟩, ⟨1, 4⟩, ⟨3, 3⟩]) ⟨0, 0⟩ ⟨0, 0⟩ 0 ∧
    ∃ r, movingConvex Cmp.direct 5 [(⟨0, 1⟩ : P2 ℚ), ⟨1, 3⟩, ⟨4, 2⟩, ⟨1, 1⟩] ⟨0, 0⟩ [⟨1, 2⟩, ⟨1, 4⟩, ⟨3, 3⟩] ⟨0, 0⟩ 1 =
      .ok r ∧ r.hit = false := by
  obtain ⟨h1, h2, ⟨X, h3, h4⟩, -⟩ := C77_quadrilateral_refuted
  refine ⟨⟨by simp, Or.inr h1⟩, ⟨by simp, Or.inr h2⟩, ⟨X, ?_, ?_⟩, ⟨false, 0, none⟩, by decide +kernel, rfl⟩
  · have : X - (0 : ℚ) • (⟨0, 0⟩ : P2 ℚ) = X := by ext <;> simp
    rw [this]; exact h3
  · have : X - (0 : ℚ) • (⟨0, 0⟩ : P2 ℚ) = X := by ext <;> simp
    rw [this]; exact h4

/-- C79 refuted for a triangle and a pentagon: no number of rounds is enough for the search. -/
theorem C79_diverges_refuted (fuel : Nat) :
    movingConvex Cmp.direct fuel [(⟨2, 2⟩ : P2 ℚ), ⟨1, 0⟩, ⟨0, 2⟩] ⟨0, 0⟩
      [⟨1, 1⟩, ⟨1, 2⟩, ⟨2, 3⟩, ⟨3, 3⟩, ⟨3, 0⟩] ⟨0, 0⟩ 1 = .error .diverges := by
  show movingConvex Cmp.direct fuel [(⟨2, 2⟩ : P2 ℚ), ⟨1, 0⟩, ⟨0, 2⟩] ⟨0, 0⟩ pentagon ⟨0, 0⟩ 1 = .error .diverges
  have hp : computeInterval Cmp.direct fuel pentagon ⟨0, 2⟩ = .error .diverges := by
    unfold computeInterval extremePoint
    have e : -(⟨0, 2⟩ : P2 ℚ) = ⟨0, -2⟩ := by decide +kernel
    rw [e, pentagon_diverges 2 (by norm_num)]
  have hs : sideAxis Cmp.direct fuel [(⟨2, 2⟩ : P2 ℚ), ⟨1, 0⟩, ⟨0, 2⟩] pentagon (⟨0, 0⟩ - ⟨0, 0⟩) (⟨0, 2⟩, ⟨2, 2⟩) =
      .error .diverges := by
    have e : leftNormal ((⟨2, 2⟩ : P2 ℚ) - ⟨0, 2⟩) = ⟨0, 2⟩ := by decide +kernel
    unfold sideAxis
    dsimp only
    rw [e, hp]
    match fuel with
    | 0 => decide +kernel
    | 1 => decide +kernel
    | 2 => decide +kernel
    | 3 => decide +kernel
    | 4 => decide +kernel
    | k + 5 =>
      obtain ⟨a, -, b, -, h, -⟩ := computeInterval_ok (extremeOk_triangle (⟨2, 2⟩ : P2 ℚ) ⟨1, 0⟩ ⟨0, 2⟩ k) ⟨0, 2⟩
      rw [h]
  unfold movingConvex
  have e : closedEdges [(⟨2, 2⟩ : P2 ℚ), ⟨1, 0⟩, ⟨0, 2⟩] ++ closedEdges pentagon =
      (⟨0, 2⟩, ⟨2, 2⟩) :: ([(⟨2, 2⟩, ⟨1, 0⟩), (⟨1, 0⟩, ⟨0, 2⟩)] ++ closedEdges pentagon) := rfl
  rw [e]
  unfold axesLoop
  rw [hs]

end Geometrix
