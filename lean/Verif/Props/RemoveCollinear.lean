import Verif.Lemmas.RemoveCollinear

/-!
# C27 and C55: removing collinear points
-/

set_option linter.unusedSectionVars false

namespace Geometrix

open Spec

variable {K : Type*} [Field K] [LinearOrder K] [IsStrictOrderedRing K]

/-- Of every polyline, with every comparison policy, a subsequence with the same first and last point
is left. -/
theorem C27_polyline_subsequence (cmp : Cmp K) (poly : List (P2 K)) :
    (removeCollinearPolyline cmp poly).Sublist poly ∧
    (removeCollinearPolyline cmp poly).head? = poly.head? ∧
    (removeCollinearPolyline cmp poly).getLast? = poly.getLast? := by
  match poly with
  | [] => exact ⟨List.Sublist.refl _, rfl, rfl⟩
  | [_] => exact ⟨List.Sublist.refl _, rfl, rfl⟩
  | [_, _] => exact ⟨List.Sublist.refl _, rfl, rfl⟩
  | a :: b :: c :: rest =>
    refine ⟨removeLoop_sublist cmp (c :: rest) a b, ?_, ?_⟩
    · obtain ⟨x, l, h⟩ := removeLoop_cons cmp (c :: rest) a b
      simp only [removeCollinearPolyline, h, List.head?_cons]
    · simp only [removeCollinearPolyline, removeLoop_last, List.getLast?_cons_cons]

example : removeCollinearPolyline Cmp.direct [(⟨0, 0⟩ : P2 ℚ), ⟨1, 0⟩, ⟨2, 0⟩, ⟨3, 0⟩, ⟨3, 1⟩] =
    [⟨0, 0⟩, ⟨3, 0⟩, ⟨3, 1⟩] := by decide +kernel

/-- Full claim: for every polyline the result is the same curve and has no three consecutive collinear
points. Proved here for polylines that never stop and never turn back on themselves; without that
condition the claim is false (`C27_polyline_refuted`). -/
theorem C27_polyline_partial (poly : List (P2 K)) (h : EveryTriple Onward poly) :
    SameCurve (OnPolyline (removeCollinearPolyline Cmp.direct poly)) (OnPolyline poly) ∧
    EveryTriple (fun A B C => ¬ Collinear A B C) (removeCollinearPolyline Cmp.direct poly) := by
  match poly, h with
  | [], _ => exact ⟨fun P => Iff.rfl, trivial⟩
  | [_], _ => exact ⟨fun P => Iff.rfl, trivial⟩
  | [_, _], _ => exact ⟨fun P => Iff.rfl, trivial⟩
  | a :: b :: c :: rest, h =>
    obtain ⟨h1, x, l, h2, -, h4⟩ := removeLoop_spec (c :: rest) a a b (sameDir_refl _) h
    refine ⟨fun P => ?_, ?_⟩
    · rw [removeCollinearPolyline, h1, ← onPolyline_cons]
    · rw [removeCollinearPolyline, h2]; exact h4

example : EveryTriple Onward [(⟨0, 0⟩ : P2 ℚ), ⟨1, 0⟩, ⟨2, 0⟩, ⟨2, 1⟩] := by
  refine ⟨⟨by decide, by decide, fun _ => ⟨1 / 2, by norm_num, by norm_num, ?_⟩⟩,
    ⟨by decide, by decide, fun h => ?_⟩, trivial⟩
  · ext <;> norm_num
  · norm_num [Collinear, area2] at h

/-- A polyline that turns back on itself loses a piece: the spike to `(1, 1)` is gone, and the three
points that are left are collinear. -/
theorem C27_polyline_refuted :
    removeCollinearPolyline Cmp.direct [(⟨0, 0⟩ : P2 ℚ), ⟨1, 0⟩, ⟨1, 1⟩, ⟨1, 0⟩, ⟨2, 0⟩] =
      [⟨0, 0⟩, ⟨1, 0⟩, ⟨2, 0⟩] ∧
    ¬ SameCurve
      (OnPolyline (removeCollinearPolyline Cmp.direct [(⟨0, 0⟩ : P2 ℚ), ⟨1, 0⟩, ⟨1, 1⟩, ⟨1, 0⟩, ⟨2, 0⟩]))
      (OnPolyline [(⟨0, 0⟩ : P2 ℚ), ⟨1, 0⟩, ⟨1, 1⟩, ⟨1, 0⟩, ⟨2, 0⟩]) ∧
    Collinear (⟨0, 0⟩ : P2 ℚ) ⟨1, 0⟩ ⟨2, 0⟩ := by
  have e : removeCollinearPolyline Cmp.direct [(⟨0, 0⟩ : P2 ℚ), ⟨1, 0⟩, ⟨1, 1⟩, ⟨1, 0⟩, ⟨2, 0⟩] =
      [⟨0, 0⟩, ⟨1, 0⟩, ⟨2, 0⟩] := by decide +kernel
  refine ⟨e, fun h => ?_, by norm_num [Collinear, area2]⟩
  rw [e] at h
  have h1 : OnPolyline [(⟨0, 0⟩ : P2 ℚ), ⟨1, 0⟩, ⟨1, 1⟩, ⟨1, 0⟩, ⟨2, 0⟩] ⟨1, 1⟩ := by
    rw [onPolyline_cons, onPolyline_cons]
    exact Or.inr (Or.inl ⟨1, by norm_num, by norm_num, by ext <;> norm_num⟩)
  rw [← h, onPolyline_cons, onPolyline_cons] at h1
  rcases h1 with ⟨t, _, _, h⟩ | ⟨t, _, _, h⟩ | h
  · have := congrArg P2.y h; norm_num at this
  · have := congrArg P2.y h; norm_num at this
  · exact onPolyline_single _ _ h

/-- Of every polyline, merging repeated points leaves a subsequence with the same first and last point,
and if it had three or more points, no repeated consecutive points and the same curve. The curve is
compared together with its first point, since a single point has no edges. -/
theorem C27_coalesce_polyline (poly : List (P2 K)) :
    (coalescePolyline Cmp.direct poly).Sublist poly ∧
    (coalescePolyline Cmp.direct poly).head? = poly.head? ∧
    (coalescePolyline Cmp.direct poly).getLast? = poly.getLast? ∧
    (3 ≤ poly.length → (coalescePolyline Cmp.direct poly).IsChain (· ≠ ·)) ∧
    SameCurve (fun P => OnPolyline (coalescePolyline Cmp.direct poly) P ∨ poly.head? = some P)
      (fun P => OnPolyline poly P ∨ poly.head? = some P) := by
  match poly with
  | [] => exact ⟨List.Sublist.refl _, rfl, rfl, by simp, fun P => Iff.rfl⟩
  | [_] => exact ⟨List.Sublist.refl _, rfl, rfl, by simp, fun P => Iff.rfl⟩
  | [_, _] => exact ⟨List.Sublist.refl _, rfl, rfl, by simp, fun P => Iff.rfl⟩
  | a :: b :: c :: rest =>
    obtain ⟨h1, h2, h3⟩ := coalesceLoop_spec (b :: c :: rest) a
    refine ⟨coalesceLoop_sublist Cmp.direct _ a, ?_, h2, fun _ => h1, fun P => ?_⟩
    · obtain ⟨l, hl⟩ := coalesceLoop_cons Cmp.direct (b :: c :: rest) a
      simp only [coalescePolyline, hl, List.head?_cons]
    · have := h3 P
      simp only [coalescePolyline, List.head?_cons, Option.some.injEq, eq_comm (a := a)]
      exact this

example : coalescePolyline Cmp.direct [(⟨0, 0⟩ : P2 ℚ), ⟨0, 0⟩, ⟨1, 0⟩, ⟨1, 0⟩, ⟨0, 0⟩] =
    [⟨0, 0⟩, ⟨1, 0⟩, ⟨0, 0⟩] := by decide +kernel

/-- Full claim: cleaning a polyline twice is the same as cleaning it once. Proved for polylines that
never stop and never turn back; false otherwise (`C27_clean_refuted`). -/
theorem C27_clean_polyline_partial (poly : List (P2 K)) (h : EveryTriple Onward poly) :
    cleanPolyline Cmp.direct (cleanPolyline Cmp.direct poly) = cleanPolyline Cmp.direct poly ∧
    cleanPolyline Cmp.direct poly = removeCollinearPolyline Cmp.direct poly := by
  have h1 := (C27_polyline_partial poly h).2
  have h2 : coalescePolyline Cmp.direct (removeCollinearPolyline Cmp.direct poly) =
      removeCollinearPolyline Cmp.direct poly := by
    by_cases h3 : 3 ≤ (removeCollinearPolyline Cmp.direct poly).length
    · exact coalesce_of_chain _ (chain_of_corners _ h3 h1)
    · match hr : removeCollinearPolyline Cmp.direct poly, h3 with
      | [], _ => rfl
      | [_], _ => rfl
      | [_, _], _ => rfl
      | _ :: _ :: _ :: _, h3 => simp at h3
  have h3 : cleanPolyline Cmp.direct poly = removeCollinearPolyline Cmp.direct poly := h2
  refine ⟨?_, h3⟩
  rw [h3]
  unfold cleanPolyline
  rw [removePolyline_of_corners _ h1, h2]

/-- Cleaning the polyline with a spike a second time removes another point. -/
theorem C27_clean_refuted :
    cleanPolyline Cmp.direct [(⟨0, 0⟩ : P2 ℚ), ⟨1, 0⟩, ⟨1, 1⟩, ⟨1, 0⟩, ⟨2, 0⟩] =
      [⟨0, 0⟩, ⟨1, 0⟩, ⟨2, 0⟩] ∧
    cleanPolyline Cmp.direct (cleanPolyline Cmp.direct
      [(⟨0, 0⟩ : P2 ℚ), ⟨1, 0⟩, ⟨1, 1⟩, ⟨1, 0⟩, ⟨2, 0⟩]) = [⟨0, 0⟩, ⟨2, 0⟩] := by
  decide +kernel

/-- Of every polygon, with every comparison policy, a subsequence with the same first vertex is left. -/
theorem C27_polygon_subsequence (cmp : Cmp K) (poly : List (P2 K)) :
    (removeCollinearPolygon cmp poly).Sublist poly ∧
    (removeCollinearPolygon cmp poly).head? = poly.head? := by
  match poly with
  | [] => exact ⟨List.Sublist.refl _, rfl⟩
  | [_] => exact ⟨List.Sublist.refl _, rfl⟩
  | [_, _] => exact ⟨List.Sublist.refl _, rfl⟩
  | [_, _, _] => exact ⟨List.Sublist.refl _, rfl⟩
  | a :: b :: c :: d :: rest =>
    refine ⟨removePolygonLoop_sublist cmp a (c :: d :: rest) a b, ?_⟩
    obtain ⟨x, l, h⟩ := removePolygonLoop_cons cmp a (c :: d :: rest) a b
    simp only [removeCollinearPolygon, h, List.head?_cons]

/-- A polygon that never stops nor turns back keeps its boundary, and no three vertices that follow
each other in the result, not counting around its end, are collinear. -/
theorem C27_polygon_curve (poly : List (P2 K)) (h : EveryCyclicTriple Onward poly) :
    SameCurve (OnBoundary (removeCollinearPolygon Cmp.direct poly)) (OnBoundary poly) ∧
    (4 ≤ poly.length →
      EveryTriple (fun A B C => ¬ Collinear A B C) (removeCollinearPolygon Cmp.direct poly)) := by
  match poly, h with
  | [], _ => exact ⟨fun P => Iff.rfl, by simp⟩
  | [_], _ => exact ⟨fun P => Iff.rfl, by simp⟩
  | [_, _], _ => exact ⟨fun P => Iff.rfl, by simp⟩
  | [_, _, _], _ => exact ⟨fun P => Iff.rfl, by simp⟩
  | a :: b :: c :: d :: rest, h =>
    have hon : EveryTriple Onward (a :: b :: (c :: d :: rest ++ [a])) :=
      everyTriple_of_append _ [b] (by simpa [EveryCyclicTriple] using h)
    obtain ⟨h1, ⟨x, l, h2, h3, h4, -⟩, -⟩ :=
      removePolygonLoop_spec a (c :: d :: rest) (by simp) a a b (sameDir_refl _) hon
    rw [removeCollinearPolygon]
    refine ⟨fun P => ?_, fun _ => by rw [h2]; exact h4⟩
    rw [h2] at h1 ⊢
    rw [onBoundary_closed, onBoundary_closed, h1, ← onPolyline_cons]
    simp only [List.cons_append]

/-- Full claim: every polygon vertex that is collinear with its neighbours is removed. Proved for
polygons that never stop nor turn back, whose first vertex is a corner and whose last vertex or last
but one is a corner; without those it is false (`C27_polygon_first_refuted`,
`C27_polygon_last_refuted`). -/
theorem C27_polygon_corners_partial (first second : P2 K) (more : List (P2 K)) (last : P2 K)
    (h : EveryCyclicTriple Onward (first :: second :: more)) (h4 : 2 ≤ more.length)
    (hlast : more.getLast? = some last) (hfirst : ¬ Collinear last first second)
    (hend : ∀ q r s, [q, r, s] <:+ (first :: second :: more) →
      ¬ (Collinear q r s ∧ Collinear r s first)) :
    EveryCyclicTriple (fun A B C => ¬ Collinear A B C)
      (removeCollinearPolygon Cmp.direct (first :: second :: more)) := by
  match more, h4 with
  | c :: d :: rest, _ =>
    have hon : EveryTriple Onward (first :: second :: (c :: d :: rest ++ [first])) :=
      everyTriple_of_append _ [second] (by simpa [EveryCyclicTriple] using h)
    obtain ⟨h1, ⟨x, l, h2, h3, -, h5⟩, z, w, h6, h7, h8⟩ :=
      removePolygonLoop_spec first (c :: d :: rest) (by simp) first first second (sameDir_refl _) hon
    rw [hlast] at h7
    obtain rfl := Option.some.inj h7
    rw [removeCollinearPolygon]
    rw [h2] at h6 ⊢
    have h9 := h5 hend
    refine everyTriple_concat (first :: x :: l) z first x h6 h9 ?_
    show ¬ Collinear z first x
    rwa [← collinear_steps h8 h3]

/-- Under the same conditions cleaning a polygon is idempotent. -/
theorem C27_clean_polygon_partial (first second : P2 K) (more : List (P2 K)) (last : P2 K)
    (h : EveryCyclicTriple Onward (first :: second :: more)) (h4 : 2 ≤ more.length)
    (hlast : more.getLast? = some last) (hfirst : ¬ Collinear last first second)
    (hend : ∀ q r s, [q, r, s] <:+ (first :: second :: more) →
      ¬ (Collinear q r s ∧ Collinear r s first)) :
    cleanPolygon Cmp.direct (first :: second :: more) =
      removeCollinearPolygon Cmp.direct (first :: second :: more) ∧
    cleanPolygon Cmp.direct (cleanPolygon Cmp.direct (first :: second :: more)) =
      cleanPolygon Cmp.direct (first :: second :: more) := by
  have h1 := C27_polygon_corners_partial first second more last h h4 hlast hfirst hend
  have h2 : coalescePolygon Cmp.direct (removeCollinearPolygon Cmp.direct (first :: second :: more)) =
      removeCollinearPolygon Cmp.direct (first :: second :: more) := by
    match hr : removeCollinearPolygon Cmp.direct (first :: second :: more) with
    | [] => rfl
    | [_] => rfl
    | [_, _] => rfl
    | [_, _, _] => rfl
    | p :: q :: r :: s :: l =>
      rw [hr] at h1
      apply coalescePolygon_of_chain
      have h3 : EveryTriple (fun A B C : P2 K => ¬ Collinear A B C) ((p :: q :: r :: s :: l) ++ [p]) :=
        everyTriple_of_append _ [q] (by simpa [EveryCyclicTriple] using h1)
      exact chain_of_corners _ (by simp) h3
  have h3 : cleanPolygon Cmp.direct (first :: second :: more) =
      removeCollinearPolygon Cmp.direct (first :: second :: more) := h2
  refine ⟨h3, ?_⟩
  rw [h3]
  unfold cleanPolygon
  rw [removePolygon_of_corners _ h1, h2]

/-- A square with one extra vertex in the bottom and one in the last side meets the conditions. -/
example : removeCollinearPolygon Cmp.direct
      [(⟨0, 0⟩ : P2 ℚ), ⟨1, 0⟩, ⟨2, 0⟩, ⟨2, 2⟩, ⟨0, 2⟩, ⟨0, 1⟩] =
    [⟨0, 0⟩, ⟨2, 0⟩, ⟨2, 2⟩, ⟨0, 2⟩] := by decide +kernel

example : EveryCyclicTriple Onward [(⟨0, 0⟩ : P2 ℚ), ⟨1, 0⟩, ⟨2, 0⟩, ⟨0, 2⟩] ∧
    ¬ Collinear (⟨0, 2⟩ : P2 ℚ) ⟨0, 0⟩ ⟨1, 0⟩ ∧ ¬ Collinear (⟨2, 0⟩ : P2 ℚ) ⟨0, 2⟩ ⟨0, 0⟩ := by
  refine ⟨⟨⟨by decide, by decide, fun _ => ⟨1 / 2, by norm_num, by norm_num, by ext <;> norm_num⟩⟩,
    ⟨by decide, by decide, fun h => ?_⟩, ⟨by decide, by decide, fun h => ?_⟩,
    ⟨by decide, by decide, fun h => ?_⟩, trivial⟩, ?_, ?_⟩
  all_goals first
    | (norm_num [Collinear, area2] at h)
    | norm_num [Collinear, area2]

/-- The first vertex of a polygon is kept even when it is in the middle of a side. -/
theorem C27_polygon_first_refuted :
    removeCollinearPolygon Cmp.direct [(⟨1, 0⟩ : P2 ℚ), ⟨2, 0⟩, ⟨2, 2⟩, ⟨0, 2⟩, ⟨0, 0⟩] =
      [⟨1, 0⟩, ⟨2, 0⟩, ⟨2, 2⟩, ⟨0, 2⟩, ⟨0, 0⟩] ∧
    Collinear (⟨0, 0⟩ : P2 ℚ) ⟨1, 0⟩ ⟨2, 0⟩ :=
  ⟨by decide +kernel, by norm_num [Collinear, area2]⟩

/-- Of two vertices in the middle of the last side, one is kept. -/
theorem C27_polygon_last_refuted :
    removeCollinearPolygon Cmp.direct
        [(⟨0, 0⟩ : P2 ℚ), ⟨0, 3⟩, ⟨3, 3⟩, ⟨3, 0⟩, ⟨2, 0⟩, ⟨1, 0⟩] =
      [⟨0, 0⟩, ⟨0, 3⟩, ⟨3, 3⟩, ⟨3, 0⟩, ⟨1, 0⟩] ∧
    Collinear (⟨3, 0⟩ : P2 ℚ) ⟨1, 0⟩ ⟨0, 0⟩ :=
  ⟨by decide +kernel, by norm_num [Collinear, area2]⟩

/-- `coalesce_adjacent_points_polygon` can leave a last vertex equal to the first. -/
theorem C27_coalesce_polygon_refuted :
    coalescePolygon Cmp.direct [(⟨0, 0⟩ : P2 ℚ), ⟨1, 0⟩, ⟨0, 0⟩, ⟨0, 0⟩] =
      [⟨0, 0⟩, ⟨1, 0⟩, ⟨0, 0⟩] := by decide +kernel

/-- The positions reported by `identify_adjacent_points_polygon` are exactly those that
`coalesce_adjacent_points_polygon` leaves out. -/
theorem C55_identify_adjacent (cmp : Cmp K) (poly : List (P2 K)) :
    withoutPositions poly (identifyAdjacent cmp poly) = coalescePolygon cmp poly := by
  have hnil : ∀ l : List (P2 K), withoutPositions l [] = l := by
    intro l; simp [withoutPositions, List.zipIdx_map_fst]
  match poly with
  | [] => rfl
  | [_] => exact hnil _
  | [_, _] => exact hnil _
  | [_, _, _] => exact hnil _
  | a :: b :: c :: d :: rest =>
    have h0 : 0 ∉ identifyAdjacent cmp (a :: b :: c :: d :: rest) := fun h => by
      have := identifyAdjacentLoop_ge cmp a (b :: c :: d :: rest) 1 a 0 h; omega
    have := identifyAdjacentLoop_spec cmp a (b :: c :: d :: rest) 1 a
      (identifyAdjacent cmp (a :: b :: c :: d :: rest)) (fun j _ => Iff.rfl)
    rw [coalescePolygon, ← this, withoutPositions, List.zipIdx_cons, List.filter_cons,
      if_pos (by simpa using h0), List.map_cons]

example : identifyAdjacent Cmp.direct [(⟨0, 0⟩ : P2 ℚ), ⟨1, 0⟩, ⟨1, 0⟩, ⟨1, 1⟩, ⟨0, 0⟩] = [2, 4] := by
  decide +kernel

/-- Full claim: leaving out the positions reported by `identify_collinear_points_polygon` gives what
`remove_collinear_points_polygon` returns. Only the number of positions is right; the positions are not
(`C55_identify_collinear_refuted`). -/
theorem C55_identify_collinear_partial (cmp : Cmp K) (poly : List (P2 K)) :
    (identifyCollinear cmp poly).length + (removeCollinearPolygon cmp poly).length = poly.length := by
  match poly with
  | [] => rfl
  | [_] => rfl
  | [_, _] => rfl
  | [_, _, _] => rfl
  | a :: b :: c :: d :: rest => exact identifyCollinearLoop_length cmp a (c :: d :: rest) 2 a b

/-- In the square `(0,0) (2,0) (2,2) (0,2)` with an extra vertex `(1,0)` at position 1, the corner
`(2,0)` at position 2 is reported instead of the extra vertex. -/
theorem C55_identify_collinear_refuted :
    identifyCollinear Cmp.direct [(⟨0, 0⟩ : P2 ℚ), ⟨1, 0⟩, ⟨2, 0⟩, ⟨2, 2⟩, ⟨0, 2⟩] = [2] ∧
    removeCollinearPolygon Cmp.direct [(⟨0, 0⟩ : P2 ℚ), ⟨1, 0⟩, ⟨2, 0⟩, ⟨2, 2⟩, ⟨0, 2⟩] =
      [⟨0, 0⟩, ⟨2, 0⟩, ⟨2, 2⟩, ⟨0, 2⟩] ∧
    withoutPositions [(⟨0, 0⟩ : P2 ℚ), ⟨1, 0⟩, ⟨2, 0⟩, ⟨2, 2⟩, ⟨0, 2⟩] [2] =
      [⟨0, 0⟩, ⟨1, 0⟩, ⟨2, 2⟩, ⟨0, 2⟩] ∧
    ¬ Collinear (⟨1, 0⟩ : P2 ℚ) ⟨2, 0⟩ ⟨2, 2⟩ :=
  ⟨by decide +kernel, by decide +kernel, by decide +kernel, by norm_num [Collinear, area2]⟩

end Geometrix
