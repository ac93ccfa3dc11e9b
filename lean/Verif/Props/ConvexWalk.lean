import Verif.Lemmas.ConvexTouch

/-!
# C93: the intersection of two convex polygons
-/

set_option linter.unusedSectionVars false

namespace Geometrix

open Spec

variable {K : Type*} [Field K] [LinearOrder K] [IsStrictOrderedRing K]

/-- The walk around any two polygons that are not empty ends: `4 (n + m)` turns suffice, and more change nothing. The
function then returns, or an assertion fails, or (only if the first polygon has fewer points than the second) a
point past the end of the first polygon is read. -/
theorem C93_total (p q : List (P2 K)) (hp : p ≠ []) (hq : q ≠ []) : ∃ r,
    (∀ fuel, 4 * (p.length + q.length) ≤ fuel → convexPolyPoly Cmp.direct fuel p q = r) ∧
    ((∃ v, r = .ok v) ∨ r = .error .assertFailed ∨ (r = .error .outOfRange ∧ p.length < q.length)) := by
  have np := List.length_pos_iff.2 hp
  have nq := List.length_pos_iff.2 hq
  obtain ⟨r, h1, h2⟩ := travLoop_total p q (4 * (p.length + q.length)) ⟨0, 0, 0, 0, .unknown, 0, []⟩ np nq
    (by simp only; omega) (by simp only; omega) (by unfold Trav.left; simp; omega)
  refine ⟨r, fun fuel hf => ?_, h2⟩
  unfold convexPolyPoly
  rw [if_neg (by omega)]
  exact h1 fuel hf

example : convexPolyPoly Cmp.direct 28 ([⟨0, 0⟩, ⟨4, 0⟩, ⟨4, 4⟩, ⟨0, 4⟩] : List (P2 ℚ)) [⟨2, 2⟩, ⟨7, 2⟩, ⟨2, 7⟩] =
    .ok (.overlapping, [⟨4, 2⟩, ⟨4, 4⟩, ⟨2, 4⟩, ⟨2, 2⟩]) := by decide +kernel

/-- An empty polygon is a division by zero. -/
theorem C93_preconditions (p q : List (P2 K)) (h : p = [] ∨ q = []) (fuel : Nat) :
    convexPolyPoly Cmp.direct fuel p q = .error .divByZero := by
  unfold convexPolyPoly
  rw [if_pos]
  rcases h with rfl | rfl <;> simp

/-- What the answer says about two strictly convex polygons is true: any answer but `none` means that they have a
common point; `face` means that their common part is the segment between the last two points given; every other
point given to the visitor is on both borders or a vertex of one of the polygons.

Missing: that common points of the borders are always found, and that the points visited are exactly the
vertices of the common part, which `C93_crossing` shows if no vertex of one polygon is on the border of the other;
`C93_sides_cross` covers all positions in which sides cross, and `C93_touching` those in which vertices and sides touch. -/
theorem C93_answer_partial (p q : List (P2 K)) (np : 2 < p.length) (nq : 2 < q.length) (hp : StrictlyConvex p)
    (hq : StrictlyConvex q) (fuel : Nat) (ty : PolyType) (out : List (P2 K))
    (h : convexPolyPoly Cmp.direct fuel p q = .ok (ty, out)) :
    (ty ≠ .none → ∃ X, InsideAllSides p X ∧ InsideAllSides q X) ∧
    (ty = .face → ∃ l x y, out = l ++ [x, y] ∧ ∀ X, (InsideAllSides p X ∧ InsideAllSides q X) ↔ OnSegment x y X) ∧
    (ty ≠ .face → ∀ X ∈ out, (OnBoundary p X ∧ OnBoundary q X) ∨ X ∈ p ∨ X ∈ q) := by
  unfold convexPolyPoly at h
  rw [if_neg (by omega)] at h
  rcases walk_ends np nq hp hq fuel _ (sound_start (by omega) (by omega)) with
    h1 | ⟨l, x, y, h1, h2, -, h3⟩ | ⟨h1, h2⟩ | ⟨s, h1, h2, h3⟩
  · rw [h1] at h
    cases h
  · rw [h1] at h
    cases h
    exact ⟨fun _ => ⟨x, (h2 x).2 (onSegment_left _ _)⟩, fun _ => ⟨l, x, y, rfl, h2⟩, fun h => absurd rfl h⟩
  · rw [h1] at h
    cases h
    exact ⟨fun h => absurd rfl h, nofun, fun _ X hX => by cases hX⟩
  · rw [h1] at h
    exact travEnd_answer np nq hp hq h2 h

/-- If the borders of two strictly convex polygons meet and no vertex of one is on the border of the other, the answer
is `overlapping` and the visitor gets each vertex of the common part once, and nothing else: the common points
of the borders, the vertices of the first polygon inside the second, and those of the second inside the first. -/
theorem C93_crossing (p q : List (P2 K)) (np : 2 < p.length) (nq : 2 < q.length) (hp : StrictlyConvex p)
    (hq : StrictlyConvex q) (offP : ∀ v ∈ p, ¬ OnBoundary q v) (offQ : ∀ v ∈ q, ¬ OnBoundary p v)
    (hb : ∃ X, OnBoundary p X ∧ OnBoundary q X) (fuel : Nat) (hf : 4 * (p.length + q.length) ≤ fuel) :
    ∃ out, convexPolyPoly Cmp.direct fuel p q = .ok (.overlapping, out) ∧ out.Nodup ∧
      ∀ X, X ∈ out ↔ (OnBoundary p X ∧ OnBoundary q X) ∨ (X ∈ p ∧ InsideAllSides q X) ∨
        (X ∈ q ∧ InsideAllSides p X) :=
  walk_crossing np nq hp hq offP offQ hb hf

example : convexPolyPoly Cmp.direct 28 ([⟨0, 0⟩, ⟨4, 0⟩, ⟨4, 4⟩, ⟨0, 4⟩] : List (P2 ℚ)) [⟨2, 2⟩, ⟨7, 2⟩, ⟨2, 7⟩] =
    .ok (.overlapping, [⟨4, 2⟩, ⟨4, 4⟩, ⟨2, 4⟩, ⟨2, 2⟩]) := by decide +kernel

example : StrictlyConvex ([⟨0, 0⟩, ⟨6, 0⟩, ⟨0, 6⟩] : List (P2 ℚ)) ∧ StrictlyConvex ([⟨1, 1⟩, ⟨7, 1⟩, ⟨1, 7⟩] : List (P2 ℚ)) ∧
    (∀ v ∈ ([⟨0, 0⟩, ⟨6, 0⟩, ⟨0, 6⟩] : List (P2 ℚ)), ¬ OnBoundary ([⟨1, 1⟩, ⟨7, 1⟩, ⟨1, 7⟩] : List (P2 ℚ)) v) ∧
    (∀ v ∈ ([⟨1, 1⟩, ⟨7, 1⟩, ⟨1, 7⟩] : List (P2 ℚ)), ¬ OnBoundary ([⟨0, 0⟩, ⟨6, 0⟩, ⟨0, 6⟩] : List (P2 ℚ)) v) ∧
    ∃ X, OnBoundary ([⟨0, 0⟩, ⟨6, 0⟩, ⟨0, 6⟩] : List (P2 ℚ)) X ∧ OnBoundary ([⟨1, 1⟩, ⟨7, 1⟩, ⟨1, 7⟩] : List (P2 ℚ)) X := by
  refine ⟨strictlyConvex_triangle (by decide +kernel), strictlyConvex_triangle (by decide +kernel), ?_, ?_, ⟨5, 1⟩, ?_, ?_⟩
  · exact off_border (by decide +kernel)
  · exact off_border (by decide +kernel)
  · exact (onBoundary_iff_sides _ _).2 ⟨(⟨6, 0⟩, ⟨0, 6⟩), by decide +kernel, 1 / 6, by norm_num, by norm_num, by ext <;> norm_num⟩
  · exact (onBoundary_iff_sides _ _).2 ⟨(⟨1, 1⟩, ⟨7, 1⟩), by decide +kernel, 2 / 3, by norm_num, by norm_num, by ext <;> norm_num⟩

/-- If a side of one strictly convex polygon crosses a side of the other, wherever the vertices are, the answer is
`overlapping`, the visitor gets every point where sides cross, and all it gets are common points of the borders and vertices. -/
theorem C93_sides_cross (p q : List (P2 K)) (np : 2 < p.length) (nq : 2 < q.length) (hp : StrictlyConvex p)
    (hq : StrictlyConvex q) (hX : ∃ X, SidesCross p q X) (fuel : Nat) (hf : 4 * (p.length + q.length) ≤ fuel) :
    ∃ out, convexPolyPoly Cmp.direct fuel p q = .ok (.overlapping, out) ∧ (∀ X, SidesCross p q X → X ∈ out) ∧
      ∀ X ∈ out, (OnBoundary p X ∧ OnBoundary q X) ∨ X ∈ p ∨ X ∈ q := by
  obtain ⟨out, h1, h2⟩ := walk_proper np nq hp hq hX hf
  exact ⟨out, h1, h2, (C93_answer_partial p q np nq hp hq fuel _ out h1).2.2 (by decide)⟩

example : StrictlyConvex ([⟨0, 0⟩, ⟨6, 0⟩, ⟨0, 6⟩] : List (P2 ℚ)) ∧ StrictlyConvex ([⟨3, -1⟩, ⟨6, 0⟩, ⟨3, 3⟩] : List (P2 ℚ)) ∧
    SidesCross ([⟨0, 0⟩, ⟨6, 0⟩, ⟨0, 6⟩] : List (P2 ℚ)) [⟨3, -1⟩, ⟨6, 0⟩, ⟨3, 3⟩] ⟨3, 0⟩ := by
  refine ⟨strictlyConvex_triangle (by decide +kernel), strictlyConvex_triangle (by decide +kernel), 0, 2, ⟨0, 0⟩, ⟨6, 0⟩, ⟨3, 3⟩,
    ⟨3, -1⟩, 1 / 2, 3 / 4, ⟨by decide +kernel, by decide +kernel⟩, ⟨by decide +kernel, by decide +kernel⟩, ?_⟩
  unfold area2
  decide +kernel

example : convexPolyPoly Cmp.direct 24 ([⟨0, 0⟩, ⟨6, 0⟩, ⟨0, 6⟩] : List (P2 ℚ)) [⟨3, -1⟩, ⟨6, 0⟩, ⟨3, 3⟩] =
    .ok (.overlapping, [⟨3, 0⟩, ⟨6, 0⟩, ⟨6, 0⟩, ⟨3, 3⟩]) := by decide +kernel

/-- If the borders of two strictly convex polygons that have a common point inside meet, with vertices on sides or on
vertices as they may, but not along parallel sides, then the answer is `overlapping`, the visitor gets every common point
of the borders, and all it gets are these points and vertices. -/
theorem C93_touching (p q : List (P2 K)) (np : 2 < p.length) (nq : 2 < q.length) (hp : StrictlyConvex p)
    (hq : StrictlyConvex q) (hW : ∃ W, (∀ e ∈ sides p, 0 < area2 e.1 e.2 W) ∧ ∀ e ∈ sides q, 0 < area2 e.1 e.2 W)
    (hskew : ∀ e ∈ sides p, ∀ g ∈ sides q, (∃ X, OnSegment e.1 e.2 X ∧ OnSegment g.1 g.2 X) →
      (e.2.x - e.1.x) * (g.2.y - g.1.y) ≠ (e.2.y - e.1.y) * (g.2.x - g.1.x))
    (hX : ∃ X, OnBoundary p X ∧ OnBoundary q X) (fuel : Nat) (hf : 4 * (p.length + q.length) ≤ fuel) :
    ∃ out, convexPolyPoly Cmp.direct fuel p q = .ok (.overlapping, out) ∧
      (∀ X, OnBoundary p X → OnBoundary q X → X ∈ out) ∧
      ∀ X ∈ out, (OnBoundary p X ∧ OnBoundary q X) ∨ X ∈ p ∨ X ∈ q := by
  obtain ⟨out, h1, h2⟩ := walk_touch np nq hp hq hW (fun e he g hg hX => by
    have := hskew e he g hg hX
    unfold cross
    simp only [P2.sub_x, P2.sub_y]
    exact fun h => this (by linarith)) hX hf
  exact ⟨out, h1, h2, (C93_answer_partial p q np nq hp hq fuel _ out h1).2.2 (by decide)⟩

example : StrictlyConvex ([⟨0, 0⟩, ⟨6, 0⟩, ⟨0, 6⟩] : List (P2 ℚ)) ∧ StrictlyConvex ([⟨1, 0⟩, ⟨4, 2⟩, ⟨1, 4⟩] : List (P2 ℚ)) ∧
    (∃ W, (∀ e ∈ sides ([⟨0, 0⟩, ⟨6, 0⟩, ⟨0, 6⟩] : List (P2 ℚ)), 0 < area2 e.1 e.2 W) ∧
      ∀ e ∈ sides ([⟨1, 0⟩, ⟨4, 2⟩, ⟨1, 4⟩] : List (P2 ℚ)), 0 < area2 e.1 e.2 W) ∧
    (∀ e ∈ sides ([⟨0, 0⟩, ⟨6, 0⟩, ⟨0, 6⟩] : List (P2 ℚ)), ∀ g ∈ sides ([⟨1, 0⟩, ⟨4, 2⟩, ⟨1, 4⟩] : List (P2 ℚ)),
      (∃ X, OnSegment e.1 e.2 X ∧ OnSegment g.1 g.2 X) →
      (e.2.x - e.1.x) * (g.2.y - g.1.y) ≠ (e.2.y - e.1.y) * (g.2.x - g.1.x)) ∧
    ∃ X, OnBoundary ([⟨0, 0⟩, ⟨6, 0⟩, ⟨0, 6⟩] : List (P2 ℚ)) X ∧ OnBoundary ([⟨1, 0⟩, ⟨4, 2⟩, ⟨1, 4⟩] : List (P2 ℚ)) X := by
  refine ⟨strictlyConvex_triangle (by decide +kernel), strictlyConvex_triangle (by decide +kernel), ⟨⟨2, 2⟩, ?_, ?_⟩, ?_, ⟨1, 0⟩, ?_, ?_⟩
  · unfold area2; decide +kernel
  · unfold area2; decide +kernel
  · have key : ∀ e ∈ sides ([⟨0, 0⟩, ⟨6, 0⟩, ⟨0, 6⟩] : List (P2 ℚ)), ∀ g ∈ sides ([⟨1, 0⟩, ⟨4, 2⟩, ⟨1, 4⟩] : List (P2 ℚ)),
        (e.2.x - e.1.x) * (g.2.y - g.1.y) = (e.2.y - e.1.y) * (g.2.x - g.1.x) → e.1.x = 0 ∧ e.2.x = 0 ∧ g.1.x = 1 ∧ g.2.x = 1 := by
      decide +kernel
    rintro e he g hg ⟨X, ⟨s, -, -, hs⟩, ⟨t, -, -, ht⟩⟩ h
    obtain ⟨k1, k2, k3, k4⟩ := key e he g hg h
    have h1 := congrArg P2.x hs
    have h2 := congrArg P2.x ht
    simp only [P2.add_x, P2.smul_x, P2.sub_x, k1, k2, k3, k4] at h1 h2
    linarith
  · exact (onBoundary_iff_sides _ _).2 ⟨(⟨0, 0⟩, ⟨6, 0⟩), by decide +kernel, 1 / 6, by norm_num, by norm_num, by ext <;> norm_num⟩
  · exact (onBoundary_iff_sides _ _).2 ⟨(⟨1, 0⟩, ⟨4, 2⟩), by decide +kernel, 0, by norm_num, by norm_num, by ext <;> norm_num⟩

example : convexPolyPoly Cmp.direct 24 ([⟨0, 0⟩, ⟨6, 0⟩, ⟨0, 6⟩] : List (P2 ℚ)) [⟨1, 0⟩, ⟨4, 2⟩, ⟨1, 4⟩] =
    .ok (.overlapping, [⟨1, 0⟩, ⟨1, 0⟩, ⟨4, 2⟩, ⟨4, 2⟩, ⟨1, 4⟩]) := by decide +kernel

/-- If the borders of two strictly convex polygons have no common point, the answer is right in these cases: the
polygons are disjoint; the second is inside the first; the first is inside the second and they have equally many
vertices.

Missing: the first polygon inside the second with another number of vertices, where it fails. -/
theorem C93_apart_partial (p q : List (P2 K)) (np : 2 < p.length) (nq : 2 < q.length) (hp : StrictlyConvex p)
    (hq : StrictlyConvex q) (hb : ¬ ∃ X, OnBoundary p X ∧ OnBoundary q X) (fuel : Nat)
    (hf : 4 * (p.length + q.length) ≤ fuel) :
    ((¬ ∃ X, InsideAllSides p X ∧ InsideAllSides q X) → convexPolyPoly Cmp.direct fuel p q = .ok (.none, [])) ∧
    ((∀ v ∈ q, InsideAllSides p v) → convexPolyPoly Cmp.direct fuel p q = .ok (.overlapping, q)) ∧
    (p.length = q.length → (∀ v ∈ p, InsideAllSides q v) →
      convexPolyPoly Cmp.direct fuel p q = .ok (.overlapping, p)) := by
  obtain ⟨h1, h2, h3⟩ := walk_apart np nq hp hq hb hf
  refine ⟨h1, h2, fun e h => ?_⟩
  rw [h3 h, if_pos e.ge, ← e, List.take_length]

example : convexPolyPoly Cmp.direct 24 ([⟨0, 0⟩, ⟨9, 0⟩, ⟨0, 9⟩] : List (P2 ℚ)) [⟨1, 1⟩, ⟨2, 1⟩, ⟨1, 2⟩] =
      .ok (.overlapping, [⟨1, 1⟩, ⟨2, 1⟩, ⟨1, 2⟩]) ∧
    convexPolyPoly Cmp.direct 24 ([⟨1, 1⟩, ⟨2, 1⟩, ⟨1, 2⟩] : List (P2 ℚ)) [⟨0, 0⟩, ⟨9, 0⟩, ⟨0, 9⟩] =
      .ok (.overlapping, [⟨1, 1⟩, ⟨2, 1⟩, ⟨1, 2⟩]) ∧
    convexPolyPoly Cmp.direct 24 ([⟨11, 1⟩, ⟨12, 1⟩, ⟨11, 2⟩] : List (P2 ℚ)) [⟨0, 0⟩, ⟨9, 0⟩, ⟨0, 9⟩] =
      .ok (.none, []) := by decide +kernel

example : StrictlyConvex ([⟨0, 0⟩, ⟨9, 0⟩, ⟨0, 9⟩] : List (P2 ℚ)) ∧
    StrictlyConvex ([⟨1, 1⟩, ⟨2, 1⟩, ⟨1, 2⟩] : List (P2 ℚ)) ∧
    ∀ v ∈ ([⟨1, 1⟩, ⟨2, 1⟩, ⟨1, 2⟩] : List (P2 ℚ)), InsideAllSides ([⟨0, 0⟩, ⟨9, 0⟩, ⟨0, 9⟩] : List (P2 ℚ)) v := by
  refine ⟨?_, ?_, ?_⟩
  · exact strictlyConvex_triangle (by decide +kernel)
  · exact strictlyConvex_triangle (by decide +kernel)
  · unfold InsideAllSides
    decide +kernel

/-- A vertex of the common part can be visited twice: here the corner of the square on a side of the triangle. -/
theorem C93_repeat_refuted : convexPolyPoly Cmp.direct 28 ([⟨0, 0⟩, ⟨4, 0⟩, ⟨4, 4⟩, ⟨0, 4⟩] : List (P2 ℚ))
    [⟨2, 2⟩, ⟨6, 2⟩, ⟨2, 6⟩] = .ok (.overlapping, [⟨4, 2⟩, ⟨4, 4⟩, ⟨4, 4⟩, ⟨2, 4⟩, ⟨2, 2⟩]) := by decide +kernel

/-- With the first polygon inside the second the function stops at the number of vertices of the second: it leaves out
the rest of the first polygon, or reads past its end. -/
theorem C93_inside_refuted (p q : List (P2 K)) (np : 2 < p.length) (nq : 2 < q.length) (hp : StrictlyConvex p)
    (hq : StrictlyConvex q) (hb : ¬ ∃ X, OnBoundary p X ∧ OnBoundary q X) (hin : ∀ v ∈ p, InsideAllSides q v)
    (fuel : Nat) (hf : 4 * (p.length + q.length) ≤ fuel) :
    (q.length < p.length → convexPolyPoly Cmp.direct fuel p q = .ok (.overlapping, p.take q.length)) ∧
    (p.length < q.length → convexPolyPoly Cmp.direct fuel p q = .error .outOfRange) := by
  obtain ⟨-, -, h3⟩ := walk_apart np nq hp hq hb hf
  refine ⟨fun h => ?_, fun h => ?_⟩
  · rw [h3 hin, if_pos h.le]
  · rw [h3 hin, if_neg (by omega)]

example : convexPolyPoly Cmp.direct 28 ([⟨1, 2⟩, ⟨3, 1⟩, ⟨3, 2⟩, ⟨1, 4⟩] : List (P2 ℚ)) [⟨0, 0⟩, ⟨6, 1⟩, ⟨0, 6⟩] =
      .ok (.overlapping, [⟨1, 2⟩, ⟨3, 1⟩, ⟨3, 2⟩]) ∧
    convexPolyPoly Cmp.direct 28 ([⟨3, 2⟩, ⟨1, 3⟩, ⟨3, 1⟩] : List (P2 ℚ)) [⟨0, 3⟩, ⟨0, 2⟩, ⟨4, 0⟩, ⟨3, 4⟩] =
      .error .outOfRange := by decide +kernel

end Geometrix
