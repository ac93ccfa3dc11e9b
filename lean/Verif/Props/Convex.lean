import Verif.Lemmas.Convex

/-!
# C60: points in convex polygons and triangles
-/

set_option linter.unusedSectionVars false

namespace Geometrix

open Spec

variable {K : Type*} [Field K] [LinearOrder K] [IsStrictOrderedRing K]

/-- The bisecting test for a strictly convex counterclockwise polygon ends after at most as many steps
as there are vertices, and succeeds exactly for the points on the left of every side or on one. -/
theorem C60_convex (poly : List (P2 K)) (hc : StrictlyConvex poly) (hn : 2 < poly.length) (p : P2 K)
    (fuel : Nat) (hf : poly.length ≤ fuel) :
    ∃ r, pointInConvex Cmp.direct fuel p poly = .ok r ∧ (r = true ↔ InsideAllSides poly p) :=
  pointInConvex_spec hc hn p hf

example : StrictlyConvex ([⟨0, 0⟩, ⟨2, 0⟩, ⟨3, 1⟩, ⟨2, 2⟩, ⟨0, 2⟩] : List (P2 ℚ)) ∧
    pointInConvex Cmp.direct 5 (⟨5 / 2, 1⟩ : P2 ℚ) [⟨0, 0⟩, ⟨2, 0⟩, ⟨3, 1⟩, ⟨2, 2⟩, ⟨0, 2⟩] = .ok true ∧
    pointInConvex Cmp.direct 5 (⟨3, 2⟩ : P2 ℚ) [⟨0, 0⟩, ⟨2, 0⟩, ⟨3, 1⟩, ⟨2, 2⟩, ⟨0, 2⟩] = .ok false := by
  refine ⟨?_, by decide +kernel, by decide +kernel⟩
  intro i j k a b c hij hjk ha hb hc
  have hk : k < 5 := by
    by_contra h
    rw [List.getElem?_eq_none (by simpa using h)] at hc; simp at hc
  have key : ∀ k < 5, ∀ j < k, ∀ i < j,
      0 < area2 (([⟨0, 0⟩, ⟨2, 0⟩, ⟨3, 1⟩, ⟨2, 2⟩, ⟨0, 2⟩] : List (P2 ℚ)).getD i ⟨0, 0⟩)
        (([⟨0, 0⟩, ⟨2, 0⟩, ⟨3, 1⟩, ⟨2, 2⟩, ⟨0, 2⟩] : List (P2 ℚ)).getD j ⟨0, 0⟩)
        (([⟨0, 0⟩, ⟨2, 0⟩, ⟨3, 1⟩, ⟨2, 2⟩, ⟨0, 2⟩] : List (P2 ℚ)).getD k ⟨0, 0⟩) := by decide +kernel
  have := key k hk j hjk i hij
  simpa [List.getD_eq_getElem?_getD, ha, hb, hc] using this

/-- The test for a strictly convex counterclockwise quadrilateral. -/
theorem C60_quadrilateral (v0 v1 v2 v3 : P2 K) (hc : StrictlyConvex [v0, v1, v2, v3]) (p : P2 K) :
    ∃ r, pointInConvexQuad Cmp.direct p [v0, v1, v2, v3] = .ok r ∧
      (r = true ↔ InsideAllSides [v0, v1, v2, v3] p) :=
  pointInConvexQuad_spec hc p

example : pointInConvexQuad Cmp.direct (⟨1, 1⟩ : P2 ℚ) [⟨0, 0⟩, ⟨2, 0⟩, ⟨2, 2⟩, ⟨0, 2⟩] = .ok true ∧
    pointInConvexQuad Cmp.direct (⟨3, 1⟩ : P2 ℚ) [⟨0, 0⟩, ⟨2, 0⟩, ⟨2, 2⟩, ⟨0, 2⟩] = .ok false := by
  decide +kernel

/-- The test for a counterclockwise triangle of the plane. -/
theorem C60_triangle (A B C p : P2 K) (h : 0 < area2 A B C) :
    pointInTriangle Cmp.direct p A B C = true ↔ InTriangle A B C p := by
  rw [pointInTriangle_iff, inTriangle_iff h]

example : 0 < area2 (⟨0, 0⟩ : P2 ℚ) ⟨2, 0⟩ ⟨0, 2⟩ ∧
    pointInTriangle Cmp.direct (⟨1, 1⟩ : P2 ℚ) ⟨0, 0⟩ ⟨2, 0⟩ ⟨0, 2⟩ = true := by decide +kernel

/-- With a clockwise triangle the test always fails. -/
theorem C60_clockwise_refuted (A B C p : P2 K) (h : area2 A B C < 0) :
    pointInTriangle Cmp.direct p A B C = false := by
  rw [← Bool.not_eq_true, pointInTriangle_iff]
  rintro ⟨h1, h2, h3⟩
  have : area2 A B p + area2 B C p + area2 C A p = area2 A B C := by unfold area2; ring
  linarith

example : area2 (⟨0, 0⟩ : P2 ℚ) ⟨0, 2⟩ ⟨2, 0⟩ < 0 ∧ InTriangle (⟨0, 0⟩ : P2 ℚ) ⟨0, 2⟩ ⟨2, 0⟩ ⟨1, 1⟩ := by
  refine ⟨by decide +kernel, 0, 1 / 2, 1 / 2, by norm_num, by norm_num, by norm_num, by norm_num, ?_⟩
  ext <;> norm_num

/-- The test for a triangle in space, for points of its plane that are not on the line through `B` and
`C`.

Missing from the full statement (*it succeeds exactly for the points of the triangle*): the points on
that line and the points off the plane, see `C60_line_refuted` and `C60_plane_refuted`. -/
theorem C60_triangle_space_partial (A B C p : P3 K) (hn : cross3 (B - A) (C - A) ≠ 0)
    (hp : InPlane3 A B C p) (hl : ¬ OnLine3 B C p) :
    pointInTriangle3 Cmp.direct p A B C = true ↔ InTriangle3 A B C p :=
  pointInTriangle3_iff hn hp hl

example : cross3 ((⟨2, 0, 1⟩ : P3 ℚ) - ⟨0, 0, 1⟩) (⟨0, 2, 1⟩ - ⟨0, 0, 1⟩) ≠ 0 ∧
    InPlane3 (⟨0, 0, 1⟩ : P3 ℚ) ⟨2, 0, 1⟩ ⟨0, 2, 1⟩ ⟨1 / 2, 1 / 2, 1⟩ ∧
    pointInTriangle3 Cmp.direct (⟨1 / 2, 1 / 2, 1⟩ : P3 ℚ) ⟨0, 0, 1⟩ ⟨2, 0, 1⟩ ⟨0, 2, 1⟩ = true := by
  refine ⟨by decide +kernel, ⟨1 / 2, 1 / 4, 1 / 4, by norm_num, by ext <;> norm_num⟩, by decide +kernel⟩

/-- On the line through `B` and `C` the test in space succeeds also outside of the triangle. -/
theorem C60_line_refuted (A B C p : P3 K) (hl : OnLine3 B C p) :
    pointInTriangle3 Cmp.direct p A B C = true := pointInTriangle3_line hl

example : OnLine3 (⟨2, 0, 0⟩ : P3 ℚ) ⟨0, 2, 0⟩ ⟨-8, 10, 0⟩ ∧
    ¬ InTriangle3 (⟨0, 0, 0⟩ : P3 ℚ) ⟨2, 0, 0⟩ ⟨0, 2, 0⟩ ⟨-8, 10, 0⟩ := by
  refine ⟨⟨5, by ext <;> norm_num⟩, ?_⟩
  rintro ⟨a, b, c, ha, hb, hc, hs, hp⟩
  have := congrArg P3.x hp
  simp at this
  linarith

/-- The test in space succeeds for points off the plane of the triangle. -/
theorem C60_plane_refuted : ∃ A B C p : P3 ℚ, pointInTriangle3 Cmp.direct p A B C = true ∧
    ¬ OnLine3 B C p ∧ ¬ InTriangle3 A B C p := by
  refine ⟨⟨0, 0, 0⟩, ⟨3, 0, 0⟩, ⟨0, 3, 0⟩, ⟨1, 1, 1 / 2⟩, by decide +kernel, ?_, ?_⟩
  · rintro ⟨t, h⟩
    have := congrArg P3.z h
    simp at this
  · rintro ⟨a, b, c, ha, hb, hc, hs, hp⟩
    have := congrArg P3.z hp
    simp at this

/-- The preconditions: at least three vertices, exactly four vertices. -/
theorem C60_preconditions (p : P2 K) (poly : List (P2 K)) (fuel : Nat) :
    (poly.length ≤ 2 → pointInConvex Cmp.direct fuel p poly = .error .assertFailed) ∧
    (poly.length ≠ 4 → pointInConvexQuad Cmp.direct p poly = .error .assertFailed) := by
  constructor
  · intro h
    unfold pointInConvex
    rw [if_pos (by omega)]
  · intro h
    match poly, h with
    | [], _ => rfl
    | [_], _ => rfl
    | [_, _], _ => rfl
    | [_, _, _], _ => rfl
    | [_, _, _, _], h => exact absurd rfl h
    | _ :: _ :: _ :: _ :: _ :: _, _ => rfl

end Geometrix
