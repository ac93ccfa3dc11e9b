import Verif.Lemmas.PolygonContainment
import Verif.Lemmas.PolylineDistance
import Verif.Props.PolygonSimple

/-!
# C75: polylines and polygons inside a polygon
-/

set_option linter.unusedSectionVars false

namespace Geometrix

open Spec

variable {K : Type*} [Field K] [LinearOrder K] [IsStrictOrderedRing K]

/-- C75, `segment_projects_outside_polygon` for a simple polygon: the answer is true exactly if the segment reaches
the border and some point of it is outside. A segment that is entirely outside gives false. -/
theorem C75_segment (eps : K) (A B : P2 K) (poly : List (P2 K)) (hl : 2 < poly.length) (hp : ProperPolygon poly)
    (hs : SimplePolygon poly) (hAB : A ≠ B) :
    ∃ b, projectsOutside Cmp.direct eps A B poly = .ok b ∧
      (b = true ↔ (∃ X, OnSegment A B X ∧ OnBoundary poly X) ∧ ∃ X, OnSegment A B X ∧ ¬ InClosed poly X) :=
  projectsOutside_iff eps hl hp hs hAB

/-- The hypotheses hold for a polygon that is not convex. -/
example : let poly : List (P2 ℚ) := [⟨0, 0⟩, ⟨6, 0⟩, ⟨6, 6⟩, ⟨3, 2⟩, ⟨0, 6⟩]
    ProperPolygon poly ∧ SimplePolygon poly ∧ 2 < poly.length := by
  intro poly
  have hp : ProperPolygon poly := by
    rintro (_ | _ | _ | _ | _ | i) A B ⟨h1, h2⟩ <;> simp [poly] at h1 h2
    all_goals subst h1; subst h2; decide +kernel
  obtain ⟨b, h1, h2⟩ := C47_simple_partial poly hp (by decide)
  have : isPolygonSimple Cmp.direct poly = .ok true := by decide +kernel
  rw [this] at h1
  exact ⟨hp, h2.1 (Except.ok.inj h1).symm, by decide⟩

/-- Between two vertices across the notch; along a side; and entirely outside. -/
example : let poly : List (P2 ℚ) := [⟨0, 0⟩, ⟨6, 0⟩, ⟨6, 6⟩, ⟨3, 2⟩, ⟨0, 6⟩]
    projectsOutside Cmp.direct 0 ⟨6, 6⟩ ⟨0, 6⟩ poly = .ok true ∧
      projectsOutside Cmp.direct 0 ⟨0, 0⟩ ⟨6, 0⟩ poly = .ok false ∧
      projectsOutside Cmp.direct 0 ⟨0, 7⟩ ⟨6, 7⟩ poly = .ok false := by decide +kernel

/-- C75 for a polyline: the answer is true exactly if the polyline has a vertex and all its points belong to the
polygon, the border included. -/
theorem C75_polyline (eps : K) (pline pgon : List (P2 K)) (hl : 2 < pgon.length) (hp : ProperPolygon pgon)
    (hs : SimplePolygon pgon) (hpl : ProperEdges pline) :
    ∃ b, polygonPolylineContainment Cmp.direct eps pline pgon = .ok b ∧
      (b = true ↔ pline ≠ [] ∧ (∀ v ∈ pline, InClosed pgon v) ∧ ∀ X, OnPolyline pline X → InClosed pgon X) := by
  obtain ⟨b, h1, h2⟩ := containedBy_iff eps hl hp hs pline (openEdges pline) (fun e he => by
    obtain ⟨i, hi⟩ := (mem_openEdges_iff pline e).1 he
    exact hpl i _ _ hi)
  refine ⟨b, by rw [polygonPolylineContainment, if_neg (by omega), h1], h2.trans ?_⟩
  constructor
  · rintro ⟨⟨v, hv, hi⟩, h⟩
    have hall : ∀ w ∈ pline, InClosed pgon w := fun w hw =>
      chain_const pline (fun e he X Y hX hY => edge_const (h e he) hX hY) hv hw hi
    refine ⟨fun h0 => by rw [h0] at hv; simp at hv, hall, ?_⟩
    rintro X ⟨i, C, D, hi, hX⟩
    exact edge_const (h (C, D) ((mem_openEdges_iff pline (C, D)).2 ⟨i, hi⟩)) (onSegment_left C D) hX
      (hall C (List.mem_of_getElem? hi.1))
  · rintro ⟨h0, hv, h⟩
    obtain ⟨v, hv'⟩ := List.exists_mem_of_ne_nil _ h0
    refine ⟨⟨v, hv', hv v hv'⟩, fun e he _ X hX => h X ?_⟩
    obtain ⟨i, hi⟩ := (mem_openEdges_iff pline e).1 he
    exact ⟨i, _, _, hi, hX⟩

/-- A polyline whose vertices are all inside but which leaves the polygon, and one that follows the border. -/
example : let poly : List (P2 ℚ) := [⟨0, 0⟩, ⟨6, 0⟩, ⟨6, 6⟩, ⟨3, 2⟩, ⟨0, 6⟩]
    polygonPolylineContainment Cmp.direct 0 [⟨1, 1⟩, ⟨0, 6⟩, ⟨6, 6⟩, ⟨5, 1⟩] poly = .ok false ∧
      polygonPolylineContainment Cmp.direct 0 [⟨1, 1⟩, ⟨0, 6⟩, ⟨3, 2⟩, ⟨6, 6⟩, ⟨5, 1⟩] poly = .ok true ∧
      polygonPolylineContainment Cmp.direct 0 [] poly = .ok false := by decide +kernel

/-- C75 for a polygon: the answer is true exactly if all points of the border of the first polygon belong to the second
one, its border included. The first polygon need not be simple. -/
theorem C75_polygon (eps : K) (polygon1 polygon2 : List (P2 K)) (hl1 : 2 < polygon1.length) (hl : 2 < polygon2.length)
    (hp1 : ProperPolygon polygon1) (hp : ProperPolygon polygon2) (hs : SimplePolygon polygon2) :
    ∃ b, polygonPolygonContainment Cmp.direct eps polygon1 polygon2 = .ok b ∧
      (b = true ↔ ∀ X, OnBoundary polygon1 X → InClosed polygon2 X) := by
  obtain ⟨b, h1, h2⟩ := containedBy_iff eps hl hp hs polygon1 (ringEdges polygon1) (fun e he => sides_proper hp1 he)
  refine ⟨b, by rw [polygonPolygonContainment, if_neg (by omega), if_neg (by omega), h1], h2.trans ?_⟩
  have hsub : ∀ e ∈ openEdges polygon1, e ∈ ringEdges polygon1 := by
    intro e he
    obtain ⟨i, hi⟩ := (mem_openEdges_iff polygon1 e).1 he
    refine (mem_sides_iff polygon1 e).2 ⟨i, hi.1, ?_⟩
    have : i + 1 < polygon1.length := (List.getElem?_eq_some_iff.1 hi.2).1
    rw [Nat.mod_eq_of_lt this]; exact hi.2
  constructor
  · rintro ⟨⟨v, hv, hi⟩, h⟩ X hX
    obtain ⟨e, he, hX⟩ := (onBoundary_iff_sides polygon1 X).1 hX
    obtain ⟨i, hi'⟩ := (mem_sides_iff polygon1 e).1 he
    exact edge_const (h e he) (onSegment_left _ _) hX
      (chain_const polygon1 (fun e he X Y hX hY => edge_const (h e (hsub e he)) hX hY) hv
        (List.mem_of_getElem? hi'.1) hi)
  · intro h
    obtain ⟨v, hv⟩ := List.exists_mem_of_ne_nil polygon1 (by rintro rfl; simp at hl1)
    exact ⟨⟨v, hv, h v (vertex_onBoundary hv)⟩, fun e he _ X hX => h X
      ((onBoundary_iff_sides polygon1 X).2 ⟨e, he, hX⟩)⟩

example : let poly : List (P2 ℚ) := [⟨0, 0⟩, ⟨6, 0⟩, ⟨6, 6⟩, ⟨3, 2⟩, ⟨0, 6⟩]
    polygonPolygonContainment Cmp.direct 0 [⟨0, 0⟩, ⟨6, 0⟩, ⟨3, 2⟩] poly = .ok true ∧
      polygonPolygonContainment Cmp.direct 0 [⟨0, 0⟩, ⟨6, 6⟩, ⟨0, 6⟩] poly = .ok false ∧
      polygonPolygonContainment Cmp.direct 0 poly [⟨0, 0⟩, ⟨6, 0⟩, ⟨6, 6⟩, ⟨0, 6⟩] = .ok true := by decide +kernel

/-- C75: polygons with fewer than three vertices violate the precondition. -/
theorem C75_short (cmp : Cmp K) (eps : K) (p q : List (P2 K)) (h : q.length ≤ 2) :
    polygonPolylineContainment cmp eps p q = .error .assertFailed ∧
      polygonPolygonContainment cmp eps p q = .error .assertFailed ∧
      polygonPolygonContainment cmp eps q p = .error .assertFailed := by
  refine ⟨if_pos (by omega), ?_, if_pos (by omega)⟩
  unfold polygonPolygonContainment
  split_ifs <;> first | rfl | omega

example : ([⟨0, 0⟩, ⟨1, 0⟩] : List (P2 ℚ)).length ≤ 2 := by decide

end Geometrix
