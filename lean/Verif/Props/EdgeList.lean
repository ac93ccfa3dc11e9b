import Verif.Lemmas.EdgeList

/-!
# C111: segments linked to polylines and polygons by a list of half edges
-/

set_option linter.unusedSectionVars false

namespace Geometrix

open Spec

variable {K : Type*} [Field K] [LinearOrder K] [IsStrictOrderedRing K]

/-- `make_dcel`: the segments are the edges of the polylines and the sides of the polygons, and no point is in two of them,
or twice in one. Wanted: this for all segments. Missing: this is for segments of which no two start at the same point and no
two end at the same point (see the refutations below). -/
theorem C111_linked_partial (segs : List (Seg K)) (h1 : (segs.map Seg.s).Nodup) (h2 : (segs.map Seg.e).Nodup) {fuel : Nat}
    (hf : 2 * segs.length ≤ fuel) :
    ∃ d lines gons, makeEdgeList Cmp.direct fuel segs = .ok (d, lines, gons) ∧ Linked segs lines gons := by
  obtain ⟨d, e1, e2⟩ := addEdges_spec segs (lists_empty (K := K))
  rw [List.nil_append] at e2
  obtain ⟨lines, gons, e3, e4⟩ := e2.sequences h1 h2 (le_trans e2.few hf)
  refine ⟨d, lines, gons, ?_, e4⟩
  unfold makeEdgeList
  simp only [e1, e3]

/-- A triangle and a polyline, with their segments mixed. -/
example : ∃ d, makeEdgeList Cmp.direct 10 [⟨⟨0, 0⟩, ⟨1, 0⟩⟩, ⟨⟨6, 5⟩, ⟨7, 7⟩⟩, ⟨⟨1, 0⟩, ⟨1, 1⟩⟩, ⟨⟨5, 5⟩, ⟨6, 5⟩⟩,
    (⟨⟨1, 1⟩, ⟨0, 0⟩⟩ : Seg ℚ)] = .ok (d, [[⟨5, 5⟩, ⟨6, 5⟩, ⟨7, 7⟩]], [[⟨0, 0⟩, ⟨1, 0⟩, ⟨1, 1⟩]]) :=
  ⟨⟨[⟨0, 0⟩, ⟨1, 0⟩, ⟨6, 5⟩, ⟨7, 7⟩, ⟨1, 1⟩, ⟨5, 5⟩], [(0, 1), (2, 3), (1, 4), (5, 2), (4, 0)], 6,
    [(0, 1), (2, 3), (1, 4), (5, 2), (4, 0)]⟩, by decide +kernel⟩

example : ∃ d lines gons, makeEdgeList Cmp.direct 10 [⟨⟨0, 0⟩, ⟨1, 0⟩⟩, ⟨⟨6, 5⟩, ⟨7, 7⟩⟩, ⟨⟨1, 0⟩, ⟨1, 1⟩⟩,
    ⟨⟨5, 5⟩, ⟨6, 5⟩⟩, (⟨⟨1, 1⟩, ⟨0, 0⟩⟩ : Seg ℚ)] = .ok (d, lines, gons) ∧
    Linked [⟨⟨0, 0⟩, ⟨1, 0⟩⟩, ⟨⟨6, 5⟩, ⟨7, 7⟩⟩, ⟨⟨1, 0⟩, ⟨1, 1⟩⟩, ⟨⟨5, 5⟩, ⟨6, 5⟩⟩, ⟨⟨1, 1⟩, ⟨0, 0⟩⟩] lines gons :=
  C111_linked_partial _ (by decide +kernel) (by decide +kernel) (by simp)

/-- Where two segments end at one point, one of them is lost. -/
theorem C111_join_refuted : ∃ d, makeEdgeList Cmp.direct 10 [⟨⟨0, 0⟩, ⟨1, 0⟩⟩, (⟨⟨5, 5⟩, ⟨1, 0⟩⟩ : Seg ℚ)] =
      .ok (d, [[⟨0, 0⟩, ⟨1, 0⟩]], []) ∧
    ¬ Linked [⟨⟨0, 0⟩, ⟨1, 0⟩⟩, (⟨⟨5, 5⟩, ⟨1, 0⟩⟩ : Seg ℚ)] [[⟨0, 0⟩, ⟨1, 0⟩]] [] := by
  refine ⟨⟨[⟨0, 0⟩, ⟨1, 0⟩, ⟨5, 5⟩], [(0, 1), (2, 1)], 3, [(0, 1), (2, 1)]⟩, by decide +kernel, fun h => ?_⟩
  have := (h.edges ⟨5, 5⟩ ⟨1, 0⟩).1 ⟨⟨⟨5, 5⟩, ⟨1, 0⟩⟩, by simp, rfl, rfl⟩
  simp at this

/-- Where two segments start at one point the assertion fails. So it does if a segment is given twice. -/
theorem C111_fork_refuted (fuel : Nat) :
    makeEdgeList Cmp.direct (fuel + 1) [⟨⟨0, 0⟩, ⟨1, 0⟩⟩, (⟨⟨0, 0⟩, ⟨5, 5⟩⟩ : Seg ℚ)] = .error .assertFailed ∧
    makeEdgeList Cmp.direct (fuel + 1) [⟨⟨0, 0⟩, ⟨1, 0⟩⟩, (⟨⟨0, 0⟩, ⟨1, 0⟩⟩ : Seg ℚ)] = .error .assertFailed := by
  constructor
  · have e : EdgeList.addEdges Cmp.direct [⟨⟨0, 0⟩, ⟨1, 0⟩⟩, (⟨⟨0, 0⟩, ⟨5, 5⟩⟩ : Seg ℚ)] EdgeList.empty =
        .ok ⟨[⟨0, 0⟩, ⟨1, 0⟩, ⟨5, 5⟩], [(0, 1), (0, 2)], 3, [(0, 1), (0, 2)]⟩ := by decide +kernel
    have e2 : connectedComponents 3 [(0, 1), (0, 2)] = [[0, 1, 2]] := by decide +kernel
    simp [makeEdgeList, e, EdgeList.sequences, EdgeList.components, e2, sequencesOf, findStart, traceEdges]
  · have e : EdgeList.addEdges Cmp.direct [⟨⟨0, 0⟩, ⟨1, 0⟩⟩, (⟨⟨0, 0⟩, ⟨1, 0⟩⟩ : Seg ℚ)] EdgeList.empty =
        .ok ⟨[⟨0, 0⟩, ⟨1, 0⟩], [(0, 1), (0, 1)], 2, [(0, 1), (0, 1)]⟩ := by decide +kernel
    have e2 : connectedComponents 2 [(0, 1), (0, 1)] = [[0, 1]] := by decide +kernel
    simp [makeEdgeList, e, EdgeList.sequences, EdgeList.components, e2, sequencesOf, findStart, traceEdges]

/-- Two segments that end at a point of a loop: the loop of the code has no end, whatever the number of rounds. -/
theorem C111_endless_refuted (fuel : Nat) :
    makeEdgeList Cmp.direct fuel [⟨⟨0, 0⟩, ⟨1, 0⟩⟩, ⟨⟨1, 0⟩, ⟨1, 1⟩⟩, ⟨⟨1, 1⟩, ⟨1, 0⟩⟩, (⟨⟨5, 5⟩, ⟨1, 0⟩⟩ : Seg ℚ)] =
      .error .diverges := by
  have e : EdgeList.addEdges Cmp.direct [⟨⟨0, 0⟩, ⟨1, 0⟩⟩, ⟨⟨1, 0⟩, ⟨1, 1⟩⟩, ⟨⟨1, 1⟩, ⟨1, 0⟩⟩, (⟨⟨5, 5⟩, ⟨1, 0⟩⟩ : Seg ℚ)]
      EdgeList.empty = .ok ⟨[⟨0, 0⟩, ⟨1, 0⟩, ⟨1, 1⟩, ⟨5, 5⟩], [(0, 1), (1, 2), (2, 1), (3, 1)], 4,
        [(0, 1), (1, 2), (2, 1), (3, 1)]⟩ := by decide +kernel
  have e2 : connectedComponents 4 [(0, 1), (1, 2), (2, 1), (3, 1)] = [[0, 1, 2, 3]] := by decide +kernel
  have e3 : ∀ fuel, traceEdges [(0, 1), (1, 2), (2, 1), (3, 1)] fuel 1 [3] [0, 1, 2] = .error .diverges ∧
      traceEdges [(0, 1), (1, 2), (2, 1), (3, 1)] fuel 2 [3] [0, 1, 2] = .error .diverges := by
    intro fuel
    induction fuel with
    | zero => simp [traceEdges]
    | succ n ih => simpa [traceEdges] using ih.symm
  have e4 : traceEdges [(0, 1), (1, 2), (2, 1), (3, 1)] fuel 0 [1, 2, 3] [0] = .error .diverges := by
    match fuel with
    | 0 => simp [traceEdges]
    | 1 => simp [traceEdges]
    | n + 2 => simpa [traceEdges] using (e3 n).2
  simp [makeEdgeList, e, EdgeList.sequences, EdgeList.components, e2, sequencesOf, findStart, e4]

/-- A copy has the half edges but not the graph of the components: to calculate its sequences indexes an empty vector, and
to add an edge to a new point fails the assertion. -/
theorem C111_copy_refuted : ∃ d, makeEdgeList Cmp.direct 10 [(⟨⟨0, 0⟩, ⟨1, 0⟩⟩ : Seg ℚ)] = .ok (d, [[⟨0, 0⟩, ⟨1, 0⟩]], []) ∧
    d.sequences 10 = .ok ([[⟨0, 0⟩, ⟨1, 0⟩]], []) ∧ d.copy.sequences 10 = .error .outOfRange ∧
    d.copy.addEdge Cmp.direct ⟨1, 0⟩ ⟨2, 0⟩ = .error .assertFailed :=
  ⟨⟨[⟨0, 0⟩, ⟨1, 0⟩], [(0, 1)], 2, [(0, 1)]⟩, by decide +kernel, by decide +kernel, by decide +kernel, by decide +kernel⟩

end Geometrix
