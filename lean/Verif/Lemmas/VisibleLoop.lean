import Verif.Model.VisibleSearch
import Mathlib.Tactic.NormNum
import Mathlib.Tactic.Linarith

/-!
# A search that does not end
-/

set_option linter.unusedSectionVars false

namespace Geometrix

/-- A square of four triangles with a vertex in its middle. -/
def squareMesh : List (MeshTri ℝ) :=
  [⟨0, 1, 4, ⟨-2, -2⟩, ⟨2, -2⟩, ⟨0, 0⟩⟩, ⟨1, 2, 4, ⟨2, -2⟩, ⟨2, 2⟩, ⟨0, 0⟩⟩,
    ⟨2, 3, 4, ⟨2, 2⟩, ⟨-2, 2⟩, ⟨0, 0⟩⟩, ⟨3, 0, 4, ⟨-2, 2⟩, ⟨-2, -2⟩, ⟨0, 0⟩⟩]

theorem square_indices : squareMesh.map MeshTri.indices = [(0, 1, 4), (1, 2, 4), (2, 3, 4), (3, 0, 4)] := rfl

theorem square_adj (i s : Nat) : adjacency (squareMesh.map MeshTri.indices) i s =
    adjacency [(0, 1, 4), (1, 2, 4), (2, 3, 4), (3, 0, 4)] i s := rfl

def squareItem (a b : Nat) : SearchItem := ⟨a, b, some (⟨0, 1⟩, ⟨-2, 3⟩)⟩

theorem square_start : searchPushed squareMesh ⟨0, -1⟩ (searchStart 0) = .ok [⟨0, 1, some (⟨2, -1⟩, ⟨0, 1⟩)⟩, ⟨0, 3, some (⟨0, 1⟩, ⟨-2, -1⟩)⟩] := by
  have a0 : adjacency [(0, 1, 4), (1, 2, 4), (2, 3, 4), (3, 0, 4)] 0 0 = noTriangle := by decide
  have a1 : adjacency [(0, 1, 4), (1, 2, 4), (2, 3, 4), (3, 0, 4)] 0 1 = 1 := by decide
  have h1 : adjacentSide (0, 1, 4) (1, 2, 4) = .ok 1 := by decide
  have a2 : adjacency [(0, 1, 4), (1, 2, 4), (2, 3, 4), (3, 0, 4)] 0 2 = 3 := by decide
  have h2 : adjacentSide (0, 1, 4) (3, 0, 4) = .ok 2 := by decide
  simp only [searchPushed, searchSide, square_adj, squareItem, searchStart, a0, a1, a2]
  norm_num [prepareAdjacent, squareMesh, MeshTri.indices, MeshTri.vertex, h1, h2, noTriangle, orderSide, segInRange, cross,
    nextCone, isVectorBetween, Cmp.direct, dot, getOrientationV, orientationOf, P2.ext_iff]
  rw [if_neg (by decide), if_neg (by decide)]
  simp only [Option.toList, List.singleton_append, List.cons.injEq, SearchItem.mk.injEq, Option.some.injEq,
    Prod.mk.injEq, P2.ext_iff, P2.sub_x, P2.sub_y]
  norm_num

theorem square_first : searchPushed squareMesh ⟨0, -1⟩ ⟨0, 3, some (⟨0, 1⟩, ⟨-2, -1⟩)⟩ = .ok [squareItem 3 2] := by
  have a0 : adjacency [(0, 1, 4), (1, 2, 4), (2, 3, 4), (3, 0, 4)] 3 0 = noTriangle := by decide
  have a1 : adjacency [(0, 1, 4), (1, 2, 4), (2, 3, 4), (3, 0, 4)] 3 1 = 0 := by decide
  have h1 : adjacentSide (3, 0, 4) (0, 1, 4) = .ok 1 := by decide
  have a2 : adjacency [(0, 1, 4), (1, 2, 4), (2, 3, 4), (3, 0, 4)] 3 2 = 2 := by decide
  have h2 : adjacentSide (3, 0, 4) (2, 3, 4) = .ok 2 := by decide
  simp only [searchPushed, searchSide, square_adj, squareItem, searchStart, a0, a1, a2]
  norm_num [prepareAdjacent, squareMesh, MeshTri.indices, MeshTri.vertex, h1, h2, noTriangle, orderSide, segInRange, cross,
    nextCone, isVectorBetween, Cmp.direct, dot, getOrientationV, orientationOf, P2.ext_iff]
  try decide

theorem square_32 : searchPushed squareMesh ⟨0, -1⟩ (squareItem 3 2) = .ok [squareItem 2 1] := by
  have a0 : adjacency [(0, 1, 4), (1, 2, 4), (2, 3, 4), (3, 0, 4)] 2 0 = noTriangle := by decide
  have a1 : adjacency [(0, 1, 4), (1, 2, 4), (2, 3, 4), (3, 0, 4)] 2 1 = 3 := by decide
  have h1 : adjacentSide (2, 3, 4) (3, 0, 4) = .ok 1 := by decide
  have a2 : adjacency [(0, 1, 4), (1, 2, 4), (2, 3, 4), (3, 0, 4)] 2 2 = 1 := by decide
  have h2 : adjacentSide (2, 3, 4) (1, 2, 4) = .ok 2 := by decide
  simp only [searchPushed, searchSide, square_adj, squareItem, searchStart, a0, a1, a2]
  norm_num [prepareAdjacent, squareMesh, MeshTri.indices, MeshTri.vertex, h1, h2, noTriangle, orderSide, segInRange, cross,
    nextCone, isVectorBetween, Cmp.direct, dot, getOrientationV, orientationOf, P2.ext_iff]
  try decide

theorem square_21 : searchPushed squareMesh ⟨0, -1⟩ (squareItem 2 1) = .ok [squareItem 1 0] := by
  have a0 : adjacency [(0, 1, 4), (1, 2, 4), (2, 3, 4), (3, 0, 4)] 1 0 = noTriangle := by decide
  have a1 : adjacency [(0, 1, 4), (1, 2, 4), (2, 3, 4), (3, 0, 4)] 1 1 = 2 := by decide
  have h1 : adjacentSide (1, 2, 4) (2, 3, 4) = .ok 1 := by decide
  have a2 : adjacency [(0, 1, 4), (1, 2, 4), (2, 3, 4), (3, 0, 4)] 1 2 = 0 := by decide
  have h2 : adjacentSide (1, 2, 4) (0, 1, 4) = .ok 2 := by decide
  simp only [searchPushed, searchSide, square_adj, squareItem, searchStart, a0, a1, a2]
  norm_num [prepareAdjacent, squareMesh, MeshTri.indices, MeshTri.vertex, h1, h2, noTriangle, orderSide, segInRange, cross,
    nextCone, isVectorBetween, Cmp.direct, dot, getOrientationV, orientationOf, P2.ext_iff]
  try decide

theorem square_10 : searchPushed squareMesh ⟨0, -1⟩ (squareItem 1 0) = .ok [squareItem 0 3] := by
  have a0 : adjacency [(0, 1, 4), (1, 2, 4), (2, 3, 4), (3, 0, 4)] 0 0 = noTriangle := by decide
  have a1 : adjacency [(0, 1, 4), (1, 2, 4), (2, 3, 4), (3, 0, 4)] 0 1 = 1 := by decide
  have h1 : adjacentSide (0, 1, 4) (1, 2, 4) = .ok 1 := by decide
  have a2 : adjacency [(0, 1, 4), (1, 2, 4), (2, 3, 4), (3, 0, 4)] 0 2 = 3 := by decide
  have h2 : adjacentSide (0, 1, 4) (3, 0, 4) = .ok 2 := by decide
  simp only [searchPushed, searchSide, square_adj, squareItem, searchStart, a0, a1, a2]
  norm_num [prepareAdjacent, squareMesh, MeshTri.indices, MeshTri.vertex, h1, h2, noTriangle, orderSide, segInRange, cross,
    nextCone, isVectorBetween, Cmp.direct, dot, getOrientationV, orientationOf, P2.ext_iff]
  try decide

theorem square_03 : searchPushed squareMesh ⟨0, -1⟩ (squareItem 0 3) = .ok [squareItem 3 2] := by
  have a0 : adjacency [(0, 1, 4), (1, 2, 4), (2, 3, 4), (3, 0, 4)] 3 0 = noTriangle := by decide
  have a1 : adjacency [(0, 1, 4), (1, 2, 4), (2, 3, 4), (3, 0, 4)] 3 1 = 0 := by decide
  have h1 : adjacentSide (3, 0, 4) (0, 1, 4) = .ok 1 := by decide
  have a2 : adjacency [(0, 1, 4), (1, 2, 4), (2, 3, 4), (3, 0, 4)] 3 2 = 2 := by decide
  have h2 : adjacentSide (3, 0, 4) (2, 3, 4) = .ok 2 := by decide
  simp only [searchPushed, searchSide, square_adj, squareItem, searchStart, a0, a1, a2]
  norm_num [prepareAdjacent, squareMesh, MeshTri.indices, MeshTri.vertex, h1, h2, noTriangle, orderSide, segInRange, cross,
    nextCone, isVectorBetween, Cmp.direct, dot, getOrientationV, orientationOf, P2.ext_iff]
  try decide


theorem square_visit (I : SearchItem) (hs : I.source < 4) (ht : I.target < 4) :
    ∃ l, searchVisit squareMesh ⟨0, -1⟩ I = .ok l := by
  have h4 : squareMesh.length = 4 := rfl
  unfold searchVisit
  rw [List.getElem?_eq_getElem (by omega : I.target < squareMesh.length)]
  rw [List.getElem?_eq_getElem (by omega : I.source < squareMesh.length)]
  cases h : I.cone with
  | none => exact ⟨_, rfl⟩
  | some c => exact ⟨_, rfl⟩

theorem square_diverges (n : Nat) (Q : List SearchItem) (vs : List Nat) :
    meshSearchLoop squareMesh ⟨0, -1⟩ n (squareItem 3 2 :: Q) vs = .error .diverges ∧
    meshSearchLoop squareMesh ⟨0, -1⟩ n (squareItem 2 1 :: Q) vs = .error .diverges ∧
    meshSearchLoop squareMesh ⟨0, -1⟩ n (squareItem 1 0 :: Q) vs = .error .diverges ∧
    meshSearchLoop squareMesh ⟨0, -1⟩ n (squareItem 0 3 :: Q) vs = .error .diverges := by
  induction n generalizing vs with
  | zero => exact ⟨rfl, rfl, rfl, rfl⟩
  | succ n ih =>
    refine ⟨?_, ?_, ?_, ?_⟩
    · obtain ⟨l, e⟩ := square_visit (squareItem 3 2) (by decide) (by decide)
      simp only [meshSearchLoop, e, square_32]
      exact (ih _).2.1
    · obtain ⟨l, e⟩ := square_visit (squareItem 2 1) (by decide) (by decide)
      simp only [meshSearchLoop, e, square_21]
      exact (ih _).2.2.1
    · obtain ⟨l, e⟩ := square_visit (squareItem 1 0) (by decide) (by decide)
      simp only [meshSearchLoop, e, square_10]
      exact (ih _).2.2.2
    · obtain ⟨l, e⟩ := square_visit (squareItem 0 3) (by decide) (by decide)
      simp only [meshSearchLoop, e, square_03]
      exact (ih _).1

theorem square_search (rounds : Nat) : visibleSearch rounds squareMesh ⟨0, -1⟩ 0 = .error .diverges := by
  unfold visibleSearch
  cases rounds with
  | zero => rfl
  | succ n =>
    have e : searchVisit squareMesh ⟨0, -1⟩ (searchStart 0) = .ok [0, 1, 4] := rfl
    simp only [meshSearchLoop, e, square_start]
    cases n with
    | zero => rfl
    | succ n =>
      obtain ⟨l, e⟩ := square_visit ⟨0, 3, some (⟨0, 1⟩, ⟨-2, -1⟩)⟩ (by decide) (by decide)
      simp only [List.reverse_cons, List.reverse_nil, List.nil_append, List.cons_append, meshSearchLoop, e, square_first]
      exact (square_diverges n _ _).1

/-- Four triangles; from the origin a vertex hides the next one on the same ray, and that one hides a third vertex. -/
def hiddenMesh : List (MeshTri ℝ) :=
  [⟨0, 1, 2, ⟨-1, -2⟩, ⟨2, 1⟩, ⟨0, 1⟩⟩, ⟨1, 3, 2, ⟨2, 1⟩, ⟨0, 2⟩, ⟨0, 1⟩⟩,
    ⟨2, 3, 4, ⟨0, 1⟩, ⟨0, 2⟩, ⟨-2, 2⟩⟩, ⟨3, 5, 4, ⟨0, 2⟩, ⟨1, 4⟩, ⟨-2, 2⟩⟩]

theorem hidden_adj (i s : Nat) : adjacency (hiddenMesh.map MeshTri.indices) i s =
    adjacency [(0, 1, 2), (1, 3, 2), (2, 3, 4), (3, 5, 4)] i s := rfl

def hiddenItem (a b : Nat) : SearchItem := ⟨a, b, some (⟨2, 1⟩, ⟨0, 1⟩)⟩

theorem hidden_start : searchPushed hiddenMesh ⟨0, 0⟩ (searchStart 0) = .ok [hiddenItem 0 1] := by
  have a0 : adjacency [(0, 1, 2), (1, 3, 2), (2, 3, 4), (3, 5, 4)] 0 0 = noTriangle := by decide
  have a1 : adjacency [(0, 1, 2), (1, 3, 2), (2, 3, 4), (3, 5, 4)] 0 1 = 1 := by decide
  have h1 : adjacentSide (0, 1, 2) (1, 3, 2) = .ok 1 := by decide
  have a2 : adjacency [(0, 1, 2), (1, 3, 2), (2, 3, 4), (3, 5, 4)] 0 2 = noTriangle := by decide
  simp only [searchPushed, searchSide, hidden_adj, hiddenItem, searchStart, a0, a1, a2]
  norm_num [prepareAdjacent, hiddenMesh, MeshTri.indices, MeshTri.vertex, h1, noTriangle, orderSide, segInRange, cross,
    nextCone, isVectorBetween, Cmp.direct, dot, getOrientationV, orientationOf, P2.ext_iff]
  try decide

theorem hidden_01 : searchPushed hiddenMesh ⟨0, 0⟩ (hiddenItem 0 1) = .ok [hiddenItem 1 2] := by
  have a0 : adjacency [(0, 1, 2), (1, 3, 2), (2, 3, 4), (3, 5, 4)] 1 0 = noTriangle := by decide
  have a1 : adjacency [(0, 1, 2), (1, 3, 2), (2, 3, 4), (3, 5, 4)] 1 1 = 2 := by decide
  have h1 : adjacentSide (1, 3, 2) (2, 3, 4) = .ok 1 := by decide
  have a2 : adjacency [(0, 1, 2), (1, 3, 2), (2, 3, 4), (3, 5, 4)] 1 2 = 0 := by decide
  have h2 : adjacentSide (1, 3, 2) (0, 1, 2) = .ok 2 := by decide
  simp only [searchPushed, searchSide, hidden_adj, hiddenItem, searchStart, a0, a1, a2]
  norm_num [prepareAdjacent, hiddenMesh, MeshTri.indices, MeshTri.vertex, h1, h2, noTriangle, orderSide, segInRange, cross,
    nextCone, isVectorBetween, Cmp.direct, dot, getOrientationV, orientationOf, P2.ext_iff]
  try decide

theorem hidden_12 : searchPushed hiddenMesh ⟨0, 0⟩ (hiddenItem 1 2) = .ok [hiddenItem 2 3] := by
  have a0 : adjacency [(0, 1, 2), (1, 3, 2), (2, 3, 4), (3, 5, 4)] 2 0 = 1 := by decide
  have h0 : adjacentSide (2, 3, 4) (1, 3, 2) = .ok 0 := by decide
  have a1 : adjacency [(0, 1, 2), (1, 3, 2), (2, 3, 4), (3, 5, 4)] 2 1 = 3 := by decide
  have h1 : adjacentSide (2, 3, 4) (3, 5, 4) = .ok 1 := by decide
  have a2 : adjacency [(0, 1, 2), (1, 3, 2), (2, 3, 4), (3, 5, 4)] 2 2 = noTriangle := by decide
  simp only [searchPushed, searchSide, hidden_adj, hiddenItem, searchStart, a0, a1, a2]
  norm_num [prepareAdjacent, hiddenMesh, MeshTri.indices, MeshTri.vertex, h0, h1, noTriangle, orderSide, segInRange, cross,
    nextCone, isVectorBetween, Cmp.direct, dot, getOrientationV, orientationOf, P2.ext_iff]
  try decide

theorem hidden_23 : searchPushed hiddenMesh ⟨0, 0⟩ (hiddenItem 2 3) = .ok [] := by
  have a0 : adjacency [(0, 1, 2), (1, 3, 2), (2, 3, 4), (3, 5, 4)] 3 0 = noTriangle := by decide
  have a1 : adjacency [(0, 1, 2), (1, 3, 2), (2, 3, 4), (3, 5, 4)] 3 1 = noTriangle := by decide
  have a2 : adjacency [(0, 1, 2), (1, 3, 2), (2, 3, 4), (3, 5, 4)] 3 2 = 2 := by decide
  have h2 : adjacentSide (3, 5, 4) (2, 3, 4) = .ok 2 := by decide
  simp only [searchPushed, searchSide, hidden_adj, hiddenItem, searchStart, a0, a1, a2]
  norm_num [prepareAdjacent, hiddenMesh, MeshTri.indices, MeshTri.vertex, h2, noTriangle, orderSide, segInRange, cross,
    nextCone, isVectorBetween, Cmp.direct, dot, getOrientationV, orientationOf, P2.ext_iff]
  try decide

theorem hidden_visit_01 : searchVisit hiddenMesh ⟨0, 0⟩ (hiddenItem 0 1) = .ok [3] := by
  norm_num [searchVisit, hiddenItem, hiddenMesh, reportsVertex, MeshTri.indices, MeshTri.vertex, triIndex, isVectorBetween,
    Cmp.direct, cross, dot, List.filter]

theorem hidden_visit_12 : searchVisit hiddenMesh ⟨0, 0⟩ (hiddenItem 1 2) = .ok [] := by
  norm_num [searchVisit, hiddenItem, hiddenMesh, reportsVertex, MeshTri.indices, MeshTri.vertex, triIndex, isVectorBetween,
    Cmp.direct, cross, dot, List.filter]

theorem hidden_visit_23 : searchVisit hiddenMesh ⟨0, 0⟩ (hiddenItem 2 3) = .ok [5] := by
  norm_num [searchVisit, hiddenItem, hiddenMesh, reportsVertex, MeshTri.indices, MeshTri.vertex, triIndex, isVectorBetween,
    Cmp.direct, cross, dot, List.filter]

theorem hidden_search : visibleSearch 4 hiddenMesh ⟨0, 0⟩ 0 = .ok [0, 1, 2, 3, 5] := by
  have e : searchVisit hiddenMesh ⟨0, 0⟩ (searchStart 0) = .ok [0, 1, 2] := rfl
  simp only [visibleSearch, meshSearchLoop, e, hidden_start, hidden_01, hidden_12, hidden_23, hidden_visit_01, hidden_visit_12,
    hidden_visit_23, List.reverse_cons, List.reverse_nil, List.nil_append, List.append_nil, List.cons_append]


end Geometrix
