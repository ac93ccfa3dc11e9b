import Verif.Model.Mesh
import Verif.Model.SegmentRange

/-!
# The search of a mesh for the visible vertices

`mesh_2d::search` in `geometrix/algorithm/mesh_2d.hpp` with the visitor of
`geometrix/algorithm/visible_vertices_mesh_search.hpp`. Simplification: the visitor compares with an absolute tolerance of
zero (`visible_vertices_mesh_search.hpp:99,117`), which is exact comparison.
-/

set_option linter.unusedSectionVars false

namespace Geometrix

/-- `mesh_search_item`: `visible_vertices_mesh_search.hpp:59-75`. The cone is `none` for the pair of vectors with the infinite
coordinates of `get_start` (`:80`) and line 166 f., which stands for all directions (`:86,118`). -/
structure SearchItem where
  source : Nat
  target : Nat
  cone : Option (P2 ℝ × P2 ℝ)

/-- `get_triangle_vertices(t)[i]` with an index from 0 to 2: `mesh_2d.hpp:226`. -/
def MeshTri.vertex {K : Type*} (t : MeshTri K) : Nat → P2 K
  | 0 => t.a
  | 1 => t.b
  | _ => t.c

/-- `get_start`: `visible_vertices_mesh_search.hpp:78-81`. -/
def searchStart (start : Nat) : SearchItem := ⟨noTriangle, start, none⟩

/-- The test of one vertex of the triangle: `visible_vertices_mesh_search.hpp:102-109`. -/
noncomputable def reportsVertex (O lo hi : P2 ℝ) (f t : MeshTri ℝ) (i : Nat) : Bool :=
  let v := triIndex t.indices i
  if f.i0 = v ∨ f.i1 = v ∨ f.i2 = v then false
  else isVectorBetween Cmp.direct lo hi (t.vertex i - O) true

/-- `visit`: `visible_vertices_mesh_search.hpp:84-114`: the indices that it appends to `m_vertices`. It always returns
`true`. A number that is not that of a triangle is an access out of range. -/
noncomputable def searchVisit (tris : List (MeshTri ℝ)) (O : P2 ℝ) (item : SearchItem) : Res (List Nat) :=
  match tris[item.target]? with
  | none => .error .outOfRange
  | some t =>
    match item.cone with
    | none => .ok [t.i0, t.i1, t.i2]
    | some (lo, hi) =>
      match tris[item.source]? with
      | none => .error .outOfRange
      | some f => .ok (([0, 1, 2].filter (reportsVertex O lo hi f t)).map (triIndex t.indices))

/-- The ends of the side in the order in which the origin is not to the right:
`visible_vertices_mesh_search.hpp:126-130`. -/
noncomputable def orderSide (O P Q : P2 ℝ) : P2 ℝ × P2 ℝ :=
  if cross (Q - P) (O - P) < 0 then (Q, P) else (P, Q)

/-- The cone for the next triangle, from the ends of the side: `visible_vertices_mesh_search.hpp:146-168`. -/
noncomputable def nextCone (O : P2 ℝ) (item : SearchItem) (next : Nat) (P Q : P2 ℝ) : Option SearchItem :=
  if O ≠ P ∧ O ≠ Q then
    let v := match item.cone with
      | none => (P - O, Q - O)
      | some (lo, hi) =>
        (if isVectorBetween Cmp.direct lo hi (P - O) false then P - O else lo,
          if isVectorBetween Cmp.direct lo hi (Q - O) false then Q - O else hi)
    if getOrientationV Cmp.direct v.2 v.1 = .left then none else some ⟨item.target, next, some v⟩
  else some ⟨item.target, next, none⟩

/-- `prepare_adjacent_traversal`: `visible_vertices_mesh_search.hpp:117-174`. -/
noncomputable def prepareAdjacent (tris : List (MeshTri ℝ)) (O : P2 ℝ) (next : Nat) (item : SearchItem) :
    Res (Option SearchItem) :=
  match tris[item.target]?, tris[next]? with
  | some f, some t =>
    match adjacentSide f.indices t.indices with
    | .error e => .error e
    | .ok side =>
      let (P, Q) := orderSide O (f.vertex side) (f.vertex ((side + 1) % 3))
      match item.cone with
      | none => .ok (nextCone O item next P Q)
      | some (lo, hi) =>
        match segInRange P Q lo hi O with
        | .error e => .error e
        | .ok false => .ok none
        | .ok true => .ok (nextCone O item next P Q)
  | _, _ => .error .outOfRange

/-- One of the three blocks for the adjacent triangles: `mesh_2d.hpp:302-308` (and `:310-316`, `:318-324`): the items that it
pushes. -/
noncomputable def searchSide (tris : List (MeshTri ℝ)) (O : P2 ℝ) (item : SearchItem) (s : Nat) :
    Res (List SearchItem) :=
  let next := adjacency (tris.map MeshTri.indices) item.target s
  if next ≠ noTriangle ∧ next ≠ item.source then
    match prepareAdjacent tris O next item with
    | .error e => .error e
    | .ok r => .ok r.toList
  else .ok []

/-- The items that a round of the loop pushes, in the order in which they are pushed: `mesh_2d.hpp:302-324`. -/
noncomputable def searchPushed (tris : List (MeshTri ℝ)) (O : P2 ℝ) (item : SearchItem) : Res (List SearchItem) :=
  match searchSide tris O item 0 with
  | .error e => .error e
  | .ok l0 =>
  match searchSide tris O item 1 with
  | .error e => .error e
  | .ok l1 =>
  match searchSide tris O item 2 with
  | .error e => .error e
  | .ok l2 => .ok (l0 ++ l1 ++ l2)

/-- The loop of `search`: `mesh_2d.hpp:293-325`. The back of `Q` is the head of the list; `vs` is `m_vertices`. The first
argument bounds the number of rounds; to run out of it is the outcome `diverges`. -/
noncomputable def meshSearchLoop (tris : List (MeshTri ℝ)) (O : P2 ℝ) : Nat → List SearchItem → List Nat → Res (List Nat)
  | _, [], vs => .ok vs
  | 0, _ :: _, _ => .error .diverges
  | n + 1, item :: Q, vs =>
    match searchVisit tris O item with
    | .error e => .error e
    | .ok new =>
      match searchPushed tris O item with
      | .error e => .error e
      | .ok items => meshSearchLoop tris O n (items.reverse ++ Q) (vs ++ new)

/-- `search` with a `visible_vertices_mesh_search` for the origin and the number of the first triangle, and `get_vertices`
afterwards: `mesh_2d.hpp:280-326`, `visible_vertices_mesh_search.hpp:50-54,176`. -/
noncomputable def visibleSearch (rounds : Nat) (tris : List (MeshTri ℝ)) (O : P2 ℝ) (start : Nat) : Res (List Nat) :=
  meshSearchLoop tris O rounds [searchStart start] []

end Geometrix
