import Verif.Lemmas.VisibleStart
import Verif.Lemmas.VisibleExamples

/-!
# C115: the search of a mesh for the visible vertices

The full property: for a point inside a triangle of a mesh the search ends, and it reports, each once, the vertices that are
seen from the point, which means that the whole segment from the point to the vertex is in the mesh. The code violates it in
two ways. It does not end when a vertex that is seen is inside the mesh (`C115_loop_refuted`), and it reports vertices that are
not seen when two vertices are on one ray (`C115_hidden_refuted`). `C115_search_partial` proves the property for all other
meshes.
-/

set_option linter.unusedSectionVars false

namespace Geometrix
open Spec

/-- C115 without the two cases: no two vertices are on one line with the point, and the vertices that are seen are on the
border of the mesh. Then the search ends after some number of rounds and reports each vertex that is seen once, and no other
vertices. Missing: the two cases, for which it is false. -/
theorem C115_search_partial {p : Nat → P2 ℝ} {tris : List (MeshTri ℝ)} {O : P2 ℝ} {start : Nat} {T : MeshTri ℝ}
    (hm : IsTriMesh p tris) (hl : tris.length < 2 ^ 64 - 1) (hT : tris[start]? = some T) (hO : InsideTri T O)
    (hg : NoneInLine p tris O)
    (hb : ∀ v, IsMeshVertex tris v → SeenIn tris O (p v) → AtMeshBorder tris (p v)) :
    ∃ N vs, (∀ rounds, N ≤ rounds → visibleSearch rounds tris O start = .ok vs) ∧ vs.Nodup ∧
      ∀ v, v ∈ vs ↔ IsMeshVertex tris v ∧ SeenIn tris O (p v) :=
  search_full hm hl hT hO hg hb

-- a strip of three triangles that bends, so that the last vertex is not seen
example : IsTriMesh bendPoint bendMesh ∧ bendMesh.length < 2 ^ 64 - 1 ∧
    bendMesh[0]? = some ⟨0, 1, 2, ⟨-3, -1⟩, ⟨3, -2⟩, ⟨0, 2⟩⟩ ∧
    InsideTri ⟨0, 1, 2, ⟨-3, -1⟩, ⟨3, -2⟩, ⟨0, 2⟩⟩ ⟨0, 0⟩ ∧ NoneInLine bendPoint bendMesh ⟨0, 0⟩ ∧
    ∀ v, IsMeshVertex bendMesh v → SeenIn bendMesh ⟨0, 0⟩ (bendPoint v) → AtMeshBorder bendMesh (bendPoint v) :=
  ⟨bend_mesh, by simp [bendMesh], rfl, bend_inside, bend_line, fun v hv _ => bend_border v hv⟩

/-- C115 is false when a vertex that is seen is inside the mesh: in a square of four triangles about a vertex, with no two
vertices on one line with the point, the search goes round that vertex forever. -/
theorem C115_loop_refuted : ∃ (p : Nat → P2 ℝ) (tris : List (MeshTri ℝ)) (O : P2 ℝ) (T : MeshTri ℝ), IsTriMesh p tris ∧
    tris.length = 4 ∧ tris[0]? = some T ∧ InsideTri T O ∧ NoneInLine p tris O ∧
    ∀ rounds, visibleSearch rounds tris O 0 = .error .diverges :=
  ⟨squarePoint, squareMesh, ⟨0, -1⟩, _, square_mesh, rfl, rfl, square_inside, square_line, square_search⟩

/-- C115 is false when two vertices are on one ray: the search of a mesh with all vertices on its border reports a vertex that
is not seen. -/
theorem C115_hidden_refuted : ∃ (p : Nat → P2 ℝ) (tris : List (MeshTri ℝ)) (O : P2 ℝ) (T : MeshTri ℝ), IsTriMesh p tris ∧
    tris.length = 4 ∧ tris[0]? = some T ∧ InsideTri T O ∧ (∀ v, IsMeshVertex tris v → AtMeshBorder tris (p v)) ∧
    ∃ vs, visibleSearch 4 tris O 0 = .ok vs ∧ 5 ∈ vs ∧ ¬ SeenIn tris O (p 5) :=
  ⟨hiddenPoint, hiddenMesh, ⟨0, 0⟩, _, hidden_mesh, rfl, rfl, hidden_inside, hidden_border, _, hidden_search, by decide,
    hidden_unseen⟩

end Geometrix
