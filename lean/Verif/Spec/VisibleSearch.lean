import Verif.Spec.Mesh
import Mathlib.Data.Real.Basic

/-!
# What is seen in a mesh
-/

namespace Geometrix.Spec

/-- A point of a triangle of the mesh. -/
def InMesh (tris : List (MeshTri ℝ)) (X : P2 ℝ) : Prop := ∃ t ∈ tris, InMeshTri t X

/-- The whole segment from `O` to `P` is in the mesh. -/
def SeenIn (tris : List (MeshTri ℝ)) (O P : P2 ℝ) : Prop :=
  ∀ s : ℝ, 0 ≤ s → s ≤ 1 → InMesh tris (O + s • (P - O))

/-- The number of a corner of the triangle. -/
def IsCorner (t : MeshTri ℝ) (v : Nat) : Prop := t.i0 = v ∨ t.i1 = v ∨ t.i2 = v

/-- The number of a corner of a triangle of the mesh. -/
def IsMeshVertex (tris : List (MeshTri ℝ)) (v : Nat) : Prop := ∃ t ∈ tris, IsCorner t v

/-- Every disc about the point reaches out of the mesh. -/
def AtMeshBorder (tris : List (MeshTri ℝ)) (P : P2 ℝ) : Prop :=
  ∀ r : ℝ, 0 < r → ∃ X : P2 ℝ, (X.x - P.x) ^ 2 + (X.y - P.y) ^ 2 < r ∧ ¬ InMesh tris X

/-- What two triangles have in common is spanned by their common corners. -/
def Conforming (tris : List (MeshTri ℝ)) : Prop :=
  ∀ t ∈ tris, ∀ u ∈ tris, ∀ α β γ : ℝ, 0 ≤ α → 0 ≤ β → 0 ≤ γ → α + β + γ = 1 →
    InMeshTri u (α • t.a + β • t.b + γ • t.c) →
    (0 < α → IsCorner u t.i0) ∧ (0 < β → IsCorner u t.i1) ∧ (0 < γ → IsCorner u t.i2)

/-- A point of the inside of the triangle. -/
def InsideTri (t : MeshTri ℝ) (X : P2 ℝ) : Prop :=
  ∃ α β γ : ℝ, 0 < α ∧ 0 < β ∧ 0 < γ ∧ α + β + γ = 1 ∧ X = α • t.a + β • t.b + γ • t.c

/-- A mesh of triangles: the vertex with the number `v` is `p v`, the triangles turn left, they fit together, and no two have a
side in the same direction. -/
structure IsTriMesh (p : Nat → P2 ℝ) (tris : List (MeshTri ℝ)) : Prop where
  points : ∀ t ∈ tris, t.a = p t.i0 ∧ t.b = p t.i1 ∧ t.c = p t.i2
  ccw : ∀ t ∈ tris, 0 < area2 t.a t.b t.c
  fit : Conforming tris
  once : SidesOnce (tris.map MeshTri.indices)

/-- No two vertices are on one line with the point. -/
def NoneInLine (p : Nat → P2 ℝ) (tris : List (MeshTri ℝ)) (O : P2 ℝ) : Prop :=
  ∀ v w, IsMeshVertex tris v → IsMeshVertex tris w → v ≠ w → area2 O (p v) (p w) ≠ 0

end Geometrix.Spec
