import Verif.Spec.Convex
import Verif.Spec.Box
import Verif.Model.Mesh

/-!
# Triangle meshes
-/

namespace Geometrix.Spec

variable {K : Type*} [Field K] [LinearOrder K]

/-- A list taken three at a time; one or two that are left over are dropped. -/
def inThrees : List Nat → List (Nat × Nat × Nat)
  | i :: j :: k :: rest => (i, j, k) :: inThrees rest
  | _ => []

/-- The three indices are those of three different points. -/
def ThreePoints (pts : List (P2 K)) (i : Nat × Nat × Nat) : Prop :=
  pts[i.1]? ≠ pts[i.2.1]? ∧ pts[i.2.1]? ≠ pts[i.2.2]? ∧ pts[i.2.2]? ≠ pts[i.1]?

instance (pts : List (P2 K)) : DecidablePred (ThreePoints pts) := fun _ => by
  unfold ThreePoints; infer_instance

/-- The triangle made of a triple of indices: its vertices are the points with its indices, the first index is that of the
triple and the others are the other two in the order in which the triangle does not turn right. -/
def MadeOf (pts : List (P2 K)) (i : Nat × Nat × Nat) (t : MeshTri K) : Prop :=
  pts[t.i0]? = some t.a ∧ pts[t.i1]? = some t.b ∧ pts[t.i2]? = some t.c ∧
    (t.indices = i ∨ (t.indices = (i.1, i.2.2, i.2.1) ∧ area2 t.a t.b t.c ≠ 0)) ∧ 0 ≤ area2 t.a t.b t.c

/-- The area of a triangle. -/
def triArea (t : MeshTri K) : K := |area2 t.a t.b t.c| / 2

/-- The part of the total area that the first `n` triangles make up. -/
def areaShare (ts : List (MeshTri K)) (n : Nat) : K := ((ts.take n).map triArea).sum / (ts.map triArea).sum

/-- The sides of a triangle of indices, each with its number. -/
def HasSide (t : Nat × Nat × Nat) (s : Nat) (p q : Nat) : Prop :=
  (s = 0 ∧ p = t.1 ∧ q = t.2.1) ∨ (s = 1 ∧ p = t.2.1 ∧ q = t.2.2) ∨ (s = 2 ∧ p = t.2.2 ∧ q = t.1)

/-- The `j`th triangle has the side `s` of the `i`th one in the other direction, as its side `r`. -/
def Across (ts : List (Nat × Nat × Nat)) (i s j r : Nat) : Prop :=
  ∃ t u p q, ts[i]? = some t ∧ ts[j]? = some u ∧ HasSide t s p q ∧ HasSide u r q p

/-- No two triangles of the list have a side in the same direction, nor has one triangle the same side twice. -/
def SidesOnce (ts : List (Nat × Nat × Nat)) : Prop :=
  ∀ (i j s r : Nat) (t u : Nat × Nat × Nat) (p q : Nat), ts[i]? = some t → ts[j]? = some u → HasSide t s p q → HasSide u r p q → i = j ∧ s = r

/-- A point of a triangle of a mesh. -/
def InMeshTri (t : MeshTri K) (p : P2 K) : Prop := InTriangle t.a t.b t.c p

end Geometrix.Spec
