import Verif.Model.Vector
import Verif.Model.Policy

/-!
# Planes in space

`geometrix/primitive/plane.hpp` and `geometrix/algorithm/classify_simplex_to_plane.hpp`. (`make_hyperplane` of a simplex in space,
`hyperplane_traits.hpp:82-87`, calls `make_plane` with one argument and does not compile.)
-/

namespace Geometrix

/-- `plane`: `plane.hpp:63-67`. -/
structure Plane3 where
  /-- `m_a`, the reference point -/
  a : P3 ℝ
  /-- `m_u` and `m_v`, unit vectors -/
  u : P3 ℝ
  v : P3 ℝ
  /-- `m_n`, the unit normal -/
  n : P3 ℝ
  /-- `m_d`, the signed distance to the origin -/
  d : ℝ

/-- The constructor from a point and two vectors: `plane.hpp:36-42`. `scalar_projection` is the dot product
(`dot_product.hpp:42-54`). -/
noncomputable def makePlaneV (a u v : P3 ℝ) : Res Plane3 :=
  match normalize3 u with
  | .error e => .error e
  | .ok u' =>
    match normalize3 v with
    | .error e => .error e
    | .ok v' =>
      match normalize3 (cross3 u' v') with
      | .error e => .error e
      | .ok n => .ok ⟨a, u', v', n, dot3 a n⟩

/-- The constructor from three points: `plane.hpp:44-50`. -/
noncomputable def makePlane (a b c : P3 ℝ) : Res Plane3 := makePlaneV a (b - a) (c - a)

/-- `plane_orientation`: `classify_simplex_to_plane.hpp:17-23`. -/
inductive PlaneSide3 where
  | coplanar
  | front
  | back
  | straddling
  deriving DecidableEq

/-- `classify_point_to_plane`: `classify_simplex_to_plane.hpp:26-43`. -/
noncomputable def classifyPoint3 (cmp : Cmp ℝ) (p : P3 ℝ) (pl : Plane3) : PlaneSide3 :=
  let dist := dot3 p pl.n - pl.d
  if cmp.gt dist 0 then .front
  else if cmp.lt dist 0 then .back
  else .coplanar

/-- The loop of `classify_simplex_to_plane`, which counts the vertices in front and behind: `classify_simplex_to_plane.hpp:50-68`. -/
noncomputable def countSides3 (cmp : Cmp ℝ) (pl : Plane3) : List (P3 ℝ) → Nat × Nat → Nat × Nat
  | [], c => c
  | p :: ps, c =>
    match classifyPoint3 cmp p pl with
    | .front => countSides3 cmp pl ps (c.1 + 1, c.2)
    | .back => countSides3 cmp pl ps (c.1, c.2 + 1)
    | _ => countSides3 cmp pl ps c

/-- `classify_simplex_to_plane`: `classify_simplex_to_plane.hpp:46-83`, for the vertices of a segment or of a sequence of points. -/
noncomputable def classifySimplex3 (cmp : Cmp ℝ) (ps : List (P3 ℝ)) (pl : Plane3) : PlaneSide3 :=
  let c := countSides3 cmp pl ps (0, 0)
  if c.2 ≠ 0 ∧ c.1 ≠ 0 then .straddling
  else if c.1 ≠ 0 then .front
  else if c.2 ≠ 0 then .back
  else .coplanar

end Geometrix
