import Verif.Spec.ExactPredicates

/-!
# How large the products are that a determinant is made of
-/

set_option linter.unusedSectionVars false

namespace Geometrix.Spec

variable {K : Type*} [Field K] [LinearOrder K]

/-- The products of `det3 u v w` with absolute values in place of the coordinates and without minus signs. -/
def detSize3 (u v w : P3 K) : K :=
  |u.x| * (|v.y| * |w.z| + |v.z| * |w.y|) + |u.y| * (|v.x| * |w.z| + |v.z| * |w.x|) + |u.z| * (|v.x| * |w.y| + |v.y| * |w.x|)

/-- The same for `sphereDet a b c d e`. -/
def sphereSize (a b c d e : P3 K) : K :=
  sqDist3 a e * detSize3 (b - e) (c - e) (d - e) + sqDist3 b e * detSize3 (a - e) (c - e) (d - e) +
    sqDist3 c e * detSize3 (a - e) (b - e) (d - e) + sqDist3 d e * detSize3 (a - e) (b - e) (c - e)

end Geometrix.Spec
