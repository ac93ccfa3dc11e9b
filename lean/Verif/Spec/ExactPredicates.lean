import Verif.Spec.Box
import Verif.Spec.Expansion
import Verif.Spec.Geometry

/-!
# Planes, circles and spheres for the exact predicates
-/

set_option linter.unusedSectionVars false

namespace Geometrix.Spec

variable {K : Type*} [Field K] [LinearOrder K]

/-- The coordinates of a point of space are floating point numbers with `p` bits. -/
def FloatPoint3 (p : Nat) (a : P3 K) : Prop := IsFloat p a.x ∧ IsFloat p a.y ∧ IsFloat p a.z

/-- The determinant of the matrix with the rows `u`, `v` and `w`. -/
def det3 (u v w : P3 K) : K :=
  u.x * (v.y * w.z - v.z * w.y) - u.y * (v.x * w.z - v.z * w.x) + u.z * (v.x * w.y - v.y * w.x)

/-- The determinant of the matrix with the rows `(u, |u|²)`, `(v, |v|²)` and `(w, |w|²)`, for the vectors `u`, `v` and `w` from
`d` to `a`, `b` and `c`. -/
def circleDet (a b c d : P2 K) : K :=
  det3 ⟨a.x - d.x, a.y - d.y, sqDist a d⟩ ⟨b.x - d.x, b.y - d.y, sqDist b d⟩ ⟨c.x - d.x, c.y - d.y, sqDist c d⟩

/-- The determinant of the matrix with four rows `(u, |u|²)`, for the vectors `u` from `e` to `a`, `b`, `c` and `d`. -/
def sphereDet (a b c d e : P3 K) : K :=
  -sqDist3 a e * det3 (b - e) (c - e) (d - e) + sqDist3 b e * det3 (a - e) (c - e) (d - e) -
    sqDist3 c e * det3 (a - e) (b - e) (d - e) + sqDist3 d e * det3 (a - e) (b - e) (c - e)

/-- `o` is the centre of a circle through `a`, `b` and `c`. -/
def Circumcentre (o a b c : P2 K) : Prop := sqDist b o = sqDist a o ∧ sqDist c o = sqDist a o

/-- `o` is the centre of a sphere through `a`, `b`, `c` and `d`. -/
def Circumcentre3 (o a b c d : P3 K) : Prop := sqDist3 b o = sqDist3 a o ∧ sqDist3 c o = sqDist3 a o ∧ sqDist3 d o = sqDist3 a o

end Geometrix.Spec
