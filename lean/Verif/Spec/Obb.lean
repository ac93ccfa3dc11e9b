import Verif.Spec.Polyline
import Verif.Model.Obb

/-!
# The points of an oriented box
-/

namespace Geometrix.Spec

variable {K : Type*} [Field K] [LinearOrder K]

/-- The axes are orthogonal unit vectors and the half widths are not negative. -/
def ValidObb (o : Obb K) : Prop :=
  dot o.u o.u = 1 ∧ dot o.v o.v = 1 ∧ dot o.u o.v = 0 ∧ 0 ≤ o.hu ∧ 0 ≤ o.hv

/-- `P` is a point of the box: the centre plus at most the half widths along the axes. -/
def InObb (o : Obb K) (P : P2 K) : Prop :=
  ∃ s t : K, |s| ≤ o.hu ∧ |t| ≤ o.hv ∧ P = o.center + s • o.u + t • o.v

end Geometrix.Spec
