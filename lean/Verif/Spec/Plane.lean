import Verif.Model.Basic3

/-!
# Planes
-/

namespace Geometrix.Spec

variable {K : Type*} [Field K]

/-- `x` is a point of the plane through `a` that is spanned by `u` and `v`. -/
def OnPlane (a u v x : P3 K) : Prop := ∃ s t : K, x = a + s • u + t • v

end Geometrix.Spec
