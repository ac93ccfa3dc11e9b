import Verif.Model.Basic

/-!
# Affine maps of the plane
-/

namespace Geometrix.Spec

variable {K : Type*} [Field K] [LinearOrder K]

/-- The map that takes `(x, y)` to `(a x + b y + e, c x + d y + g)`. -/
def affineMap (a b c d e g : K) (v : P2 K) : P2 K := ⟨a * v.x + b * v.y + e, c * v.x + d * v.y + g⟩

end Geometrix.Spec
