import Verif.Spec.Box
import Verif.Spec.Obb

/-!
# An axis aligned box as an oriented box
-/

namespace Geometrix.Spec

variable {K : Type*} [Field K] [LinearOrder K] [IsStrictOrderedRing K]

/-- The oriented box with the axes of the plane that has the same points as `b`. -/
def asObb (b : Box K) : Obb K :=
  ⟨⟨(b.lo.x + b.hi.x) / 2, (b.lo.y + b.hi.y) / 2⟩, ⟨1, 0⟩, ⟨0, 1⟩, (b.hi.x - b.lo.x) / 2,
    (b.hi.y - b.lo.y) / 2⟩

end Geometrix.Spec
