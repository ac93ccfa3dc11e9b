import Mathlib.Data.Real.Basic
import Verif.Spec.Expansion

/-!
# The floating point number nearest to a real number
-/

namespace Geometrix.Spec

/-- `c` is a floating point number with `p` bits, and no other one is nearer to the real number `x`. -/
def IsNearest (p : Nat) (c x : ℝ) : Prop := IsFloat p c ∧ ∀ y, IsFloat p y → |c - x| ≤ |y - x|

end Geometrix.Spec
