import Verif.Model.Basic
import Mathlib.Analysis.Real.Sqrt
import Mathlib.Analysis.SpecialFunctions.Trigonometric.Inverse
import Mathlib.Algebra.BigOperators.Fin

/-!
# Interpolation between vectors and projection

Vectors of any dimension.
-/

set_option linter.unusedSectionVars false

namespace Geometrix

variable {n : Nat}

/-- `dot_product`: `geometrix/algebra/dot_product.hpp:27-40`, `algebra/detail/dot_product.hpp`. The order of the
additions is not modelled. -/
def dotN (u v : Fin n → ℝ) : ℝ := ∑ i, u i * v i

/-- `normalize`: `geometrix/arithmetic/vector/normalize.hpp:33-45`, with the assertion of line 42. -/
noncomputable def normalizeN (v : Fin n → ℝ) : Res (Fin n → ℝ) :=
  if Real.sqrt (dotN v v) = 0 then .error .assertFailed
  else .ok ((1 / Real.sqrt (dotN v v)) • v)

/-- `lerp`: `geometrix/arithmetic/vector/lerp.hpp:26-30`. -/
noncomputable def lerpN (u v : Fin n → ℝ) (t : ℝ) : Res (Fin n → ℝ) :=
  normalizeN (u + t • (v - u))

/-- `slerp`: `geometrix/arithmetic/vector/slerp.hpp:28-47`. The arc cosine of a number less than -1 is not a
number; the division `1.0 / sin(theta)` is checked. (The alias at line 23 lacks `typename`, which only C++20
accepts.) -/
noncomputable def slerpN (u v : Fin n → ℝ) (t : ℝ) : Res (Fin n → ℝ) :=
  let d := dotN u v
  if d < 1 then
    if d < -1 then .error .nan
    else
      let theta := Real.arccos d
      match cdiv 1 (Real.sin theta) with
      | .error e => .error e
      | .ok r => .ok ((Real.sin ((1 - t) * theta)) • (r • u) + (Real.sin (t * theta)) • (r • v))
  else normalizeN (u + t • (v - u))

/-- `vector_projection`: `geometrix/algebra/vector_projection.hpp:30-38`, with `scalar_projection`
(`algebra/dot_product.hpp:42-56`). -/
noncomputable def projectN (v1 v2 : Fin n → ℝ) : Res (Fin n → ℝ) :=
  match normalizeN v2 with
  | .error e => .error e
  | .ok vp => .ok (dotN v1 vp • vp)

end Geometrix
