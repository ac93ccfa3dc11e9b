import Mathlib.Analysis.SpecialFunctions.Trigonometric.Basic
import Mathlib.Algebra.Order.Floor.Ring
import Mathlib.Data.Real.Archimedean

/-!
# Normalisation of angles

`geometrix/utility/utilities.hpp:80-130`, over the real numbers with the exact value of `π`.
-/

namespace Geometrix

open Real

/-- The body of the first condition of `normalize_angle_0_2pi`: `utilities.hpp:88-91`: whole turns are
subtracted. -/
noncomputable def dropTurns (angle : ℝ) : ℝ :=
  let n := ⌊angle / (2 * π)⌋
  if n ≠ 0 then angle - 2 * π * n else angle

/-- `normalize_angle_0_2pi`: `utilities.hpp:80-97` (`normalize_angle_0_2pi_copy`: `utilities.hpp:99-106`). The
new value of the argument. -/
noncomputable def normalizeAngle02pi (angle : ℝ) : ℝ :=
  if angle > 2 * π ∨ angle < 0 then
    let a := dropTurns angle
    if a > 2 * π then a - 2 * π
    else if a < 0 then a + 2 * π
    else a
  else angle

/-- `normalize_angle_minus_pi_to_pi`: `utilities.hpp:108-121` (and its `_copy`: `utilities.hpp:123-130`). -/
noncomputable def normalizeAnglePi (angle : ℝ) : ℝ :=
  let a := normalizeAngle02pi angle
  if a > π then a - 2 * π
  else if a ≤ -π then a + 2 * π
  else a

end Geometrix
