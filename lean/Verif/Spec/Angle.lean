import Verif.Model.Basic
import Mathlib.Analysis.SpecialFunctions.Trigonometric.Basic

/-!
# Angles between plane vectors, over the real numbers
-/

namespace Geometrix.Spec

/-- The vector `a` turned counter-clockwise by the angle `θ`. -/
noncomputable def turn (θ : ℝ) (a : P2 ℝ) : P2 ℝ :=
  ⟨Real.cos θ * a.x - Real.sin θ * a.y, Real.sin θ * a.x + Real.cos θ * a.y⟩

/-- `θ` is the counter-clockwise angle from `a` to `c`, measured in `[0, 2π)`: turning `a` by `θ`
gives the direction of `c`. -/
def IsCcwAngle (a c : P2 ℝ) (θ : ℝ) : Prop :=
  0 ≤ θ ∧ θ < 2 * Real.pi ∧ ∃ r : ℝ, 0 < r ∧ c = r • turn θ a

end Geometrix.Spec
