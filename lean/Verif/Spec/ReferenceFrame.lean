import Verif.Model.ReferenceFrame

/-!
# The location of a point with coordinates in a frame
-/

namespace Geometrix.Spec

open Finset

/-- The point with the coordinates `p` in the frame is at the place `x` of a space of dimension `n + 2`. In a polar frame `p 0` is the
distance from the origin, `p 1` the angle in the plane of the first two axes, and `p i` the angle to axis `i`. The neutral frame does not
say where a point is. -/
def LocatedAt (n : ℕ) : Frame → (ℕ → ℝ) → (ℕ → ℝ) → Prop
  | .cartesian, p, x => ∀ i, i < n + 2 → x i = p i
  | .polar, p, x =>
    x 0 = p 0 * (∏ j ∈ Ico 2 (n + 2), Real.sin (p j)) * Real.cos (p 1) ∧
    x 1 = p 0 * (∏ j ∈ Ico 2 (n + 2), Real.sin (p j)) * Real.sin (p 1) ∧
    ∀ i, 2 ≤ i → i < n + 2 → x i = p 0 * (∏ j ∈ Ico (i + 1) (n + 2), Real.sin (p j)) * Real.cos (p i)
  | .neutral, _, _ => True

/-- Polar coordinates of which the place determines each: a positive radius, the first angle in `(-π, π]`, the others in `(0, π)`.
For the other frames there is no condition. -/
def UniqueCoordinates (n : ℕ) : Frame → (ℕ → ℝ) → Prop
  | .polar, p => 0 < p 0 ∧ -Real.pi < p 1 ∧ p 1 ≤ Real.pi ∧ ∀ i, 2 ≤ i → i < n + 2 → 0 < p i ∧ p i < Real.pi
  | _, _ => True

end Geometrix.Spec
