import Mathlib.Algebra.Order.Floor.Ring
import Mathlib.Algebra.Order.Field.Basic

/-!
# The colour of a hue, a saturation and a value
-/

namespace Geometrix.Spec

variable {K : Type*} [Field K] [LinearOrder K] [FloorRing K]

/-- The distance of the hue `h` from the hue `n / 6` on a circle of circumference 1, in sixths. -/
def hueDistance (n h : K) : K :=
  let d := 6 * Int.fract (h - n / 6)
  min d (6 - d)

/-- A primary colour whose hue is `n / 6`, in the colour of hue `h`, saturation `s` and value `v`: it has the full value up to one
sixth of the circle from its hue, then its share of the saturation falls linearly and vanishes from two sixths on. -/
def primaryOf (n h s v : K) : K := v * (1 - s * max 0 (min 1 (hueDistance n h - 1)))

/-- Red has the hue 0, green one third and blue two thirds. The numbers are truncated to bytes. -/
def colorOf (h s v : K) : Nat × Nat × Nat × Nat :=
  (255, ⌊255 * primaryOf 0 h s v⌋.toNat, ⌊255 * primaryOf 2 h s v⌋.toNat, ⌊255 * primaryOf 4 h s v⌋.toNat)

end Geometrix.Spec
