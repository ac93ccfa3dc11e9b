import Mathlib.Data.Rat.Floor
import Verif.Lemmas.Colors

/-!
# C131: colours
-/

namespace Geometrix

open Spec

variable {K : Type*} [Field K] [LinearOrder K] [IsStrictOrderedRing K] [FloorRing K]

/-- C131: `hsv2rgb` gives the colour of the hue, the saturation and the value, for hues that are not negative. Missing from the full
statement: negative hues. -/
theorem C131_color_partial {h s v : K} (h0 : 0 ≤ h) (h1 : h * 6 < 2 ^ 31) (s0 : 0 ≤ s) (s1 : s ≤ 1) (v0 : 0 ≤ v) (v1 : v ≤ 1) :
    hsv2rgb h s v = .ok (colorOf h s v) := by
  rw [hsv2rgb, hsvSwitch_primary h0 h1]
  simp only
  rw [toByte_ok (primaryOf_unit s0 s1 v0 v1).1 (primaryOf_unit s0 s1 v0 v1).2,
    toByte_ok (primaryOf_unit s0 s1 v0 v1).1 (primaryOf_unit s0 s1 v0 v1).2,
    toByte_ok (primaryOf_unit s0 s1 v0 v1).1 (primaryOf_unit s0 s1 v0 v1).2]
  rfl

/-- A hue between yellow and green. -/
example : (0 : ℚ) ≤ 1 / 4 ∧ (1 / 4 : ℚ) * 6 < 2 ^ 31 ∧ (0 : ℚ) ≤ 1 / 2 ∧ (1 / 2 : ℚ) ≤ 1 := by norm_num

example : hsv2rgb (1 / 4 : ℚ) 1 1 = .ok (255, 127, 255, 0) ∧ colorOf (1 / 4 : ℚ) 1 1 = (255, 127, 255, 0) := by
  constructor <;> decide +kernel

/-- C131: `generate_colors` returns as many colours as random numbers are drawn, each with the hue that is the fractional part of the
sum of the golden ratio and the random number. -/
theorem C131_generate {s v : K} (s0 : 0 ≤ s) (s1 : s ≤ 1) (v0 : 0 ≤ v) (v1 : v ≤ 1) (rnd : List K) :
    generateColors s v rnd = .ok (rnd.map fun x => colorOf (Int.fract (618033988749895 / 10 ^ 15 + x)) s v) := by
  induction rnd with
  | nil => rfl
  | cons x rnd ih =>
    have h1 := Int.fract_lt_one (618033988749895 / 10 ^ 15 + x)
    rw [generateColors, C131_color_partial (Int.fract_nonneg _) (by linarith) s0 s1 v0 v1, ih]
    rfl

/-- The default saturation and value. -/
example : (0 : ℚ) ≤ 99 / 100 ∧ (99 / 100 : ℚ) ≤ 1 := by norm_num

/-- The code violates C131: a negative hue, although hues are angles, gives black instead of a colour. -/
theorem C131_negative_refuted : hsv2rgb (-1 / 4 : ℚ) 1 1 = .ok (255, 0, 0, 0) ∧ colorOf (-1 / 4 : ℚ) 1 1 = (255, 127, 0, 255) := by
  constructor <;> decide +kernel

/-- Two hues that differ by a full turn have the same colour. -/
example : colorOf (-1 / 4 : ℚ) 1 1 = colorOf (3 / 4 : ℚ) 1 1 ∧ hsv2rgb (3 / 4 : ℚ) 1 1 = .ok (255, 127, 0, 255) := by
  constructor <;> decide +kernel

end Geometrix
