import Mathlib.Algebra.Order.Floor.Ring
import Mathlib.Algebra.Order.Field.Basic
import Verif.Model.Basic

/-!
# Colours

`geometrix/utility/golden_ratio_color_generator.hpp`, with exact arithmetic in place of `float` and `double`. A colour is the tuple
alpha, red, green, blue of four numbers from 0 to 255.
-/

namespace Geometrix

variable {K : Type*} [Field K] [LinearOrder K] [FloorRing K]

/-- `static_cast<std::uint8_t>` of a floating point number: it is truncated; `overflow` stands for the undefined behaviour if the
result is not a number of the type. -/
def toByte (x : K) : Res Nat :=
  if -1 < x ∧ x < 256 then .ok ⌊x⌋.toNat else .error .overflow

/-- The three numbers before they are scaled to 255: `golden_ratio_color_generator.hpp:22-38`. The conversion to `int` in line 24
is undefined beyond its range. `i % 6` has the sign of `i`; if no case applies all three are zero. -/
def hsvSwitch (h s v : K) : Res (K × K × K) :=
  let i := ⌊h * 6⌋
  let f := h * 6 - i
  let p := v * (1 - s)
  let q := v * (1 - f * s)
  let t := v * (1 - (1 - f) * s)
  if i < -2 ^ 31 ∨ 2 ^ 31 ≤ i then .error .overflow
  else if i.tmod 6 = 0 then .ok (v, t, p)
  else if i.tmod 6 = 1 then .ok (q, v, p)
  else if i.tmod 6 = 2 then .ok (p, v, t)
  else if i.tmod 6 = 3 then .ok (p, q, v)
  else if i.tmod 6 = 4 then .ok (t, p, v)
  else if i.tmod 6 = 5 then .ok (v, p, q)
  else .ok (0, 0, 0)

/-- `hsv2rgb`: `golden_ratio_color_generator.hpp:20-41`. -/
def hsv2rgb (h s v : K) : Res (Nat × Nat × Nat × Nat) :=
  match hsvSwitch h s v with
  | .error e => .error e
  | .ok (r, g, b) =>
    match toByte (r * 255), toByte (g * 255), toByte (b * 255) with
    | .ok r, .ok g, .ok b => .ok (255, r, g, b)
    | _, _, _ => .error .overflow

/-- `generate_colors`: `golden_ratio_color_generator.hpp:43-56`, where `rnd` are the numbers of the random generator. `fmod(x, 1.0)` of
a number that is not negative is its fractional part. -/
def generateColors (s v : K) : (rnd : List K) → Res (List (Nat × Nat × Nat × Nat))
  | [] => .ok []
  | x :: rnd =>
    match hsv2rgb (Int.fract (618033988749895 / 10 ^ 15 + x)) s v with
    | .error e => .error e
    | .ok c =>
      match generateColors s v rnd with
      | .error e => .error e
      | .ok cs => .ok (c :: cs)

end Geometrix
