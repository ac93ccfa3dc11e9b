import Verif.Model.Basic

/-!
# The calculator of pi

`geometrix/numeric/integral_constant_pi_calculator.hpp`. All numbers in the function are non negative integers up to the
last division, so they are natural numbers here; `int` has 32 bits. The type `T` is the type of rational numbers.
-/

namespace Geometrix

/-- A value of an `int`: an overflow is undefined behaviour. -/
def asInt (v : Nat) : Res Nat := if 2147483647 < v then .error .overflow else .ok v

/-- The inner loop: `integral_constant_pi_calculator.hpp:66-79`. The first argument is `b`; the result is `d` and the
array. -/
def piInner : Nat → Nat → Nat → List Nat → Res (Nat × List Nat)
  | 0, _, d, f => .ok (d, f)
  | b + 1, g, d, f =>
    match f[b + 1]? with
    | none => .error .outOfRange
    | some v =>
      match asInt (v * 10000) with
      | .error e => .error e
      | .ok w =>
        match asInt (d + w) with
        | .error e => .error e
        | .ok d =>
          let g := g - 1
          if g = 0 then .error .divByZero
          else
            let f := f.set (b + 1) (d % g)
            let d := d / g
            let g := g - 1
            if b ≠ 0 then
              match asInt (d * b) with
              | .error e => .error e
              | .ok d => piInner b g d f
            else piInner b g d f

/-- The padding of a group of digits: `integral_constant_pi_calculator.hpp:82-94`. -/
def piPad (x : Nat) : Nat :=
  let x := if x < 10 then x * 1000 else x
  let x := if x < 100 then x * 100 else x
  if x < 1000 then x * 10 else x

/-- The outer loop: `integral_constant_pi_calculator.hpp:62-121`. The first argument bounds the number of rounds; a
round makes `nDigits` smaller, so that `nDigits + 1` suffices. A negative `c` ends the loop as zero does. The result is
the numerator and the denominator. -/
def piOuter : Nat → Nat → Nat → List Nat → Nat → Bool → Nat → Nat → Res (Nat × Nat)
  | 0, _, _, _, _, _, _, _ => .error .diverges
  | fuel + 1, c, nDigits, f, e, first, num, den =>
    if c > 0 ∧ nDigits > 0 then
      match piInner c (2 * c) 0 f with
      | .error er => .error er
      | .ok (d, f) =>
        let x := piPad (e + d / 10000)
        if nDigits ≥ 4 then
          piOuter fuel (c - 14) (nDigits - 4) f (d % 10000) false (num * 10000 + x)
            (if first then den * 1000 else den * 10000)
        else
          piOuter fuel (c - 14) 0 f (d % 10000) first (num * 10 ^ nDigits + x / 1000) (den * 10 ^ nDigits)
    else .ok (num, den)

/-- `calculate_pi<T, Precision>::pi`: `integral_constant_pi_calculator.hpp:30-126`, with the specialisations for a
precision up to 6 at lines 128-178. A precision that fails the static assertion is `assertFailed`. -/
def calculatePi (precision : Nat) : Res ℚ :=
  match precision with
  | 1 => .ok 3
  | 2 => .ok (31 / 10)
  | 3 => .ok (314 / 100)
  | 4 => .ok (3141 / 1000)
  | 5 => .ok (31415 / 10000)
  | 6 => .ok (314159 / 100000)
  | _ =>
    if precision > 0 ∧ precision < 54900 then
      let size := precision * 14 / 4
      match piOuter (precision + 1) size precision
        (0 :: (List.replicate (size - 1) 2000 ++ [0])) 0 true 0 1 with
      | .error e => .error e
      | .ok (n, d) => .ok ((n : ℚ) / d)
    else .error .assertFailed

end Geometrix
