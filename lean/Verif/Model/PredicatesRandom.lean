import Verif.Model.Basic

/-!
# Random floating point numbers of the robust predicates

`geometrix/algorithm/predicates.hpp:489-620`. The results of the POSIX function `random()`, integers from 0 to 2^31 - 1, are parameters.

Simplifications: the rounding `fl` to the floating point type is a parameter, the exponent has no bounds; `long` has at least 32 bits, and
`>>` of a negative number is the arithmetic shift, as in C++20 and in practice before.
-/

namespace Geometrix

variable {K : Type*} [Field K]

/-- The loop that scales by a power of two: lines 507-511 (`last` is 131072), lines 533-537 and 601-605 (2048), lines 575-579 (16384). -/
def randLoop (fl : K → K) (last c : Nat) : (fuel : Nat) → (i : Nat) → (expo result : K) → Res K
  | 0, _, _, _ => .error .diverges
  | fuel + 1, i, expo, result =>
    if i ≤ last then
      randLoop fl last c fuel (i * 2) (fl (expo * expo)) (if c &&& i ≠ 0 then fl (result * expo) else result)
    else .ok result

/-- `uniformdoublerand`: lines 547-556. -/
def uniformDoubleRand (fl : K → K) (a b : Nat) : K :=
  fl (fl (fl (((a : ℤ) - 1073741824 : ℤ) : K) * 8388608) + fl ((b / 256 : Nat) : K))

/-- `doublerand`: lines 496-513. -/
def doubleRand (fl : K → K) (a b c : Nat) : Res K := randLoop fl 131072 c 64 512 2 (uniformDoubleRand fl a b)

/-- `narrowdoublerand`: lines 522-539. -/
def narrowDoubleRand (fl : K → K) (a b c : Nat) : Res K := randLoop fl 2048 c 64 512 2 (uniformDoubleRand fl a b)

/-- `uniformfloatrand`: lines 614-622. -/
def uniformFloatRand (fl : K → K) (a : Nat) : K := fl ((((a : ℤ) - 1073741824) / 64 : ℤ) : K)

/-- `floatrand`: lines 565-581. -/
def floatRand (fl : K → K) (a c : Nat) : Res K := randLoop fl 16384 c 64 512 2 (uniformFloatRand fl a)

/-- `narrowfloatrand`: lines 590-606. -/
def narrowFloatRand (fl : K → K) (a c : Nat) : Res K := randLoop fl 2048 c 64 512 2 (uniformFloatRand fl a)

end Geometrix
