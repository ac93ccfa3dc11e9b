import Verif.Spec.Rounding

/-!
# The constants

`geometrix/numeric/constants.hpp`. A literal is a number of the type `double`. As GCC, Clang and Microsoft's compiler do, it is
rounded to nearest (the standard leaves the choice of a neighbouring number open). `cast` is the conversion to the type of the
constant, `construction_policy.hpp:60-65` and `numeric_traits.hpp:94-98`: the identity for `double`, rounding to 24 bits for
`float`; a `long double` takes the number unchanged.
-/

namespace Geometrix

open Spec

variable {K : Type*} [Field K] [LinearOrder K] [FloorRing K]

/-- `pi`: `constants.hpp:29`. -/
def constPi (cast : K → K) : K := cast (roundBits 53 (31415926535897931 / 10 ^ 16))

/-- `two_pi`: `constants.hpp:30`, with a multiplication of `double`. -/
def constTwoPi (cast : K → K) : K := cast (roundBits 53 (2 * roundBits 53 (31415926535897931 / 10 ^ 16)))

/-- `half_pi`: `constants.hpp:31`. -/
def constHalfPi (cast : K → K) : K := cast (roundBits 53 (1 / 2 * roundBits 53 (31415926535897931 / 10 ^ 16)))

/-- `zero`: `constants.hpp:32`. -/
def constZero (cast : K → K) : K := cast 0

/-- `one`: `constants.hpp:33`. -/
def constOne (cast : K → K) : K := cast 1

/-- `negative_one`: `constants.hpp:34`. -/
def constNegativeOne (cast : K → K) : K := cast (-1)

/-- `two`: `constants.hpp:35`. -/
def constTwo (cast : K → K) : K := cast 2

/-- `one_half`: `constants.hpp:36`. -/
def constOneHalf (cast : K → K) : K := cast (1 / 2)

/-- `e`: `constants.hpp:37`. -/
def constE (cast : K → K) : K := cast (roundBits 53 (27182818284590452 / 10 ^ 16))

/-- `sqrt_2`: `constants.hpp:38`. -/
def constSqrt2 (cast : K → K) : K := cast (roundBits 53 (14142135623730950 / 10 ^ 16))

end Geometrix
