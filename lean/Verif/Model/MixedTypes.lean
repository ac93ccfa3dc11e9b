import Verif.Model.FixedPoint
import Verif.Spec.Rounding

/-!
# Arithmetic with numbers of different types

`geometrix/arithmetic/arithmetic_promotion_policy.hpp`, `geometrix/numeric/numeric_traits.hpp:36-88` and the functions of two numbers
in `geometrix/arithmetic/arithmetic.hpp:164-291`. A number is an element of a field `K`; the type it has in the program is given
beside it. Simplification: floating point numbers have no bounds for the exponent.
-/

namespace Geometrix

open Spec

/-- The arithmetic types of the language: `numeric_traits.hpp:75-88`. `float`, `double` and `long double` are `floating 24`, `floating 53`
and `floating 64`. Simplification: no `bool`; `char` and `long` are as in `IntTy`. -/
inductive ArithTy where
  | integral (t : IntTy)
  | floating (bits : Nat)
  deriving DecidableEq, Repr

namespace ArithTy

/-- `numeric_traits::digits`, which is `std::numeric_limits::digits10`: `numeric_traits.hpp:83-87`. -/
def digits : ArithTy → Nat
  | integral t => Nat.log 10 (t.hi.toNat + 1)
  | floating p => Nat.log 10 (2 ^ (p - 1))

/-- `numeric_width_compare`: `numeric_traits.hpp:36-73`. -/
def widthLess : ArithTy → ArithTy → Bool
  | integral _, floating _ => true
  | floating _, integral _ => false
  | a, b => decide (a.digits < b.digits)

/-- `select_arithmetic_type_from_2`: `arithmetic_promotion_policy.hpp:60-75`. -/
def selectTwo (a b : ArithTy) : ArithTy := if a = b then a else if a.widthLess b then a else b

/-- `select_arithmetic_type_from_sequence`: `arithmetic_promotion_policy.hpp:50-58`, of the types `a :: l`, with `boost::mpl::max_element`:
a later type takes the place of the largest so far if that is less. -/
def selectSequence (a : ArithTy) (l : List ArithTy) : ArithTy := l.foldl (fun m t => if m.widthLess t then t else m) a

/-- `select_arithmetic_type_from_sequences`: `arithmetic_promotion_policy.hpp:77-84`. -/
def selectSequences (a : ArithTy) (l : List ArithTy) (b : ArithTy) (r : List ArithTy) : ArithTy := selectTwo (selectSequence a l) (selectSequence b r)

end ArithTy

section
variable {K : Type*} [Field K] [LinearOrder K] [FloorRing K]

/-- The integer between `x` and zero that is nearest to `x`: the conversion of the language from floating point numbers. -/
def towardZero (x : K) : ℤ := if 0 ≤ x then ⌊x⌋ else ⌈x⌉

/-- The conversion of a number of the type `src` to the type `dst`, a rule of the language; used at `arithmetic.hpp:212` and
`geometrix/algebra/detail/dot_product.hpp:299`. A floating point number whose integral part does not fit the integer type is undefined
behaviour (`overflow`). -/
def convertNum (src dst : ArithTy) (x : K) : Res K :=
  match dst with
  | .floating p => .ok (roundBits p x)
  | .integral t => match src with
    | .integral _ => .ok ((intConv t ⌊x⌋ : ℤ) : K)
    | .floating _ => if t.Has (towardZero x) then .ok ((towardZero x : ℤ) : K) else .error .overflow

/-- `pow_function_impl` and `atan2_function_impl` for two arithmetic types: `arithmetic.hpp:177-214`, with `F` for the function of the
standard library. -/
def mathBinary {α : Type*} (F : K → K → α) (s t : ArithTy) (a b : K) : Res α :=
  match convertNum s (s.selectTwo t) a with
  | .error e => .error e
  | .ok a' => match convertNum t (s.selectTwo t) b with
    | .error e => .error e
    | .ok b' => .ok (F a' b')

/-- The sum of products that `detail/dot_product.hpp:279-285,297-300` computes, from left to right. `fl` is the rounding of the type the language
gives to the product of the two types of numbers. -/
def productSum (fl : K → K) : List (K × K) → K
  | [] => 0
  | p :: l => l.foldl (fun s q => fl (s + fl (q.1 * q.2))) (fl (p.1 * p.2))

/-- `dot_product` of a vector of numbers of type `s` and one of numbers of type `t`, not both integral:
`geometrix/algebra/dot_product.hpp:26-39`, `detail/dot_product.hpp:73-87,288-301`. `ab` has the pairs of coordinates, `c` is the type that
the language gives to a product of numbers of the two types. The sum is converted to the type that `detail/dot_product.hpp:82-86` selects. -/
def dotMixed (c s t : ArithTy) (fl : K → K) (ab : List (K × K)) : Res K :=
  convertNum c (ArithTy.selectSequences s (List.replicate (ab.length - 1) s) t (List.replicate (ab.length - 1) t)) (productSum fl ab)

/-- `arithmetic_promotion_policy::promote` of an integer: `arithmetic_promotion_policy.hpp:44`. The type `double` has all integers up to
`2 ^ 53`; others are rounded. -/
def promoteInt (n : Int) : K := roundBits 53 (n : K)

/-- `arithmetic_promotion_policy::promote_div` of integers: `arithmetic_promotion_policy.hpp:45`. A division by zero is an outcome of its
own. -/
def promoteDiv (n d : Int) : Res K := if d = 0 then .error .divByZero else .ok (roundBits 53 (promoteInt n / promoteInt d))

/-- `arithmetic_promotion_policy::demote` to an integer type: `arithmetic_promotion_policy.hpp:46`. `boost::numeric_cast` of a `double` to
an integer type compares with the bounds of the type less and plus one, computed with `double`, and else drops the fraction. -/
def demoteInt (t : IntTy) (x : K) : Res Int :=
  if x ≤ roundBits 53 (roundBits 53 (t.lo : K) - 1) then .error .thrown
  else if roundBits 53 (roundBits 53 (t.hi : K) + 1) ≤ x then .error .thrown
  else .ok (towardZero x)

end

/-- `widen_cast` of an integer: `arithmetic_promotion_policy.hpp:190-194`. -/
def widenCast (t : IntTy) (n : Int) : Res Int := numericCast t.widen n

/-- `boost::make_signed`, used at `arithmetic_promotion_policy.hpp:197`. -/
def IntTy.makeSigned : IntTy → IntTy
  | .i8 | .u8 => .i8
  | .i16 | .u16 => .i16
  | .i32 | .u32 => .i32
  | .i64 | .u64 => .i64

/-- `boost::make_unsigned`, used at `arithmetic_promotion_policy.hpp:203`. -/
def IntTy.makeUnsigned : IntTy → IntTy
  | .i8 | .u8 => .u8
  | .i16 | .u16 => .u16
  | .i32 | .u32 => .u32
  | .i64 | .u64 => .u64

/-- `signed_cast`: `arithmetic_promotion_policy.hpp:196-200`. -/
def signedCast (t : IntTy) (n : Int) : Int := intConv t.makeSigned n

/-- `unsigned_cast`: `arithmetic_promotion_policy.hpp:202-206`. -/
def unsignedCast (t : IntTy) (n : Int) : Int := intConv t.makeUnsigned n

end Geometrix
