import Verif.Model.Basic
import Mathlib.Algebra.Order.Floor.Ring

/-!
# Fixed point numbers

`geometrix/numeric/fixed_point.hpp`, `geometrix/numeric/fixed_point_traits.hpp` and the widening casts
of `geometrix/arithmetic/arithmetic_promotion_policy.hpp`. Integers have the bounds of their type; a
signed overflow is an outcome of its own.
-/

namespace Geometrix

/-- The fixed width integer types: `signed char`, `unsigned char`, `short`, `unsigned short`, `int`,
`unsigned int`, `long long`, `unsigned long long`. Simplification: `char` and `long` are the types of
the same width and sign. -/
inductive IntTy where
  | i8 | u8 | i16 | u16 | i32 | u32 | i64 | u64
  deriving DecidableEq, Repr

namespace IntTy

/-- The number of bits. -/
def bits : IntTy → Nat
  | i8 | u8 => 8
  | i16 | u16 => 16
  | i32 | u32 => 32
  | i64 | u64 => 64

/-- Signed types. -/
def signed : IntTy → Bool
  | i8 | i16 | i32 | i64 => true
  | u8 | u16 | u32 | u64 => false

/-- The least value: `std::numeric_limits<T>::min`. -/
def lo : IntTy → Int
  | i8 => -2 ^ 7
  | i16 => -2 ^ 15
  | i32 => -2 ^ 31
  | i64 => -2 ^ 63
  | u8 | u16 | u32 | u64 => 0

/-- The largest value: `std::numeric_limits<T>::max`. -/
def hi : IntTy → Int
  | i8 => 2 ^ 7 - 1
  | u8 => 2 ^ 8 - 1
  | i16 => 2 ^ 15 - 1
  | u16 => 2 ^ 16 - 1
  | i32 => 2 ^ 31 - 1
  | u32 => 2 ^ 32 - 1
  | i64 => 2 ^ 63 - 1
  | u64 => 2 ^ 64 - 1

/-- The type has this value. -/
def Has (t : IntTy) (n : Int) : Prop := t.lo ≤ n ∧ n ≤ t.hi

instance (t : IntTy) (n : Int) : Decidable (t.Has n) := by unfold Has; infer_instance

/-- `widen<T>::type`: `geometrix/arithmetic/arithmetic_promotion_policy.hpp:98-181`. -/
def widen : IntTy → IntTy
  | i8 => i32
  | u8 => u32
  | i16 => i32
  | u16 => u32
  | i32 => i64
  | u32 => u64
  | i64 => i64
  | u64 => u64

/-- The integral promotion of the language. -/
def promote : IntTy → IntTy
  | i8 | u8 | i16 | u16 => i32
  | t => t

/-- The common type of a (promoted) type and `std::int64_t`. -/
def with64 : IntTy → IntTy
  | u64 => u64
  | _ => i64

end IntTy

/-- `boost::numeric_cast` between integers: throws when the value does not fit. -/
def numericCast (t : IntTy) (n : Int) : Res Int := if t.Has n then .ok n else .error .thrown

/-- The value of an arithmetic operation in a promoted type: overflow of a signed type is undefined,
an unsigned type wraps around. -/
def intArith (t : IntTy) (n : Int) : Res Int :=
  if t.Has n then .ok n else if t.signed then .error .overflow else .ok (n % 2 ^ t.bits)

/-- Implicit conversion to an integer type: modulo the number of values. -/
def intConv (t : IntTy) (n : Int) : Int := if t.Has n then n else (n - t.lo) % 2 ^ t.bits + t.lo

/-- `v << e` in a promoted type. Simplification: the shift of a negative number is the multiplication,
as in C++20 and in practice before. -/
def shl (t : IntTy) (v : Int) (e : Nat) : Res Int :=
  if e < t.bits then intArith t (v * 2 ^ e) else .error .overflow

/-- `v >> e` in a promoted type. Simplification: the shift of a negative number is the arithmetic
shift, as in C++20 and in practice before. -/
def shr (t : IntTy) (v : Int) (e : Nat) : Res Int :=
  if e < t.bits then .ok (v / 2 ^ e) else .error .overflow

/-- The scale policies: `geometrix/numeric/fixed_point_traits.hpp:36-237`. -/
inductive Scale where
  /-- `generic_compile_time_scale_policy<Radix, Exp>` -/
  | generic (radix exp : Nat)
  /-- `generic_run_time_scale_policy<Radix>` with `m_scale` -/
  | genericRun (radix exp : Nat)
  /-- `binary_compile_time_scale_policy<Exp>` -/
  | binary (exp : Nat)
  /-- `binary_run_time_scale_policy` with `m_scale` -/
  | binaryRun (exp : Nat)
  deriving DecidableEq, Repr

/-- `scale_up<B>( T v )` for integral `T`: `fixed_point_traits.hpp:44-49`, `:84-89`, `:122-127`,
`:184-189`. The power of the run time policy is computed in `int` (`integral_pow`,
`geometrix/arithmetic/arithmetic.hpp:90-107`), that of the compile time policy is an `int64_t` constant
(`power_c`, `arithmetic.hpp:78-88`). -/
def scaleUp (s : Scale) (B T : IntTy) (v : Int) : Res Int :=
  match s with
  | .generic r e =>
    if IntTy.i64.Has (r ^ e) then
      match intArith T.widen.with64 (v * r ^ e) with
      | .error f => .error f
      | .ok n => numericCast B n
    else .error .overflow
  | .genericRun r e =>
    if IntTy.i32.Has (r ^ e) then
      match intArith T.widen (v * r ^ e) with
      | .error f => .error f
      | .ok n => numericCast B n
    else .error .overflow
  | .binary e | .binaryRun e =>
    match shl T.widen v e with
    | .error f => .error f
    | .ok n => numericCast B n

/-- `scale_down<T>( B v )` for integral `T`: `fixed_point_traits.hpp:51-56`, `:91-95`, `:135-139`,
`:197-201`. -/
def scaleDown (s : Scale) (T B : IntTy) (v : Int) : Res Int :=
  match s with
  | .generic r e =>
    if IntTy.i64.Has (r ^ e) then
      if r ^ e = 0 then .error .divByZero else numericCast T (v.tdiv (r ^ e))
    else .error .overflow
  | .genericRun r e =>
    if IntTy.i32.Has (r ^ e) then
      if r ^ e = 0 then .error .divByZero else numericCast T (v.tdiv (r ^ e))
    else .error .overflow
  | .binary e | .binaryRun e =>
    match shr B.promote v e with
    | .error f => .error f
    | .ok n => numericCast T n

/-- `scale_down<T>( B v )` for a floating point type `T` and integral `B`: `fixed_point_traits.hpp:51-56`,
`:91-95`, `:141-145`, `:203-208`. The operands of the division are integers. Simplification: the
conversion of the quotient to floating point is exact. -/
def scaleDownReal (s : Scale) (v : Int) : Res Int :=
  match s with
  | .generic r e =>
    if IntTy.i64.Has (r ^ e) then
      if r ^ e = 0 then .error .divByZero else .ok (v.tdiv (r ^ e))
    else .error .overflow
  | .genericRun r e =>
    if IntTy.i32.Has (r ^ e) then
      if r ^ e = 0 then .error .divByZero else .ok (v.tdiv (r ^ e))
    else .error .overflow
  | .binary e => if IntTy.i64.Has (2 ^ e) then .ok (v.tdiv (2 ^ e)) else .error .overflow
  | .binaryRun e => if e = 0 then .error .divByZero else .ok (v.tdiv e)

/-! ## Rounding policies -/

section
variable {K : Type*} [Field K] [LinearOrder K] [FloorRing K]

/-- `round_half_to_even::round` of a floating point number: `fixed_point_traits.hpp:241-273`. -/
def roundHalfToEven (v : K) : Int :=
  let prev := ⌊v⌋
  let next := ⌈v⌉
  let rt : K := (v - (prev : K)) - ((next : K) - v)
  if rt < 0 then prev
  else if rt > 0 then next
  else if 2 * ⌊(prev : K) / 2⌋ = prev then prev else next

/-- `round_toward_zero::round`: `fixed_point_traits.hpp:275-292`. -/
def roundTowardZero (v : K) : Int := if v ≥ 0 then ⌊v⌋ else ⌈v⌉

/-- `round_toward_infinity::round`: `fixed_point_traits.hpp:294-311`. -/
def roundTowardInfinity (v : K) : Int := ⌈v⌉

/-- `round_toward_neg_infinity::round`: `fixed_point_traits.hpp:313-330`. -/
def roundTowardNegInfinity (v : K) : Int := ⌊v⌋

/-- `scale_up<T>( T v )` for a floating point type: `fixed_point_traits.hpp:46-49`, `:85-88`,
`:128-132`, `:190-194`. Simplification: floating point numbers are exact. -/
def scaleUpReal (s : Scale) (v : K) : Res K :=
  match s with
  | .generic r e => if IntTy.i64.Has (r ^ e) then .ok (v * (r : K) ^ e) else .error .overflow
  | .genericRun r e => if IntTy.i32.Has (r ^ e) then .ok (v * (r : K) ^ e) else .error .overflow
  | .binary e => if IntTy.i64.Has (2 ^ e) then .ok (v * 2 ^ e) else .error .overflow
  | .binaryRun e => if IntTy.i32.Has (2 ^ e) then .ok (v * 2 ^ e) else .error .overflow

/-- `convert_to_format` of a floating point number: `geometrix/numeric/fixed_point.hpp:59-71`. -/
def fixFromReal (s : Scale) (F : IntTy) (round : K → Int) (v : K) : Res Int :=
  match scaleUpReal s v with
  | .error f => .error f
  | .ok x => numericCast F (round x)

end

/-! ## The operations; numbers are given by `m_value`, `F` is `format_type` -/

/-- `convert_to_format` of an integer of type `T`: `fixed_point.hpp:59-71`. The scaled value is cast to
`T`, the type of the argument, before it is cast to `format_type`. -/
def fixFromInt (s : Scale) (F T : IntTy) (v : Int) : Res Int :=
  match scaleUp s T T v with
  | .error f => .error f
  | .ok n => numericCast F n

/-- `convert_to<T>` for integral `T`: `fixed_point.hpp:262-266`. -/
def fixToInt (s : Scale) (F T : IntTy) (a : Int) : Res Int := scaleDown s T F a

/-- `convert_to<T>` for floating point `T`: `fixed_point.hpp:262-266`. -/
def fixToReal (s : Scale) (a : Int) : Res Int := scaleDownReal s a

/-- `operator +=`: `fixed_point.hpp:210-214`. -/
def fixAdd (F : IntTy) (a b : Int) : Res Int :=
  match intArith F.promote (a + b) with
  | .error f => .error f
  | .ok n => .ok (intConv F n)

/-- `operator -=`: `fixed_point.hpp:223-227`. -/
def fixSub (F : IntTy) (a b : Int) : Res Int :=
  match intArith F.promote (a - b) with
  | .error f => .error f
  | .ok n => .ok (intConv F n)

/-- Unary `operator -`: `fixed_point.hpp:191-196`. -/
def fixNeg (F : IntTy) (a : Int) : Res Int :=
  match intArith F.promote (-a) with
  | .error f => .error f
  | .ok n => .ok (intConv F n)

/-- `operator ++`: `fixed_point.hpp:198-202`. -/
def fixInc (s : Scale) (F : IntTy) (a : Int) : Res Int :=
  match scaleUp s F .i32 1 with
  | .error f => .error f
  | .ok one => fixAdd F a one

/-- `operator --`: `fixed_point.hpp:204-208`. -/
def fixDec (s : Scale) (F : IntTy) (a : Int) : Res Int :=
  match scaleUp s F .i32 1 with
  | .error f => .error f
  | .ok one => fixSub F a one

/-- `operator *=`: `fixed_point.hpp:236-240`. -/
def fixMul (s : Scale) (F : IntTy) (a b : Int) : Res Int :=
  match intArith F.widen (a * b) with
  | .error f => .error f
  | .ok n => scaleDown s F F.widen n

/-- `operator /=`: `fixed_point.hpp:248-254`. -/
def fixDiv (s : Scale) (F : IntTy) (a b : Int) : Res Int :=
  match scaleUp s F.widen F a with
  | .error f => .error f
  | .ok num =>
    if b = 0 then .error .divByZero
    else
      match intArith F.widen (num.tdiv b) with
      | .error f => .error f
      | .ok q => numericCast F q

/-- `fmod`: `fixed_point.hpp:338-341`. The narrowing to `format_type` is the identity on remainders. -/
def fixFmod (F : IntTy) (a b : Int) : Res Int :=
  if b = 0 then .error .divByZero
  else
    match intArith F.promote (a.tdiv b) with
    | .error f => .error f
    | .ok _ => .ok (a.tmod b)

/-- `operator <`: `fixed_point.hpp:163-166`. -/
def fixLess (a b : Int) : Bool := decide (a < b)

/-- `operator ==`: `fixed_point.hpp:180-183`. -/
def fixEq (a b : Int) : Bool := decide (a = b)

/-- `operator <` with an integer on the right: `fixed_point.hpp:168-172`. -/
def fixLessInt (s : Scale) (F T : IntTy) (a : Int) (v : Int) : Res Bool :=
  match fixFromInt s F T v with
  | .error f => .error f
  | .ok b => .ok (decide (a < b))

/-- `fabs` and `abs`: `fixed_point.hpp:464-480`. The comparison with 0 converts the `int` 0. -/
def fixAbs (s : Scale) (F : IntTy) (a : Int) : Res Int :=
  match fixFromInt s F .i32 0 with
  | .error f => .error f
  | .ok z => if a > z then .ok a else fixNeg F a

end Geometrix
