import Verif.Model.FixedPoint

/-!
# Fixed point numbers mixed with plain numbers

Comparisons and arithmetic of a `fixed_point` with an integer or a floating point number, and the conversion
of a `fixed_point` to a `fixed_point` of another type. The argument `c` is the plain number converted to the
format of the fixed point operand: `fixFromReal` or `fixFromInt`.
-/

namespace Geometrix

/-- `fixed_point < number`: `geometrix/numeric/fixed_point.hpp:168-172`. -/
def mixLess (a : Int) (c : Res Int) : Res Bool :=
  match c with
  | .error f => .error f
  | .ok b => .ok (decide (a < b))

/-- `fixed_point > number`: `fixed_point.hpp:174-178`. -/
def mixGreater (a : Int) (c : Res Int) : Res Bool :=
  match c with
  | .error f => .error f
  | .ok b => .ok (decide (a > b))

/-- `fixed_point == number`: `fixed_point.hpp:185-189`. -/
def mixEq (a : Int) (c : Res Int) : Res Bool :=
  match c with
  | .error f => .error f
  | .ok b => .ok (decide (a = b))

/-- `!static_cast<bool>( … )` in the operators of
`geometrix/numeric/detail/friend_ordered_field_operators.hpp:19-44`. -/
def notRes : Res Bool → Res Bool
  | .error f => .error f
  | .ok r => .ok (!r)

/-- `fixed_point <= number`: `friend_ordered_field_operators.hpp:21`. -/
def mixLe (a : Int) (c : Res Int) : Res Bool := notRes (mixGreater a c)

/-- `fixed_point >= number`: `friend_ordered_field_operators.hpp:22`. -/
def mixGe (a : Int) (c : Res Int) : Res Bool := notRes (mixLess a c)

/-- `number > fixed_point`: `friend_ordered_field_operators.hpp:23`. -/
def numGreater (c : Res Int) (a : Int) : Res Bool := mixLess a c

/-- `number < fixed_point`: `friend_ordered_field_operators.hpp:24`. -/
def numLess (c : Res Int) (a : Int) : Res Bool := mixGreater a c

/-- `number <= fixed_point`: `friend_ordered_field_operators.hpp:25`. -/
def numLe (c : Res Int) (a : Int) : Res Bool := notRes (mixLess a c)

/-- `number >= fixed_point`: `friend_ordered_field_operators.hpp:26`. -/
def numGe (c : Res Int) (a : Int) : Res Bool := notRes (mixGreater a c)

/-- `number == fixed_point`: `friend_ordered_field_operators.hpp:36`. -/
def numEq (c : Res Int) (a : Int) : Res Bool := mixEq a c

/-- `number != fixed_point`: `friend_ordered_field_operators.hpp:37`. -/
def numNe (c : Res Int) (a : Int) : Res Bool := notRes (mixEq a c)

/-- `fixed_point != number`: `friend_ordered_field_operators.hpp:38`. -/
def mixNe (a : Int) (c : Res Int) : Res Bool := notRes (mixEq a c)

/-- `fixed_point + number` and `number + fixed_point`: `fixed_point.hpp:216-221`, `:383-392`. -/
def mixAdd (F : IntTy) (a : Int) (c : Res Int) : Res Int :=
  match c with
  | .error f => .error f
  | .ok b => fixAdd F a b

/-- `fixed_point - number`: `fixed_point.hpp:229-234`, `:393-397`. -/
def mixSub (F : IntTy) (a : Int) (c : Res Int) : Res Int :=
  match c with
  | .error f => .error f
  | .ok b => fixSub F a b

/-- `fixed_point * number` and `number * fixed_point`: `fixed_point.hpp:242-246`, `:373-382`. The factor is
made with the scale of the left operand of `*=`. -/
def mixMul (s : Scale) (F : IntTy) (a : Int) (c : Res Int) : Res Int :=
  match c with
  | .error f => .error f
  | .ok b => fixMul s F a b

/-- `fixed_point / number`: `fixed_point.hpp:256-260`, `:403-407`. -/
def mixDiv (s : Scale) (F : IntTy) (a : Int) (c : Res Int) : Res Int :=
  match c with
  | .error f => .error f
  | .ok b => fixDiv s F a b

/-- The scale of a `fixed_point` made from a number alone, `scale_policy()`: `fixed_point.hpp:141-145`. A run
time scale has the default 2: `geometrix/numeric/fixed_point_traits.hpp:80-82`, `:180-182`. -/
def Scale.default : Scale → Scale
  | .generic r e => .generic r e
  | .genericRun r _ => .genericRun r 2
  | .binary e => .binary e
  | .binaryRun _ => .binaryRun 2

/-- `number - fixed_point`, `fixed_point<Traits>(lhs) -= rhs`: `fixed_point.hpp:398-402`. The result has the
scale of the temporary; `conv` converts the number with a given scale. -/
def numSub (s : Scale) (F : IntTy) (conv : Scale → Res Int) (a : Int) : Res (Scale × Int) :=
  match conv s.default with
  | .error f => .error f
  | .ok b =>
    match fixSub F b a with
    | .error f => .error f
    | .ok n => .ok (s.default, n)

/-- `number / fixed_point`, `fixed_point<Traits>(lhs) /= rhs`: `fixed_point.hpp:409-413`. -/
def numDiv (s : Scale) (F : IntTy) (conv : Scale → Res Int) (a : Int) : Res (Scale × Int) :=
  match conv s.default with
  | .error f => .error f
  | .ok b =>
    match fixDiv s.default F b a with
    | .error f => .error f
    | .ok n => .ok (s.default, n)

/-- The conversion of a number of one `fixed_point` type with raw value `a` to another `fixed_point` type with
scale `s'` and format `F'`, `fixed_point( const fixed_point<T>& )`: `fixed_point.hpp:72-79`, `:135-139`, with the
default helper `geometrix/numeric/detail/fixed_point.hpp:69-83`. The specialisations at `:106-191` of the latter
are never selected for `fixed_point_traits`, which has no `radix_type` (`fixed_point_traits.hpp:332-338`). A run
time scale of the result is the default one. -/
def fixConvert {K : Type*} [Field K] [LinearOrder K] [FloorRing K] (s s' : Scale) (F' : IntTy) (round : K → Int)
    (a : Int) : Res (Scale × Int) :=
  match fixToReal s a with
  | .error f => .error f
  | .ok n =>
    match fixFromReal s'.default F' round (n : K) with
    | .error f => .error f
    | .ok b => .ok (s'.default, b)

/-- The assignment of a number of another `fixed_point` type, `operator =( const V& )`: `fixed_point.hpp:147-154`.
The scale of the target stays. -/
def fixAssign {K : Type*} [Field K] [LinearOrder K] [FloorRing K] (s s' : Scale) (F' : IntTy) (round : K → Int)
    (a : Int) : Res (Scale × Int) :=
  match fixToReal s a with
  | .error f => .error f
  | .ok n =>
    match fixFromReal s' F' round (n : K) with
    | .error f => .error f
    | .ok b => .ok (s', b)

end Geometrix
