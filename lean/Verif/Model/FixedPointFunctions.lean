import Verif.Model.FixedPoint

/-!
# Functions and limits of fixed point numbers

`geometrix/numeric/fixed_point.hpp:439-463, 483-577`. As in `Model/FixedPoint.lean` a number is given by its `m_value`.
-/

namespace Geometrix

/-- `sqrt`, `cos`, … `ceil`, `floor`: `fixed_point.hpp:439-461`. The number is converted to `double`, the function `f` of the standard
library is applied, the result is converted back. Simplification: the functions on `double` are exact. -/
def fixFn {K : Type*} [Field K] [LinearOrder K] [FloorRing K] (s : Scale) (F : IntTy) (round : K → Int) (f : K → K) (a : Int) : Res Int :=
  match fixToReal s a with
  | .error e => .error e
  | .ok n => fixFromReal s F round (f (n : K))

/-- `std::numeric_limits<fixed_point>::min`: `fixed_point.hpp:516-521`. -/
def fixLimitMin (F : IntTy) : Int := F.lo

/-- `std::numeric_limits<fixed_point>::max`: `fixed_point.hpp:523-528`. -/
def fixLimitMax (F : IntTy) : Int := F.hi

/-- `std::numeric_limits<fixed_point>::epsilon` and `boost::numeric::bounds<fixed_point>::smallest`: `fixed_point.hpp:530-536, 575`. -/
def fixLimitEpsilon (s : Scale) (F : IntTy) : Res Int :=
  match fixFromInt s F .i32 1 with
  | .error e => .error e
  | .ok one =>
    match fixAdd F one 1 with
    | .error e => .error e
    | .ok more => fixSub F more one

/-- `std::numeric_limits<fixed_point>::round_error`: `fixed_point.hpp:538-541`. -/
def fixLimitRoundError {K : Type*} [Field K] [LinearOrder K] [FloorRing K] (s : Scale) (F : IntTy) (round : K → Int) : Res Int :=
  fixFromReal s F round (1 / 2)

/-- `std::numeric_limits<fixed_point>::denorm_min`, `infinity`, `quiet_NaN` and `signaling_NaN`: `fixed_point.hpp:543-561`. -/
def fixLimitZero (s : Scale) (F : IntTy) : Res Int := fixFromInt s F .i32 0

end Geometrix
