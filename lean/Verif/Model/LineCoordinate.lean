import Verif.Model.Basic

/-!
# The line through two points: one coordinate from the other

`geometrix/utility/utilities.hpp:288-353` and `geometrix/numeric/rational_utilities.hpp`.
-/

set_option linter.unusedSectionVars false

namespace Geometrix

variable {K : Type*} [Field K] [LinearOrder K]

/-- `get_slope`: `geometrix/utility/utilities.hpp:288-301`. -/
def getSlope (s e : P2 K) : Res K := cdiv (e.y - s.y) (e.x - s.x)

/-- `y_of_x`: `utilities.hpp:303-326` (both overloads), with the value and the slope. -/
def yOfX (s e : P2 K) (x : K) : Res (K × K) :=
  match cdiv (e.y - s.y) (e.x - s.x) with
  | .error f => .error f
  | .ok slope => .ok ((x - s.x) * slope + s.y, slope)

/-- `x_of_y`: `utilities.hpp:328-355` (both overloads), with the value and the slope. -/
def xOfY (s e : P2 K) (y : K) : Res (K × K) :=
  match cdiv (e.y - s.y) (e.x - s.x) with
  | .error f => .error f
  | .ok slope =>
    match cdiv (y - s.y) slope with
    | .error f => .error f
    | .ok q => .ok (q + s.x, slope)

/-- A point with integer coordinates: `point<int, 2>`. Overflow is not modelled. -/
structure PZ where
  x : ℤ
  y : ℤ
  deriving DecidableEq

/-- `x_of_y` for points with integer coordinates, and integers as `CoordinateType`: `utilities.hpp:328-355`. The
divisions are those of integers, toward zero. -/
def xOfYInt (s e : PZ) (y : ℤ) : Res ℤ :=
  if e.x - s.x = 0 then .error .divByZero
  else
    let slope := (e.y - s.y).tdiv (e.x - s.x)
    if slope = 0 then .error .divByZero else .ok ((y - s.y).tdiv slope + s.x)

/-- The constructor of `boost::rational` from two integers throws if the denominator is zero. -/
def makeRational (n d : ℤ) : Res ℚ := if d = 0 then .error .thrown else .ok ((n : ℚ) / d)

/-- `rational_y_of_x`: `geometrix/numeric/rational_utilities.hpp:33-63` (both overloads), with the value and the
slope. -/
def rationalYOfX (s e : PZ) (x : ℤ) : Res (ℚ × ℚ) :=
  match makeRational (e.y - s.y) (e.x - s.x) with
  | .error f => .error f
  | .ok slope => .ok (slope * ((x - s.x : ℤ) : ℚ) + s.y, slope)

/-- `rational_x_of_y`: `rational_utilities.hpp:65-95` (both overloads), with the value and the slope. The division of
rational numbers throws if the divisor is zero. -/
def rationalXOfY (s e : PZ) (y : ℤ) : Res (ℚ × ℚ) :=
  match makeRational (e.y - s.y) (e.x - s.x) with
  | .error f => .error f
  | .ok slope => if slope = 0 then .error .thrown else .ok (((y - s.y : ℤ) : ℚ) / slope + s.x, slope)

end Geometrix
