import Verif.Model.Policy

/-!
# Intervals

`geometrix/numeric/interval.hpp`.
-/

set_option linter.unusedSectionVars false

namespace Geometrix

variable {K : Type*} [Field K] [LinearOrder K]

/-- `interval<Domain>`: `geometrix/numeric/interval.hpp:207-301`, with the `interval_storage` of
`:40-137`. `leftClosed` and `rightClosed` are the two bits of `interval_bounds`. -/
structure Interval (K : Type*) where
  lower : K
  upper : K
  leftClosed : Bool
  rightClosed : Bool
  deriving DecidableEq, Repr

namespace Interval

/-- `interval()`: `interval.hpp:45-48`, `:229-232`, for a domain type without infinity. -/
def empty : Interval K := ⟨1, 0, true, false⟩

/-- `interval( v )`: `interval.hpp:50-53`, `:234-237`. -/
def point (v : K) : Interval K := ⟨v, v, true, true⟩

/-- `closed( lo, up )`: `interval.hpp:224`. -/
def closed (lo up : K) : Interval K := ⟨lo, up, true, true⟩

/-- `open( lo, up )`: `interval.hpp:223`. -/
def «open» (lo up : K) : Interval K := ⟨lo, up, false, false⟩

/-- `right_open( lo, up )`: `interval.hpp:226`, and the default bounds of `:245`. -/
def rightOpen (lo up : K) : Interval K := ⟨lo, up, true, false⟩

/-- `left_open( lo, up )`: `interval.hpp:227`. -/
def leftOpen (lo up : K) : Interval K := ⟨lo, up, false, true⟩

section order

variable {D : Type*} [LinearOrder D]

/-- `interval()`: `interval.hpp:45-48`, `:229-232`, for a domain type with infinity: the ends are `+∞` and `-∞`. -/
def emptyInf [BoundedOrder D] : Interval D := ⟨⊤, ⊥, true, false⟩

/-- `is_empty`: `interval.hpp:60-63`, `:254-257`. -/
def isEmpty (I : Interval D) : Bool := !decide (I.lower ≤ I.upper)

/-- `expand( v )`: `interval.hpp:259-269`. -/
def expand (I : Interval D) (v : D) : Interval D :=
  if !I.isEmpty && decide (v < I.lower) then { I with lower := v }
  else if !I.isEmpty && decide (v > I.upper) then { I with upper := v }
  else if I.isEmpty then { I with lower := v, upper := v }
  else I

/-- `expand( v, cmp )`: `interval.hpp:271-279`. -/
def expandCmp (cmp : Cmp D) (I : Interval D) (v : D) : Interval D :=
  if cmp.lt v I.lower then { I with lower := v }
  else if cmp.gt v I.upper then { I with upper := v }
  else I

/-- `intersects( rhs, cmp )`: `interval.hpp:281-285`. -/
def intersectsCmp (cmp : Cmp D) (I J : Interval D) : Bool :=
  cmp.lt J.lower I.upper && cmp.lt I.lower J.upper

/-- `intersects( rhs )`: `interval.hpp:287-291`. -/
def intersects (I J : Interval D) : Bool := decide (J.lower < I.upper) && decide (I.lower < J.upper)

end order

/-- `operator +=` with a number: `interval.hpp:23-29`, `:91-96`. -/
def addNum (I : Interval K) (v : K) : Interval K := { I with lower := I.lower + v, upper := I.upper + v }

/-- `operator -=` with a number: `interval.hpp:23-29`, `:105-110`. -/
def subNum (I : Interval K) (v : K) : Interval K := { I with lower := I.lower - v, upper := I.upper - v }

/-- `operator *=` with a number: `interval.hpp:23-29`, `:119-124`. -/
def mulNum (I : Interval K) (v : K) : Interval K := { I with lower := I.lower * v, upper := I.upper * v }

/-- `operator /=` with a number: `interval.hpp:23-29`, `:126-131`. -/
def divNum (I : Interval K) (v : K) : Res (Interval K) :=
  if v = 0 then .error .divByZero
  else .ok { I with lower := I.lower / v, upper := I.upper / v }

/-- `interval_storage::operator +=` with a storage: `interval.hpp:98-103`. The operator of `interval`
itself (`:30-35`) does not compile: it calls the non constant `internal_rep` of a constant. -/
def addStorage (I J : Interval K) : Interval K :=
  { I with lower := I.lower + J.lower, upper := I.upper + J.upper }

/-- `interval_storage::operator -=` with a storage: `interval.hpp:112-117`. The same remark. -/
def subStorage (I J : Interval K) : Interval K :=
  { I with lower := I.lower - J.lower, upper := I.upper - J.upper }

end Interval

end Geometrix
