import Mathlib.Algebra.Order.Field.Basic
import Verif.Model.Basic

/-!
# Running statistics and scope timers

`geometrix/utility/scope_timer.hpp` and `scope_timer.ipp`. The arithmetic of `double` is that of a field in which every result is
rounded by `fl`; simplifications: there is no overflow and no underflow, and a product and a sum are not contracted to one
operation. The count `m_n` has 64 bits; simplification: it does not wrap around, as no program makes 2^64 calls of `push`.
-/

set_option linter.unusedSectionVars false

namespace Geometrix

variable {K : Type*} [Field K] [LinearOrder K]

/-- `running_stat<std::uint64_t>`: `scope_timer.hpp:28-90`, the members of lines 87-89. `none` is an indeterminate value. -/
structure RunningStat (K : Type*) where
  n : Nat
  oldM : Option K
  newM : Option K
  oldS : Option K
  newS : Option K
  sum : Option Nat
  deriving DecidableEq

/-- The default constructor: `scope_timer.hpp:31-33`. Only `m_n` is initialised. -/
def RunningStat.fresh : RunningStat K := ⟨0, none, none, none, none, none⟩

/-- `clear`: `scope_timer.hpp:35-38`. -/
def RunningStat.clear (s : RunningStat K) : RunningStat K := { s with n := 0 }

/-- `push`: `scope_timer.hpp:40-59`. In lines 46 and 47 `x` and `m_n` are converted to `double`. The sum has 64 bits. -/
def RunningStat.push (fl : K → K) (x : Nat) (s : RunningStat K) : RunningStat K :=
  let n := s.n + 1
  if n ≠ 1 then
    match s.oldM, s.oldS with
    | some M, some S =>
      let M' := fl (M + fl (fl (fl (x : K) - M) / fl (n : K)))
      let S' := fl (S + fl (fl (fl (x : K) - M) * fl (fl (x : K) - M')))
      ⟨n, some M', some M', some S', some S', s.sum.map fun y => (y + x) % 2 ^ 64⟩
    | _, _ => ⟨n, none, none, none, none, s.sum.map fun y => (y + x) % 2 ^ 64⟩
  else ⟨n, some (fl (x : K)), some (fl (x : K)), some 0, s.newS, some x⟩

/-- `counts`: `scope_timer.hpp:61-64`. -/
def RunningStat.counts (s : RunningStat K) : Nat := s.n

/-- `mean`: `scope_timer.hpp:66-69`. -/
def RunningStat.mean (s : RunningStat K) : Option K := if 0 < s.n then s.newM else some 0

/-- `variance`: `scope_timer.hpp:71-74`. -/
def RunningStat.variance (fl : K → K) (s : RunningStat K) : Option K :=
  if 1 < s.n then s.newS.map fun S => fl (S / fl ((s.n - 1 : Nat) : K)) else some 0

/-- `standard_deviation`: `scope_timer.hpp:76-79`. `sqrt` is the square root of a number that is not negative; of others it is
a NaN. -/
def RunningStat.standardDeviation (fl sqrt : K → K) (s : RunningStat K) : Option (Res K) :=
  (s.variance fl).map fun v => if v < 0 then .error .nan else .ok (sqrt v)

/-- `sum`: `scope_timer.hpp:81-84`. -/
def RunningStat.total (s : RunningStat K) : Option Nat := s.sum

/-- `callMap[name].push(x)`: `scope_timer.hpp:124`. The `flat_map` of line 93 is a list ordered by name; `operator[]` inserts a
default constructed value if there is none for the name. `S` is the type of the names with its order. -/
def callMapPush {S : Type*} [LinearOrder S] (fl : K → K) (name : S) (x : Nat) :
    List (S × RunningStat K) → List (S × RunningStat K)
  | [] => [(name, RunningStat.fresh.push fl x)]
  | (k, s) :: t =>
    if name < k then (name, RunningStat.fresh.push fl x) :: (k, s) :: t
    else if k < name then (k, s) :: callMapPush fl name x t
    else (k, s.push fl x) :: t

/-- The destructor of `scope_timer`: `scope_timer.hpp:118-125`. `t1` and `t2` are the times of the constructor and the destructor
in nanoseconds; line 122 converts the difference to 64 bits without sign. -/
def endScope {S : Type*} [LinearOrder S] (fl : K → K) (m : List (S × RunningStat K)) (e : S × Int × Int) :
    List (S × RunningStat K) :=
  callMapPush fl e.1 ((e.2.2 - e.2.1) % 2 ^ 64).toNat m

/-- One line of the file that `call_map::write` writes: `scope_timer.ipp:38-46`; the name, the count, the total, the mean and the
standard deviation in seconds. `conv` is the constant of line 37. Not modelled is how the stream
prints a number. -/
def timerRow {S : Type*} (fl sqrt : K → K) (conv : K) (e : S × RunningStat K) :
    S × Nat × Option K × Option K × Option (Res K) :=
  (e.1, e.2.counts, e.2.total.map (fun y : Nat => fl (fl (y : K) * conv)), e.2.mean.map (fun y => fl (y * conv)),
    (e.2.standardDeviation fl sqrt).map fun r => r.map fun y => fl (y * conv))

/-- The lines of the file: `scope_timer.ipp:28-50`, `none` if no file is written. -/
def timerFile {S : Type*} (fl sqrt : K → K) (conv : K) (m : List (S × RunningStat K)) :
    Option (List (S × Nat × Option K × Option K × Option (Res K))) :=
  if m.isEmpty then none else some (m.map (timerRow fl sqrt conv))

end Geometrix
