import Mathlib.Algebra.BigOperators.Group.List.Basic
import Mathlib.Algebra.Order.Field.Basic

/-!
# Mean and variance of a list of numbers
-/

namespace Geometrix.Spec

variable {K : Type*} [Field K]

/-- The arithmetic mean. -/
def meanOf (l : List Nat) : K := (l.sum : K) / l.length

/-- The sum of the squared differences from the mean. -/
def squaresOf (l : List Nat) : K := (l.map fun x : Nat => ((x : K) - meanOf l) ^ 2).sum

/-- The sample variance; of less than two numbers it is zero. -/
def varianceOf (l : List Nat) : K := if 1 < l.length then squaresOf l / (l.length - 1) else 0

/-- The durations of the scopes with a name, from a list of scopes with their name, start and end. -/
def durationsOf {S : Type*} [DecidableEq S] (name : S) (l : List (S × Int × Int)) : List Nat :=
  (l.filter fun e => e.1 = name).map fun e => (e.2.2 - e.2.1).toNat

end Geometrix.Spec
