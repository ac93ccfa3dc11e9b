import Verif.Model.InPlace

/-!
# `+=`, `-=`, `*=` and `/=` of vectors

`tensor/detail/vector_n.hpp:60-95` hands each of them to the protected operator of `numeric_sequence`,
`tensor/detail/numeric_sequence_n.hpp:149-183`, and returns a reference to the vector. Like `operator=` they write the elements one at a
time while the expression on the right is evaluated. The operators of points (`tensor/detail/point_n.hpp:58-77`) are left out: they exist
only if the program defines a macro, and then call those of `numeric_sequence` with a type for which the library has no traits.
-/

set_option linter.unusedSectionVars false

namespace Geometrix

/-- Which of the two operators is meant. -/
inductive CompoundOp
  | plus
  | minus
  deriving DecidableEq

/-- How many elements `lhs += e` writes, for a vector of `n` elements: a `boost::fusion::zip_view` of two sequences is as long as the
shorter of the two (`tensor/detail/numeric_sequence_n.hpp:153-154,163-164`). `none` if `e` is not a sequence, or if one of the elements
that are read does not compile. The parameter is an unrestricted template parameter: nothing else is checked. -/
def compoundCount (n : Nat) (e : Tx) : Option Nat :=
  match shapeOf e with
  | some (.vec m) => if allBelow (min n m) 1 (compiles e) then some (min n m) else none
  | some (.point m) => if allBelow (min n m) 1 (compiles e) then some (min n m) else none
  | _ => none

section
variable {K : Type*} [Field K] [LinearOrder K]

/-- `_1 += _2` and `_1 -= _2`: `tensor/detail/numeric_sequence_n.hpp:154,164`. -/
def CompoundOp.run : CompoundOp → K → K → K
  | .plus, x, y => x + y
  | .minus, x, y => x - y

/-- The loop `boost::fusion::for_each` over the next `n` pairs of elements, from the element `i` on, for the variable `k`:
`tensor/detail/numeric_sequence_n.hpp:154,164`. -/
def compoundElements (sq : K → K) (o : CompoundOp) (k : Nat) (e : Tx) :
    Nat → Nat → (Nat → Nat → Nat → K) → Res (Nat → Nat → Nat → K)
  | 0, _, env => .ok env
  | n + 1, i, env => match value sq env e i 0 with
    | .error err => .error err
    | .ok x => compoundElements sq o k e n (i + 1) (setElement env k i (o.run (env k i 0) x))

/-- `lhs += e` and `lhs -= e` for the variable `k`, a vector of `n` elements, `none` if it does not compile:
`tensor/detail/vector_n.hpp:61-76`. -/
def compoundAssign (sq : K → K) (env : Nat → Nat → Nat → K) (o : CompoundOp) (n k : Nat) (e : Tx) :
    Option (Res (Nat → Nat → Nat → K)) :=
  match compoundCount n e with
  | some c => some (compoundElements sq o k e c 0 env)
  | none => none

/-- `(lhs += a) += b`, with either operator in each place: the first returns a reference to the vector
(`tensor/detail/vector_n.hpp:62-66`), so the second goes on with it. -/
def compoundChain (sq : K → K) (env : Nat → Nat → Nat → K) (o o' : CompoundOp) (n k : Nat) (a b : Tx) :
    Option (Res (Nat → Nat → Nat → K)) :=
  match compoundAssign sq env o n k a with
  | some (.ok env') => compoundAssign sq env' o' n k b
  | some (.error err) => match compoundCount n b with
    | some _ => some (.error err)
    | none => none
  | none => none

/-- `lhs *= x` for a number `x`, which may be an element of `lhs`: `tensor/detail/numeric_sequence_n.hpp:169-174`. The expression
`boost::lambda::_1 *= v` holds a copy of `v`, made before the first element is written. -/
def scaleElements (k : Nat) (x : K) : Nat → Nat → (Nat → Nat → Nat → K) → (Nat → Nat → Nat → K)
  | 0, _, env => env
  | n + 1, i, env => scaleElements k x n (i + 1) (setElement env k i (env k i 0 * x))

/-- `lhs /= x`: `tensor/detail/numeric_sequence_n.hpp:178-183`, the same with `/=`. Division by zero is an error. -/
def divideElements (k : Nat) (x : K) : Nat → Nat → (Nat → Nat → Nat → K) → Res (Nat → Nat → Nat → K)
  | 0, _, env => .ok env
  | n + 1, i, env => match cdiv (env k i 0) x with
    | .error err => .error err
    | .ok y => divideElements k x n (i + 1) (setElement env k i y)

end

end Geometrix
