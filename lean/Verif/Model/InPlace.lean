import Verif.Model.Expressions

/-!
# Assignment to vectors and points, access to their elements

`operator=` of `vector`, `point` and `numeric_sequence`, and `assign` with `assignment_policy`. Unlike `<<=` they write the elements
one at a time, while the expression on the right is evaluated: an expression holds references to its operands
(`algebra/functions/binary_function.hpp:55-68`). A `matrix` has no such operator (`tensor/detail/matrix_base.hpp:15-41`).
-/

set_option linter.unusedSectionVars false

namespace Geometrix

/-- Whether `lhs = e` or `assign(lhs, e)` compiles for a left side of shape `s`: `tensor/detail/vector_n.hpp:52-58`,
`tensor/detail/point_n.hpp:50-56`, `tensor/detail/numeric_sequence_n.hpp:135-145`; `tensor/detail/vector_n.hpp:117-130`,
`tensor/detail/point_n.hpp:100-113`. The concepts that are checked (`VectorConcept`, `tensor/vector_traits.hpp:36-40`, and
`PointConcept`, `primitive/point_traits.hpp:34-42`) are the same: the expression is a sequence of coordinates. -/
def inPlaceCompiles (s : Shape) (e : Tx) : Bool :=
  match s, shapeOf e with
  | .vec n, some (.vec _) => allBelow n 1 (compiles e)
  | .vec n, some (.point _) => allBelow n 1 (compiles e)
  | .point n, some (.vec _) => allBelow n 1 (compiles e)
  | .point n, some (.point _) => allBelow n 1 (compiles e)
  | _, _ => false

section
variable {K : Type*} [Field K] [LinearOrder K]

/-- The variables after the element `i` of the vector or point `k` has been written. -/
def setElement (env : Nat → Nat → Nat → K) (k i : Nat) (x : K) : Nat → Nat → Nat → K :=
  fun k' i' j' => if k' = k ∧ i' = i ∧ j' = 0 then x else env k' i' j'

/-- Write `n` elements of the variable `k` from the element `i` on: the statements that `GEOMETRIX_ASSIGN_ACCESS_EXPR_`
(`tensor/detail/numeric_sequence_n.hpp:139-142`) and `GEOMETRIX_SET_VALUE_AT_INDEX_` (`utility/assignment_policy.hpp:77-79`) repeat. -/
def writeElements (sq : K → K) (k : Nat) (e : Tx) : Nat → Nat → (Nat → Nat → Nat → K) → Res (Nat → Nat → Nat → K)
  | 0, _, env => .ok env
  | n + 1, i, env => match value sq env e i 0 with
    | .error err => .error err
    | .ok x => writeElements sq k e n (i + 1) (setElement env k i x)

/-- `lhs = e` or `assign(lhs, e)` for the variable `k` of shape `s`, `none` if it does not compile. -/
def assignInPlace (sq : K → K) (env : Nat → Nat → Nat → K) (s : Shape) (k : Nat) (e : Tx) :
    Option (Res (Nat → Nat → Nat → K)) :=
  if inPlaceCompiles s e then some (writeElements sq k e s.rows 0 env) else none

end

/-- The conversion of a `std::size_t` of 64 bits to an `int` of 32 bits. -/
def sizeToInt (i : Nat) : Int :=
  if i % 4294967296 < 2147483648 then ((i % 4294967296 : Nat) : Int) else ((i % 4294967296 : Nat) : Int) - 4294967296

/-- `get(i)` and `operator[]`: `tensor/detail/numeric_sequence_n.hpp:98-108,123-133`, for a sequence of `n` elements, `n` an `int`.
Reading behind the end of the array is `outOfRange`. -/
def elementAt {α : Type*} (a : Array α) (i : Nat) : Res α :=
  if sizeToInt i < a.size then
    match a[i]? with
    | some x => .ok x
    | none => .error .outOfRange
  else .error .assertFailed

/-- `set(i, v)`: `tensor/detail/numeric_sequence_n.hpp:117-121`. -/
def setElementAt {α : Type*} (a : Array α) (i : Nat) (x : α) : Res (Array α) :=
  if i < a.size then .ok (a.setIfInBounds i x) else .error .assertFailed

end Geometrix
