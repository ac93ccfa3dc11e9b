import Verif.Model.Basic

/-!
# Determinant, adjugate, inverse and product of matrices

`geometrix/arithmetic/detail/determinant.hpp`, `geometrix/tensor/matrix_minor_adaptor.hpp`,
`geometrix/arithmetic/matrix_arithmetic.hpp`. The sizes are template parameters; here they are numbers. A
matrix is a function of the row and the column, of which only the indices below the size are read. The
macros generate the sizes up to `GEOMETRIX_MAX_DETERMINANT`, by default 10.
-/

set_option linter.unusedSectionVars false

namespace Geometrix

variable {K : Type*} [Field K] [LinearOrder K]

/-- `offset_index`: `matrix_minor_adaptor.hpp:124-126`. -/
def offsetIndex (i excluded : Nat) : Nat := i + (if i ≥ excluded then 1 else 0)

/-- `matrix_minor`: `matrix_minor_adaptor.hpp:19-27,121-144`, the access to its elements. -/
def matrixMinor (m : Nat → Nat → K) (r c : Nat) : Nat → Nat → K :=
  fun i j => m (offsetIndex i r) (offsetIndex j c)

/-- `power_c<N, P>::value`: `geometrix/arithmetic/arithmetic.hpp:77-88`. -/
def powerC (n : Int) : Nat → Int
  | 0 => 1
  | p + 1 => n * powerC n p

/-- `detail::determinant`: `determinant.hpp:138-148,152-181`, for a matrix of size `n + 1`. Size 1 and
size 2 have their own overloads; from size 3 on the macro expands along row 0. -/
def determinant : Nat → (Nat → Nat → K) → K
  | 0, m => m 0 0
  | 1, m => m 0 0 * m 1 1 - m 1 0 * m 0 1
  | n + 2, m =>
    (List.range (n + 2)).foldl
      (fun s j => s + m 0 (j + 1) * (powerC (-1) (0 + (j + 1)) * determinant (n + 1) (matrixMinor m 0 (j + 1))))
      (m 0 0 * (powerC (-1) (0 + 0) * determinant (n + 1) (matrixMinor m 0 0)))

/-- `adjugate_at_index<Row, Column>`: `matrix_arithmetic.hpp:247-253`, for a matrix of size `n + 2`. -/
def adjugateAt (n : Nat) (m : Nat → Nat → K) (r c : Nat) : K :=
  powerC (-1) (r + c) * determinant n (matrixMinor m c r)

/-- `inverse_at_index<Row, Column>`: `matrix_arithmetic.hpp:255-270`, for a matrix of size `n + 2`. For
size 1 it does not compile, the minor has no elements. -/
def inverseAt (n : Nat) (m : Nat → Nat → K) (r c : Nat) : Res K :=
  let d := determinant (n + 1) m
  if d ≠ 0 then cdiv (adjugateAt n m r c) d else .error .thrown

/-- `matrix_product_element<Row, Column>`: `matrix_arithmetic.hpp:215-237`: the dot product, in the order
of the indices, of a row of length `n + 1` and a column. -/
def matrixProductAt (n : Nat) (m1 m2 : Nat → Nat → K) (r c : Nat) : K :=
  (List.range n).foldl (fun s j => s + m1 r (j + 1) * m2 (j + 1) c) (m1 r 0 * m2 0 c)

end Geometrix
