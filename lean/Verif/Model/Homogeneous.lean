import Verif.Model.Expressions

/-!
# Homogeneous coordinates, traces and identity matrices

`geometrix/tensor/homogeneous_adaptor.hpp`, `geometrix/arithmetic/matrix/trace.hpp` and
`geometrix/tensor/identity_matrix.hpp`.

Simplifications. Units are erased and arithmetic is exact. The adaptor holds a reference to the point or vector and is
used while that is alive.
-/

set_option linter.unusedSectionVars false

namespace Geometrix

/-- The traits of `homogeneous_adaptor`: a point or a vector as its argument is, of one dimension more
(`homogeneous_adaptor.hpp:96-132`); whether the last coordinate is 1 or 0 plays no role. -/
def homogeneousShape : Shape → Option Shape
  | .point n => some (.point (n + 1))
  | .vec n => some (.vec (n + 1))
  | _ => none

/-- Whether `get<i>` of an adaptor of dimension `n + 1` compiles: the index `n` selects the specialisation
(`homogeneous_adaptor.hpp:35-44`), the others read the sequence (`homogeneous_adaptor.hpp:24-33`). -/
def homogeneousCompiles (n i : Nat) : Bool := decide (i = n) || decide (i < n)

section
variable {K : Type*} [Field K] [LinearOrder K]

/-- `positional_homogeneous_coord_policy::get`: `homogeneous_adaptor.hpp:74-83`. -/
def positionalCoord : K := 1

/-- `vectoral_homogeneous_coord_policy::get`: `homogeneous_adaptor.hpp:85-94`. -/
def vectoralCoord : K := 0

/-- `homogeneous_adaptor::get`: `homogeneous_adaptor.hpp:24-44,61-65` for a sequence of dimension `n`; `w` is what the
policy gives. -/
def homogeneousGet (n : Nat) (w : K) (p : Nat → K) (i : Nat) : K := if i = n then w else p i

/-- `as_positional_homogeneous`: `homogeneous_adaptor.hpp:166-170`. -/
def asPositional (n : Nat) (p : Nat → K) : Nat → K := homogeneousGet n positionalCoord p

/-- `as_vectoral_homogeneous`: `homogeneous_adaptor.hpp:172-176`. -/
def asVectoral (n : Nat) (p : Nat → K) : Nat → K := homogeneousGet n vectoralCoord p

/-- `detail::trace_sum<I>::apply`: `trace.hpp:19-43`. -/
def traceSum (m : Nat → Nat → K) : Nat → K → K
  | 0, s => s
  | i + 1, s => traceSum m i (s + m i i)

/-- `trace` of a matrix of `r` rows and `c` columns: `trace.hpp:61-67`. `none` if it does not compile. The type of the
result (`trace.hpp:49-57`) counts down from `r - 2` to 0, which for one row starts from a huge number. The check that
the matrix is square is vacuous (`geometrix/tensor/matrix_traits.hpp:91-98`); the elements on the diagonal
have to exist. -/
def trace (r c : Nat) (m : Nat → Nat → K) : Option K :=
  if 2 ≤ r ∧ r ≤ c then some (traceSum m (r - 1) (m (r - 1) (r - 1))) else none

/-- `identity_matrix::get` and `operator[]`: `identity_matrix.hpp:24-49`. -/
def identityGet (i j : Nat) : K := if i ≠ j then 0 else 1

/-- `GEOMETRIX_ENUM_IDENTITY_MATRIX_SEQUENCE( M, N )`: `identity_matrix.hpp:52-64`. -/
def identityElements (M N : Nat) : List (List K) :=
  (List.range M).map fun n => (List.range N).map fun col => if n = col then 1 else 0

end

end Geometrix
