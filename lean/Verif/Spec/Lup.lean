import Mathlib.Algebra.BigOperators.Group.Finset.Basic
import Mathlib.Algebra.Field.Basic
import Mathlib.Algebra.BigOperators.Intervals

/-!
# Systems of linear equations and triangular factors
-/

namespace Geometrix.Spec

open Finset

variable {K : Type*} [Field K]

/-- The indices below `N` are rearranged. -/
def Rearranges (N : Nat) (pi : Nat → Nat) : Prop :=
  (∀ i < N, pi i < N) ∧ (∀ i < N, ∀ j < N, pi i = pi j → i = j)

/-- The lower factor stored below the diagonal, with ones on the diagonal. -/
def lowerPart (lu : Nat → Nat → K) (i m : Nat) : K := if m < i then lu i m else if m = i then 1 else 0

/-- The upper factor stored on and above the diagonal. -/
def upperPart (lu : Nat → Nat → K) (m j : Nat) : K := if m ≤ j then lu m j else 0

/-- The rows of `A` in the order of `pi` are the product of the two factors. -/
def IsLup (N : Nat) (A lu : Nat → Nat → K) (pi : Nat → Nat) : Prop :=
  Rearranges N pi ∧
  ∀ i < N, ∀ j < N, A (pi i) j = ∑ m ∈ range N, lowerPart lu i m * upperPart lu m j

/-- `x` solves the system with the matrix `A` and the right side `b`. -/
def Solves (N : Nat) (A : Nat → Nat → K) (b x : Nat → K) : Prop :=
  ∀ i < N, ∑ j ∈ range N, A i j * x j = b i

/-- Some nonzero vector is mapped to zero. -/
def SingularMatrix (N : Nat) (A : Nat → Nat → K) : Prop :=
  ∃ v : Nat → K, (∃ i < N, v i ≠ 0) ∧ Solves N A (fun _ => 0) v

end Geometrix.Spec
