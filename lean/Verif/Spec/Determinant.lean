import Mathlib.GroupTheory.Perm.Sign
import Mathlib.Algebra.BigOperators.Fin
import Mathlib.Algebra.Field.Basic
import Verif.Spec.Lup

/-!
# The determinant
-/

namespace Geometrix.Spec

open Finset

variable {K : Type*} [Field K]

/-- The determinant as the sum over all permutations of signed products. -/
def leibniz (n : Nat) (m : Nat → Nat → K) : K :=
  ∑ σ : Equiv.Perm (Fin n), ((Equiv.Perm.sign σ : ℤ) : K) * ∏ i : Fin n, m i (σ i)

/-- The element of the product of two square matrices. -/
def productEntry (n : Nat) (a b : Nat → Nat → K) (i j : Nat) : K := ∑ k ∈ range n, a i k * b k j

/-- The element of the identity matrix. -/
def identityEntry (i j : Nat) : K := if i = j then 1 else 0

end Geometrix.Spec
