import Verif.Model.Expressions
import Mathlib.Algebra.BigOperators.Group.Finset.Basic

/-!
# Affine maps and their matrices
-/

namespace Geometrix.Spec

open Geometrix Finset

section
variable {K : Type*} [Field K]

/-- A matrix of size `n + 1` is that of an affine map in `n` dimensions: the last row is `0 … 0 1`. -/
def IsAffine (n : Nat) (m : Nat → Nat → K) : Prop := (∀ j < n, m n j = 0) ∧ m n n = 1

/-- The affine map of a matrix: its linear part applied to the point, plus the translation in the last column. -/
def movePoint (n : Nat) (m : Nat → Nat → K) (x : Nat → K) (i : Nat) : K := (∑ k ∈ range n, m i k * x k) + m i n

/-- Its linear part applied to a direction. -/
def moveDirection (n : Nat) (m : Nat → Nat → K) (x : Nat → K) (i : Nat) : K := ∑ k ∈ range n, m i k * x k

end

/-- A product of matrix variables, with any parentheses. -/
inductive Motion where
  | single (k : Nat)
  | after (a b : Motion)

/-- The expression for a product of square matrices of size `n`. -/
def Motion.term (n : Nat) : Motion → Tx
  | .single k => .var (.mat n n) k
  | .after a b => .mul (a.term n) (b.term n)

/-- The variables in the product, from left to right. -/
def Motion.vars : Motion → List Nat
  | .single k => [k]
  | .after a b => a.vars ++ b.vars

/-- The motions applied one after the other to the variable `h` of shape `s`: `m₁ * (m₂ * h)`. -/
def placed (n : Nat) (s : Shape) (h : Nat) : List Motion → Tx
  | [] => .var s h
  | m :: ms => .mul (m.term n) (placed n s h ms)

end Geometrix.Spec
