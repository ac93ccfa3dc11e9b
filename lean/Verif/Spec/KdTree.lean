import Verif.Model.KdTree
import Mathlib.Data.List.Perm.Basic

/-!
# Points in a box, and what `std::nth_element` promises
-/

namespace Geometrix.Spec

variable {K : Type*} [LinearOrder K]

/-- `p` is a point of the closed box. -/
def InBoxN {d : Nat} (b : BoxN d K) (p : PN d K) : Prop := ∀ i, b.lo i ≤ p i ∧ p i ≤ b.hi i

/-- The order of the points by the coordinate `dim`, and for equal coordinates lexicographically. -/
def Precedes {d : Nat} (dim : Fin d) (p q : PN d K) : Prop :=
  p dim < q dim ∨ (p dim = q dim ∧ ∃ i, p i < q i ∧ ∀ j < i, p j = q j)

/-- The contract of `std::nth_element`: the result is a rearrangement of the sequence, and no element
at or after the position `n` precedes one at or before it. -/
def IsNthElement {α : Type*} (less : α → α → Prop) (n : Nat) (l out : List α) : Prop :=
  out.Perm l ∧ ∀ i j (hi : i < out.length) (hj : j < out.length), i ≤ n → n ≤ j →
    ¬ less out[j] out[i]

/-- The box does not meet the other box. -/
def DisjointBoxes {d : Nat} (a b : BoxN d K) : Prop := ∃ i, a.hi i < b.lo i ∨ b.hi i < a.lo i

end Geometrix.Spec
