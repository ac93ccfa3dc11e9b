import Verif.Model.MixedTypes
import Verif.Spec.Expansion
import Verif.Spec.FixedPoint

/-!
# Types of numbers and the numbers they have
-/

namespace Geometrix.Spec

variable {K : Type*} [Field K] [LinearOrder K]

/-- The type has the number `x`. -/
def HasNum : ArithTy → K → Prop
  | .integral t, x => ∃ n : ℤ, t.lo ≤ n ∧ n ≤ t.hi ∧ x = n
  | .floating p, x => IsFloat p x

/-- `s` is narrower than `t`: an integer type than a floating point type, and of two of a kind the one with fewer decimal digits that
all its numbers can have. -/
def Narrower : ArithTy → ArithTy → Prop
  | .integral _, .floating _ => True
  | .floating _, .integral _ => False
  | .integral s, .integral t => ∃ k : ℕ, (10 : ℤ) ^ k ≤ t.hi + 1 ∧ ¬ (10 : ℤ) ^ k ≤ s.hi + 1
  | .floating p, .floating q => ∃ k : ℕ, 10 ^ k ≤ 2 ^ (q - 1) ∧ ¬ 10 ^ k ≤ 2 ^ (p - 1)

/-- The scalar product. -/
def exactDot {R : Type*} [CommRing R] (ab : List (R × R)) : R := (ab.map fun p => p.1 * p.2).sum

end Geometrix.Spec
