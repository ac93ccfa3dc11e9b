import Verif.Spec.Expressions

/-!
# Where a variable occurs in an expression
-/

namespace Geometrix.Spec

open Geometrix

/-- The variable `k` occurs in the expression. -/
def Occurs (k : Nat) : Tx → Prop
  | .var _ l => l = k
  | .neg a => Occurs k a
  | .abs a => Occurs k a
  | .recip a => Occurs k a
  | .trans a => Occurs k a
  | .det a => Occurs k a
  | .inv a => Occurs k a
  | .mag a => Occurs k a
  | .norm a => Occurs k a
  | .add a b => Occurs k a ∨ Occurs k b
  | .sub a b => Occurs k a ∨ Occurs k b
  | .mul a b => Occurs k a ∨ Occurs k b
  | .div a b => Occurs k a ∨ Occurs k b
  | .cross a b => Occurs k a ∨ Occurs k b
  | .tens a b => Occurs k a ∨ Occurs k b

/-- The variable `k` occurs only where an element of the expression depends on no element of `k` other than that with the same index:
in sums and differences, under a sign, `abs` and `rec`, and in multiples by scalars in which it does not occur. -/
def Elementwise (k : Nat) : Tx → Prop
  | .var _ _ => True
  | .neg a => Elementwise k a
  | .abs a => Elementwise k a
  | .recip a => Elementwise k a
  | .add a b => Elementwise k a ∧ Elementwise k b
  | .sub a b => Elementwise k a ∧ Elementwise k b
  | .mul a b => (meaningShape a = some .scalar ∧ ¬ Occurs k a ∧ Elementwise k b) ∨
      (meaningShape b = some .scalar ∧ ¬ Occurs k b ∧ Elementwise k a) ∨ (¬ Occurs k a ∧ ¬ Occurs k b)
  | .div a b => Elementwise k a ∧ ¬ Occurs k b
  | e => ¬ Occurs k e

end Geometrix.Spec
