import Verif.Model.MappedPolicy
import Verif.Spec.Policy

/-!
# What comparing numbers of several types has to satisfy
-/

namespace Geometrix.Spec

open Geometrix

variable {K : Type*}

/-- The answers for two numbers fit together: they exist both ways round or not at all; just one of less, equal and greater holds; the other
two relations are made of these; exchanging the numbers exchanges less and greater. -/
structure CoherentFor (m : MappedPolicy K) (u v : TypedNum K) : Prop where
  both : mappedEquals m u v = none ↔ mappedEquals m v u = none
  trichotomy : mappedEquals m u v ≠ none →
    ExactlyOne (mappedLt m u v = some true) (mappedEquals m u v = some true) (mappedGt m u v = some true)
  le_iff : mappedLe m u v = some true ↔ (mappedLt m u v = some true ∨ mappedEquals m u v = some true)
  ge_iff : mappedGe m u v = some true ↔ (mappedGt m u v = some true ∨ mappedEquals m u v = some true)
  symm : mappedEquals m u v = mappedEquals m v u
  swap : mappedLt m u v = mappedGt m v u

/-- The two types have the same unit; numbers without a unit are dimensionless. -/
def SameUnit : NumTy → NumTy → Prop
  | .plain _, .plain _ => True
  | .quantity u _, .quantity v _ => u = v
  | .quantity u _, .plain _ => u = 0
  | .plain _, .quantity v _ => v = 0

end Geometrix.Spec
