import Verif.Model.Policy
import Verif.Spec.Order

/-!
# What a comparison policy has to satisfy
-/

namespace Geometrix.Spec

variable {K : Type*}

/-- What a user expects from a comparison policy: the five relations fit together. -/
structure Coherent (c : Cmp K) : Prop where
  trichotomy : ∀ u v, ExactlyOne (c.lt u v = true) (c.equals u v = true) (c.gt u v = true)
  le_iff : ∀ u v, c.le u v = true ↔ (c.lt u v = true ∨ c.equals u v = true)
  ge_iff : ∀ u v, c.ge u v = true ↔ (c.gt u v = true ∨ c.equals u v = true)
  refl : ∀ u, c.equals u u = true
  symm : ∀ u v, c.equals u v = c.equals v u
  swap : ∀ u v, c.lt u v = c.gt v u

end Geometrix.Spec
