import Mathlib.Order.Defs.LinearOrder

/-!
# Orders, as the C++ standard library requires them
-/

namespace Geometrix.Spec

/-- A strict weak ordering in the sense of C++ `std::sort` and `std::set`: irreflexive, transitive,
and incomparability is transitive. -/
structure StrictWeakOrder {α : Type*} (lt : α → α → Bool) : Prop where
  irrefl : ∀ a, lt a a = false
  trans : ∀ a b c, lt a b = true → lt b c = true → lt a c = true
  incomp_trans : ∀ a b c, (lt a b = false ∧ lt b a = false) → (lt b c = false ∧ lt c b = false) →
    (lt a c = false ∧ lt c a = false)

/-- The same, for elements that satisfy a precondition. -/
structure StrictWeakOrderOn {α : Type*} (S : α → Prop) (lt : α → α → Bool) : Prop where
  irrefl : ∀ a, S a → lt a a = false
  trans : ∀ a b c, S a → S b → S c → lt a b = true → lt b c = true → lt a c = true
  incomp_trans : ∀ a b c, S a → S b → S c → (lt a b = false ∧ lt b a = false) →
    (lt b c = false ∧ lt c b = false) → (lt a c = false ∧ lt c a = false)

/-- Exactly one of three conditions holds. -/
def ExactlyOne (p q r : Prop) : Prop :=
  (p ∧ ¬q ∧ ¬r) ∨ (¬p ∧ q ∧ ¬r) ∨ (¬p ∧ ¬q ∧ r)

end Geometrix.Spec
