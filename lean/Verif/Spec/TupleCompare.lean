import Mathlib.Order.Basic

/-!
# Orders for sorting
-/

namespace Geometrix.Spec

variable {α : Type*}

/-- What `std::sort` needs of a comparison: irreflexive, transitive, and not being comparable is transitive. -/
structure SortOrder (r : α → α → Prop) : Prop where
  irrefl : ∀ a, ¬ r a a
  trans : ∀ a b c, r a b → r b c → r a c
  incomp : ∀ a b c, ¬ r a b → ¬ r b a → ¬ r b c → ¬ r c b → ¬ r a c ∧ ¬ r c a

/-- Tuples `a` and `b` of `n` values, in the order of the first place where the values are in order, with all values before it
equivalent. -/
def LexBefore (lt : Nat → α → α → Prop) (n : Nat) (a b : Nat → α) : Prop :=
  ∃ k, k < n ∧ (∀ j, j < k → ¬ lt j (a j) (b j) ∧ ¬ lt j (b j) (a j)) ∧ lt k (a k) (b k)

end Geometrix.Spec
