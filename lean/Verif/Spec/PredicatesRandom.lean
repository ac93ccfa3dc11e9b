import Verif.Model.Basic
import Mathlib.Data.Set.Card

/-!
# Results of `random()`
-/

namespace Geometrix.Spec

/-- The number of values of `random()`. -/
def randomValues : Nat := 2147483648

/-- A function of one result of `random()` takes the value `y` for `n` of them. -/
def OccursFor {α : Type*} (f : Nat → α) (y : α) (n : Nat) : Prop := {a : Nat | a < randomValues ∧ f a = y}.ncard = n

/-- The same for two results of `random()`. -/
def OccursFor2 {α : Type*} (f : Nat → Nat → α) (y : α) (n : Nat) : Prop :=
  {ab : Nat × Nat | ab.1 < randomValues ∧ ab.2 < randomValues ∧ f ab.1 ab.2 = y}.ncard = n

end Geometrix.Spec
