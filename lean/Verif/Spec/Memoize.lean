import Verif.Spec.Order
import Mathlib.Data.List.Basic

/-!
# Caches
-/

namespace Geometrix.Spec

variable {α β κ : Type*}

/-- Keys that the order of the map does not distinguish. -/
def SameKey (lt : κ → κ → Bool) (a b : κ) : Prop := lt a b = false ∧ lt b a = false

/-- The cache is a map ordered by `lt`, and every entry holds the value of the function `g` for the
arguments in `S` with that key. -/
def ValidCache (lt : κ → κ → Bool) (mk : α → κ) (S : α → Prop) (g : α → β) (cache : List (κ × β)) : Prop :=
  cache.Pairwise (fun e e' => lt e.1 e'.1 = true) ∧
  ∀ e ∈ cache, ∀ a, S a → SameKey lt (mk a) e.1 → e.2 = g a

end Geometrix.Spec
