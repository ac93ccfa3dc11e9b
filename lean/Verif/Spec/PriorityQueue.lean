import Mathlib.Order.Defs.LinearOrder
import Mathlib.Data.List.Defs

/-!
# What a priority queue does
-/

namespace Geometrix.Spec

/-- `pop` takes an element with the least key out of the queue, whenever the queue is not empty.
Nothing is said about which one of several least elements. -/
structure IsPriorityPop {α K : Type*} [LinearOrder K] (key : α → K)
    (pop : List α → Option (α × List α)) : Prop where
  empty : pop [] = none
  nonempty : ∀ q, q ≠ [] → ∃ w q', pop q = some (w, q')
  perm : ∀ q w q', pop q = some (w, q') → List.Perm q (w :: q')
  least : ∀ q w q', pop q = some (w, q') → ∀ x ∈ q, key w ≤ key x

end Geometrix.Spec
