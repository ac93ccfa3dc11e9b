import Verif.Model.Basic

/-!
# The ways to write down the same polygon
-/

namespace Geometrix.Spec

/-- The second list has the vertices of the first one in the same cyclic order, from any start vertex, in the same direction or
the opposite one. -/
def SameCycle {α : Type*} (l m : List α) : Prop := ∃ k, m = l.rotate k ∨ m = (l.rotate k).reverse

end Geometrix.Spec
