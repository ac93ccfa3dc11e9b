import Verif.Spec.CellPath
import Mathlib.Logic.Relation

/-!
# Cells connected to a cell through cells of the same colour
-/

namespace Geometrix.Spec

/-- `c` can be reached from `seed`, moving across edges of cells inside a grid of the given width and
height, through cells that have the colour of `seed`. -/
def SameColorReach (width height : Nat) (color : Nat × Nat → Nat) (seed c : Nat × Nat) : Prop :=
  Relation.ReflTransGen
    (fun a b => ShareEdge a b ∧ b.1 < width ∧ b.2 < height ∧ color b = color seed) seed c

end Geometrix.Spec
