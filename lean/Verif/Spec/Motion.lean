import Verif.Model.Basic

/-!
# Orientation preserving rigid motions of the plane
-/

namespace Geometrix.Spec

variable {K : Type*} [Field K]

/-- Rotation by the angle with cosine `c` and sine `s`, then translation by `t`. -/
def move (c s : K) (t : P2 K) (A : P2 K) : P2 K :=
  ⟨c * A.x - s * A.y + t.x, s * A.x + c * A.y + t.y⟩

/-- A rigid motion takes the first list to the second, vertex by vertex. -/
def Congruent (P Q : List (P2 K)) : Prop :=
  ∃ (c s : K) (t : P2 K), c ^ 2 + s ^ 2 = 1 ∧ Q = P.map (move c s t)

end Geometrix.Spec
