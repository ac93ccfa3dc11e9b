import Verif.Model.Orientation

/-!
# The lexicographic order of points
-/

namespace Geometrix

namespace Spec
end Spec

open Spec

variable {K : Type*} [Field K] [LinearOrder K]

/-- The order meant: by `x`, then by `y`. -/
def Spec.LexLT (p q : P2 K) : Prop := p.x < q.x ∨ (p.x = q.x ∧ p.y < q.y)

/-- The lexicographically smaller and larger end of a segment. -/
def Spec.IsLower (s : Seg K) (p : P2 K) : Prop :=
  (p = s.s ∧ ¬ LexLT s.e s.s) ∨ (p = s.e ∧ ¬ LexLT s.s s.e)

/-- The other end. -/
def Spec.IsUpper (s : Seg K) (p : P2 K) : Prop :=
  (p = s.e ∧ ¬ LexLT s.e s.s) ∨ (p = s.s ∧ ¬ LexLT s.s s.e)

end Geometrix
