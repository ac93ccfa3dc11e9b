import Verif.Spec.Geometry

/-!
# How good a line is for dividing a list of segments
-/

namespace Geometrix.Spec

variable {K : Type*} [Field K] [LinearOrder K]

/-- The score of the line `n · p = d` of the segment number `i`: of the other segments, `cut` have points on both sides,
`front` have no point behind the line, and `behind` have points behind it and none in front. -/
def lineScore (sides : List (P2 K × P2 K)) (i : Nat) (n : P2 K) (d : K) : K :=
  let f := fun p : P2 K => n.x * p.x + n.y * p.y - d
  let others := sides.eraseIdx i
  let cut := others.countP fun s => f s.1 * f s.2 < 0
  let front := others.countP fun s => 0 ≤ f s.1 ∧ 0 ≤ f s.2
  let behind := others.countP fun s => f s.1 ≤ 0 ∧ f s.2 ≤ 0 ∧ (f s.1 < 0 ∨ f s.2 < 0)
  4 / 5 * (cut : K) + 1 / 5 * |(front : K) - behind|

end Geometrix.Spec
