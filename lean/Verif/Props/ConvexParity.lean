import Verif.Lemmas.ConvexParity
import Verif.Props.Convex
import Verif.Props.PointInPolygon

/-!
# C38, C60: the two tests agree on convex polygons
-/

set_option linter.unusedSectionVars false

namespace Geometrix

open Spec

variable {K : Type*} [Field K] [LinearOrder K] [IsStrictOrderedRing K]

/-- Off the border of a strictly convex polygon, the crossing count of `point_in_polygon` is the test whether the point
is on the left of every side. -/
theorem C38_convex (poly : List (P2 K)) (hc : StrictlyConvex poly) (hn : 2 < poly.length) (p : P2 K)
    (hp : ¬ OnBoundary poly p) : pointInPolygon p poly = true ↔ InsideAllSides poly p := by
  rw [← inClosed_off hp, convex_closed hn hc]

example : StrictlyConvex ([⟨0, 0⟩, ⟨9, 0⟩, ⟨0, 9⟩] : List (P2 ℚ)) ∧
    pointInPolygon (⟨1, 2⟩ : P2 ℚ) [⟨0, 0⟩, ⟨9, 0⟩, ⟨0, 9⟩] = true ∧
    pointInPolygon (⟨5, 5⟩ : P2 ℚ) [⟨0, 0⟩, ⟨9, 0⟩, ⟨0, 9⟩] = false :=
  ⟨strictlyConvex_triangle (by decide +kernel), by decide +kernel, by decide +kernel⟩

/-- Off the border, `point_in_convex_polygon` and `point_in_polygon` give the same answer. -/
theorem C60_parity (poly : List (P2 K)) (hc : StrictlyConvex poly) (hn : 2 < poly.length) (p : P2 K)
    (hp : ¬ OnBoundary poly p) (fuel : Nat) (hf : poly.length ≤ fuel) :
    pointInConvex Cmp.direct fuel p poly = .ok (pointInPolygon p poly) := by
  obtain ⟨r, h1, h2⟩ := C60_convex poly hc hn p fuel hf
  rw [h1]
  congr 1
  rw [Bool.eq_iff_iff, h2, C38_convex poly hc hn p hp]

example : pointInConvex Cmp.direct 3 (⟨1, 2⟩ : P2 ℚ) [⟨0, 0⟩, ⟨9, 0⟩, ⟨0, 9⟩] = .ok true := by decide +kernel

end Geometrix
