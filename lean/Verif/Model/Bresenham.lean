import Verif.Model.Grid
import Mathlib.Algebra.Order.Group.Abs
import Mathlib.Algebra.Order.Ring.Int

/-!
# Bresenham traversal of a grid

`geometrix/algorithm/bresenham_grid_traversal.hpp`. The visitor calls are listed in order.
Simplification: `int` is unbounded; the indices of a grid are below `2^32`, and for indices below `2^29`
no value computed by the code exceeds the range of a 32 bit `int`.
-/

set_option linter.unusedSectionVars false

namespace Geometrix

/-- `math::abs` of an `int`. -/
def intAbs (v : Int) : Int := if v < 0 then -v else v

/-- The loops of the horizontal and the vertical case:
`geometrix/algorithm/bresenham_grid_traversal.hpp:45-49,55-59`. `b` is the coordinate that changes,
the listed values are those after each step. -/
def bresStraight : Nat → Int → Int → Int → Res (List Int)
  | 0, _, _, _ => .error .diverges
  | fuel + 1, b, sign, target =>
    if b ≠ target then do
      let b := b + sign
      let rest ← bresStraight fuel b sign target
      .ok (b :: rest)
    else .ok []

/-- The loop for lines more vertical than horizontal: `bresenham_grid_traversal.hpp:76-90`. -/
def bresSteep (xsign ysign const1 const2 y2 : Int) :
    Nat → Int → Int → Int → Res (List (Int × Int))
  | 0, _, _, _ => .error .diverges
  | fuel + 1, bx, bY, p =>
    if bY ≠ y2 then do
      let bY := bY + ysign
      let (p, bx) := if p < 0 then (p + const1, bx) else (p + const2, bx + xsign)
      let rest ← bresSteep xsign ysign const1 const2 y2 fuel bx bY p
      .ok ((bx, bY) :: rest)
    else .ok []

/-- The loop for lines more horizontal than vertical: `bresenham_grid_traversal.hpp:97-111`. -/
def bresFlat (xsign ysign const1 const2 x2 : Int) :
    Nat → Int → Int → Int → Res (List (Int × Int))
  | 0, _, _, _ => .error .diverges
  | fuel + 1, bx, bY, p =>
    if bx ≠ x2 then do
      let bx := bx + xsign
      let (p, bY) := if p < 0 then (p + const1, bY) else (p + const2, bY + ysign)
      let rest ← bresFlat xsign ysign const1 const2 x2 fuel bx bY p
      .ok ((bx, bY) :: rest)
    else .ok []

/-- The traversal between two cells: `bresenham_grid_traversal.hpp:29-113`. The bound on the number of
loop passes is given; too small a bound is `diverges`. -/
def bresenhamCells (fuel : Nat) (x1 y1 x2 y2 : Int) : Res (List (Int × Int)) :=
  let bx := x1
  let bY := y1
  let dx := x2 - x1
  let dy := y2 - y1
  if dx = 0 ∧ dy = 0 then .ok [(bx, bY)]
  else if dy = 0 then do
    let xsign := Int.tdiv dx (intAbs dx)
    let rest ← bresStraight fuel bx xsign x2
    .ok ((bx, bY) :: rest.map fun v => (v, bY))
  else if dx = 0 then do
    let ysign := Int.tdiv dy (intAbs dy)
    let rest ← bresStraight fuel bY ysign y2
    .ok ((bx, bY) :: rest.map fun v => (bx, v))
  else do
    let xsign := Int.tdiv dx (intAbs dx)
    let ysign := Int.tdiv dy (intAbs dy)
    let dx := intAbs dx
    let dy := intAbs dy
    if dx < dy then do
      let p := 2 * dx - dy
      let const1 := 2 * dx
      let const2 := 2 * (dx - dy)
      let rest ← bresSteep xsign ysign const1 const2 y2 fuel bx bY p
      .ok ((bx, bY) :: rest)
    else do
      let p := 2 * dy - dx
      let const2 := 2 * (dy - dx)
      let const1 := 2 * dy
      let rest ← bresFlat xsign ysign const1 const2 x2 fuel bx bY p
      .ok ((bx, bY) :: rest)

/-- `bresenham_segment_traversal`: `bresenham_grid_traversal.hpp:18-114`. -/
def bresenhamTraversal {K : Type} [Field K] [LinearOrder K] [IsStrictOrderedRing K] [FloorSemiring K]
    (fuel : Nat) (g : GridTraits K) (s : Seg K) : Res (List (Int × Int)) := do
  let x1 ← g.xIndex s.s.x
  let y1 ← g.yIndex s.s.y
  let x2 ← g.xIndex s.e.x
  let y2 ← g.yIndex s.e.y
  bresenhamCells fuel x1 y1 x2 y2

end Geometrix
