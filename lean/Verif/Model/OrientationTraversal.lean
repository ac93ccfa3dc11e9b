import Verif.Model.Grid
import Verif.Model.CohenSutherland
import Verif.Model.Orientation

/-!
# Traversal of a grid guided by orientations

`geometrix/algorithm/orientation_grid_traversal.hpp`. The visitor calls are listed in order. The fuel is the number of
iterations allowed to a loop; to run out of it is `diverges`.
-/

set_option linter.unusedSectionVars false

namespace Geometrix

variable {K : Type*} [Field K] [LinearOrder K] [IsStrictOrderedRing K] [FloorSemiring K]

/-- The loops of the vertical and the horizontal strip:
`geometrix/algorithm/orientation_grid_traversal.hpp:85-89,96-100`. `++j` of a `std::uint32_t`. -/
def orientedStrip : Nat → Nat → Nat → Res (List Nat)
  | 0, _, _ => .error .diverges
  | fuel + 1, j, jEnd =>
    if j ≠ jEnd then
      let j := addU32 j 1
      match orientedStrip fuel j jEnd with
      | .error e => .error e
      | .ok rest => .ok (j :: rest)
    else .ok []

/-- The orientation of the corner of the cell, mirrored for a segment that goes down:
`orientation_grid_traversal.hpp:111-126`. -/
def cornerOrientation (cmp : Cmp K) (g : GridTraits K) (sPoint tPoint : P2 K) (up : Bool) (i j : Nat) : Orient :=
  if up then getOrientation cmp sPoint tPoint (g.cellCorner2 i j)
  else (getOrientation cmp sPoint tPoint (g.cellCorner1 i j)).opposite

/-- The step of `x`: `orientation_grid_traversal.hpp:139,147`. -/
def advanceX (x xdiff : K) : K := x + min 1 xdiff

/-- The step of `y`: `orientation_grid_traversal.hpp:148,156`. -/
def advanceY (up : Bool) (y ydiff : K) : K := y + (if up then min 1 ydiff else max (-1) ydiff)

/-- The check for overrun and the step, `none` for the `break`: `orientation_grid_traversal.hpp:128-157`. -/
def orientedStep (cmp : Cmp K) (up : Bool) (x2 y2 : K) (o : Orient) (x y : K) : Option (K × K) :=
  let xdiff := x2 - x
  let ydiff := y2 - y
  let xIsOver := cmp.lt xdiff 0
  let yIsOver := if up then cmp.lt ydiff 0 else cmp.gt ydiff 0
  match o with
  | .left =>
    if xIsOver || cmp.equals xdiff 0 then none else some (advanceX x xdiff, y)
  | .collinear =>
    if (xIsOver && yIsOver) || (cmp.equals xdiff 0 && cmp.equals ydiff 0) then none
    else some (advanceX x xdiff, advanceY up y ydiff)
  | .right =>
    if yIsOver || cmp.equals ydiff 0 then none else some (x, advanceY up y ydiff)

/-- The loop of the sloped case: `orientation_grid_traversal.hpp:104-167`. `old_i` and `old_j` are the `i` and `j` of
the iteration before. -/
def orientedLoop (cmp : Cmp K) (g : GridTraits K) (sPoint tPoint : P2 K) (up : Bool) (x2 y2 : K) :
    Nat → K → K → Nat → Nat → Res (List (Nat × Nat))
  | 0, _, _, _, _ => .error .diverges
  | fuel + 1, x, y, i, j =>
    match orientedStep cmp up x2 y2 (cornerOrientation cmp g sPoint tPoint up i j) x y with
    | none => .ok []
    | some (x, y) =>
      match toU32 x, toU32 y with
      | .ok i', .ok j' =>
        match orientedLoop cmp g sPoint tPoint up x2 y2 fuel x y i' j' with
        | .error e => .error e
        | .ok rest => if i ≠ i' ∨ j ≠ j' then .ok ((i', j') :: rest) else .ok rest
      | _, _ => .error .overflow

/-- The traversal from `q0` to `q1`, which remain after clipping: `orientation_grid_traversal.hpp:61-167`. -/
def orientedClipped (cmp : Cmp K) (fuel : Nat) (g : GridTraits K) (sPoint tPoint q0 q1 : P2 K) :
    Res (List (Nat × Nat)) :=
  let x1 := g.scaledX q0.x
  let y1 := g.scaledY q0.y
  let x2 := g.scaledX q1.x
  let y2 := g.scaledY q1.y
  let up := cmp.ge y2 y1
  match toU32 x1, toU32 y1, toU32 x2, toU32 y2 with
  | .ok i, .ok j, .ok iEnd, .ok jEnd =>
    if i = iEnd then
      if j = jEnd then .ok [(i, j)]
      else match orientedStrip fuel j jEnd with
        | .error e => .error e
        | .ok rest => .ok ((i, j) :: rest.map fun v => (i, v))
    else if j = jEnd then
      match orientedStrip fuel i iEnd with
      | .error e => .error e
      | .ok rest => .ok ((i, j) :: rest.map fun v => (v, j))
    else match orientedLoop cmp g sPoint tPoint up x2 y2 fuel x1 y1 i j with
      | .error e => .error e
      | .ok rest => .ok ((i, j) :: rest)
  | _, _, _, _ => .error .overflow

/-- `orientation_segment_traversal`: `orientation_grid_traversal.hpp:26-168`. -/
def orientationTraversal (cmp : Cmp K) (fuel : Nat) (g : GridTraits K) (s : Seg K) : Res (List (Nat × Nat)) :=
  let (sPoint, tPoint) := if !lexCompare cmp s.s s.e then (s.e, s.s) else (s.s, s.e)
  let b : Box K := ⟨⟨g.xmin, g.ymin⟩, ⟨g.xmax, g.ymax⟩⟩
  if sPoint.x < b.lo.x ∨ sPoint.x > b.hi.x ∨ sPoint.y < b.lo.y ∨ sPoint.y > b.hi.y ∨
      tPoint.x < b.lo.x ∨ tPoint.x > b.hi.x ∨ tPoint.y < b.lo.y ∨ tPoint.y > b.hi.y then
    match cohenSutherland cmp b sPoint tPoint with
    | .error e => .error e
    | .ok (false, _, _) => .ok []
    | .ok (true, q0, q1) => orientedClipped cmp fuel g sPoint tPoint q0 q1
  else orientedClipped cmp fuel g sPoint tPoint sPoint tPoint

end Geometrix
