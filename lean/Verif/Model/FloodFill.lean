import Verif.Model.FastVoxel
import Mathlib.Logic.Function.Basic

/-!
# Flood fill of a grid

`geometrix/algorithm/floodfill_grid_traversal.hpp`.
-/

namespace Geometrix

/-- `BOUNDARY`: `geometrix/algorithm/floodfill_grid_traversal.hpp:40`. -/
def floodBoundary : Nat := 2 ^ 32 - 1

/-- The members of `floodfill_grid_traversal_helper` that `traversal` reads or writes:
`floodfill_grid_traversal.hpp:279-286`. The colour grid is a function: `get_color` (`:166-183`) gives 0
for a cell that does not exist, and creating it with the colour 0 changes no colour. `visited` is the
set `m_visited`, `out` the list of the visitor calls so far. -/
structure Flood where
  lastColor : Nat
  color : Nat × Nat → Nat
  visited : List (Nat × Nat)
  out : List (Nat × Nat)

/-- A new helper: `floodfill_grid_traversal.hpp:42-48`. -/
def Flood.new : Flood := ⟨0, fun _ => 0, [], []⟩

/-- `visit_cell`: `floodfill_grid_traversal.hpp:267-277`. -/
def Flood.visitCell (f : Flood) (c : Nat × Nat) : Flood :=
  if c ∈ f.visited then f else { f with visited := c :: f.visited, out := f.out ++ [c] }

/-- The first inner loop and the increment after it: `floodfill_grid_traversal.hpp:82-87`. The result is
`y1`. -/
def floodDown (f : Flood) (old x : Nat) : Nat → Nat
  | 0 => if f.color (x, 0) = old then 0 else 1
  | y + 1 => if f.color (x, y + 1) = old then floodDown f old x y else y + 2

/-- One of the two `if … else if` statements on `spanLeft` and `spanRight`:
`floodfill_grid_traversal.hpp:98-104`, `:107-113`. `inside` is the test that there is a column on that
side, `same` the test that the cell there has the old colour. The result is the stack and the new value
of the flag. -/
def floodSpan (span : Bool) (inside same : Prop) [Decidable inside] [Decidable same]
    (cell : Nat × Nat) (stack : List (Nat × Nat)) : List (Nat × Nat) × Bool :=
  if !span && decide inside && decide same then (cell :: stack, true)
  else if span && decide inside && decide (¬ same) then (stack, false)
  else (stack, span)

/-- The second inner loop: `floodfill_grid_traversal.hpp:89-115`. The first argument is the number of
rows from `y1` to the top, the list is the stack, its first element on top. The colour of the cell
`x - 1` is read before the test `x > 0` in the code; for `x = 0` it is not used. -/
def floodColumn (width old new x : Nat) :
    Nat → Nat → Bool → Bool → Flood → List (Nat × Nat) → Flood × List (Nat × Nat)
  | 0, _, _, _, f, stack => (f, stack)
  | n + 1, y1, spanLeft, spanRight, f, stack =>
    if f.color (x, y1) = old then
      let f : Flood := if f.color (x, y1) ≠ floodBoundary then
          { f with color := Function.update f.color (x, y1) new } else f
      let f := f.visitCell (x, y1)
      let l := floodSpan spanLeft (x > 0) (f.color (x - 1, y1) = old) (x - 1, y1) stack
      let r := floodSpan spanRight (x < width - 1) (f.color (x + 1, y1) = old) (x + 1, y1) l.1
      floodColumn width old new x n (y1 + 1) l.2 r.2 f r.1
    else (f, stack)

/-- The outer loop: `floodfill_grid_traversal.hpp:77-116`. The first argument bounds the number of
passes. -/
def floodLoop (width height old new : Nat) : Nat → Flood → List (Nat × Nat) → Res Flood
  | 0, _, _ => .error .diverges
  | fuel + 1, f, stack =>
    match stack with
    | [] => .ok f
    | (x, y) :: stack =>
      let y1 := floodDown f old x y
      let r := floodColumn width old new x (height - y1) y1 false false f stack
      floodLoop width height old new fuel r.1 r.2

/-- `traversal`: `floodfill_grid_traversal.hpp:59-119`. The colours are 32 bit unsigned numbers. -/
def floodTraversal (width height : Nat) (fuel : Nat) (f : Flood) (x y : Nat) : Res (Bool × Flood) :=
  if ¬ x < width then .error .assertFailed
  else if ¬ y < height then .error .assertFailed
  else
    let old := f.color (x, y)
    if old = floodBoundary then .ok (false, { f with lastColor := addU32 f.lastColor 1 })
    else
      let new := addU32 f.lastColor 1
      match floodLoop width height old new fuel f [(x, y)] with
      | .error e => .error e
      | .ok f => .ok (true, { f with lastColor := addU32 f.lastColor 1 })

/-- `update_bound`: `floodfill_grid_traversal.hpp:185-192`. The map from columns to the lowest and the
highest row is a list with one entry for each column. -/
def updateBound : List (Nat × Nat × Nat) → Nat × Nat → List (Nat × Nat × Nat)
  | [], c => [(c.1, c.2, c.2)]
  | (i, lo, hi) :: rest, c =>
    if i = c.1 then (i, min lo c.2, max hi c.2) :: rest else (i, lo, hi) :: updateBound rest c

/-- The visitor of `mark_boundary` called for a list of cells:
`floodfill_grid_traversal.hpp:126-131`. -/
def markCells : Flood → List (Nat × Nat × Nat) → List (Nat × Nat) → Flood × List (Nat × Nat × Nat)
  | f, bounds, [] => (f, bounds)
  | f, bounds, c :: rest =>
    markCells (({ f with color := Function.update f.color c floodBoundary } : Flood).visitCell c)
      (updateBound bounds c) rest

/-- The loop of `mark_boundary`: `floodfill_grid_traversal.hpp:132-137`. `fastVoxel` gives the cells that
its visitor is called for, in order; the result is the list of all those calls. The first argument is the
number of iterations left. Reading `get_point(pgon, j)` for `j` past the end is undefined. -/
def polygonCells {K : Type*} [Field K] [LinearOrder K] [FloorSemiring K] (cmp : Cmp K) (fuel : Nat)
    (g : GridTraits K) (pgon : List (P2 K)) : Nat → Nat → Nat → Res (List (Nat × Nat))
  | 0, _, _ => .ok []
  | n + 1, i, j =>
    match pgon[i]?, pgon[j]? with
    | some p, some q =>
      match fastVoxel cmp (fun _ => true) fuel g ⟨p, q⟩ with
      | .error e => .error e
      | .ok cells =>
        match polygonCells cmp fuel g pgon n (i + 1) ((j + 1) % pgon.length) with
        | .error e => .error e
        | .ok rest => .ok (cells ++ rest)
    | _, _ => .error .outOfRange

/-- The inner loop of `scan` for one column without holes: `floodfill_grid_traversal.hpp:238-244`. The
first argument is the number of rows from `k` to `jmax`. -/
def scanColumn (i : Nat) : Nat → Nat → Flood → Flood
  | 0, _, f => f
  | n + 1, k, f =>
    scanColumn i n (k + 1) (if f.color (i, k) ≠ floodBoundary then f.visitCell (i, k) else f)

/-- `scan` when there are no holes: `floodfill_grid_traversal.hpp:231-265`. -/
def scanBounds : List (Nat × Nat × Nat) → Flood → Flood
  | [], f => f
  | (i, jmin, jmax) :: rest, f =>
    scanBounds rest (scanColumn i (jmax - addU32 jmin 1) (addU32 jmin 1) f)

/-- `floodfill_grid_traversal` for a polygon: `floodfill_grid_traversal.hpp:290-300`, `:121-138`. The
result is the list of the visitor calls. `iter` gives the order in which the entries of the
`std::unordered_map` are met, which is not specified. -/
def floodPolygon {K : Type*} [Field K] [LinearOrder K] [FloorSemiring K] (cmp : Cmp K) (fuel : Nat)
    (iter : List (Nat × Nat × Nat) → List (Nat × Nat × Nat)) (g : GridTraits K) (pgon : List (P2 K)) :
    Res (List (Nat × Nat)) :=
  match polygonCells cmp fuel g pgon pgon.length 0 1 with
  | .error e => .error e
  | .ok cells =>
    let r := markCells Flood.new [] cells
    .ok (scanBounds (iter r.2) r.1).out

end Geometrix
