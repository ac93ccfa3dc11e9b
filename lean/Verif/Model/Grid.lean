import Verif.Model.Box
import Mathlib.Algebra.Order.Floor.Semiring
import Mathlib.Data.Rat.Floor

/-!
# Grids

`geometrix/algorithm/grid_traits.hpp`, `geometrix/algorithm/grid_2d.hpp` and
`geometrix/algorithm/hash_grid_2d.hpp`.
-/

set_option linter.unusedSectionVars false

namespace Geometrix

variable {K : Type*} [Field K] [LinearOrder K] [IsStrictOrderedRing K] [FloorSemiring K]

/-- `static_cast<boost::uint32_t>` of a number: truncation towards zero, undefined behaviour when the
truncated value does not fit. -/
def toU32 (v : K) : Res Nat :=
  if v ≤ -1 ∨ 2 ^ 32 ≤ v then .error .overflow else .ok ⌊v⌋₊

/-- `boost::numeric_cast<boost::uint32_t>` of a number: truncation towards zero, an exception when the
truncated value does not fit. -/
def numericCastU32 (v : K) : Res Nat :=
  if v ≤ -1 ∨ 2 ^ 32 ≤ v then .error .thrown else .ok ⌊v⌋₊

/-- The addition of two `boost::uint32_t`. -/
def addU32 (a b : Nat) : Nat := (a + b) % 2 ^ 32

/-- The members of `grid_traits`: `geometrix/algorithm/grid_traits.hpp:161-168`. -/
structure GridTraits (K : Type*) where
  xmin : K
  xmax : K
  ymin : K
  ymax : K
  cellWidth : K
  cellWidthDivisor : K
  numberXCells : Nat
  numberYCells : Nat
  deriving DecidableEq

/-- The constructors of `grid_traits`: `grid_traits.hpp:35-66`. The quotient `1 / cellWidth` is computed
before the assertions; for a zero cell width the first assertion fails whatever the quotient is. -/
def makeGrid (xmin xmax ymin ymax cellWidth : K) : Res (GridTraits K) :=
  if ¬ (cellWidth > 0) then .error .assertFailed
  else if ¬ (xmin < xmax ∧ ymin < ymax) then .error .assertFailed
  else match cdiv 1 cellWidth with
    | .error e => .error e
    | .ok divisor =>
    match numericCastU32 ((xmax - xmin) * divisor) with
    | .error e => .error e
    | .ok nx =>
    match numericCastU32 ((ymax - ymin) * divisor) with
    | .error e => .error e
    | .ok ny => .ok ⟨xmin, xmax, ymin, ymax, cellWidth, divisor, addU32 nx 1, addU32 ny 1⟩

/-- `get_x_index`: `grid_traits.hpp:74-78`. -/
def GridTraits.xIndex (g : GridTraits K) (x : K) : Res Nat :=
  if ¬ (x ≥ g.xmin ∧ x ≤ g.xmax) then .error .assertFailed
  else toU32 ((x - g.xmin) * g.cellWidthDivisor)

/-- `get_y_index`: `grid_traits.hpp:80-84`. -/
def GridTraits.yIndex (g : GridTraits K) (y : K) : Res Nat :=
  if ¬ (y ≥ g.ymin ∧ y ≤ g.ymax) then .error .assertFailed
  else toU32 ((y - g.ymin) * g.cellWidthDivisor)

/-- `get_width`: `grid_traits.hpp:86`. -/
def GridTraits.width (g : GridTraits K) : Nat := g.numberXCells

/-- `get_height`: `grid_traits.hpp:87`. -/
def GridTraits.height (g : GridTraits K) : Nat := g.numberYCells

/-- `is_contained`: `grid_traits.hpp:89-94`. -/
def GridTraits.isContained (g : GridTraits K) (p : P2 K) : Bool :=
  decide (p.x ≥ g.xmin) && decide (p.x ≤ g.xmax) && decide (p.y ≥ g.ymin) && decide (p.y ≤ g.ymax)

/-- `get_cell_centroid`: `grid_traits.hpp:96-99`. -/
def GridTraits.cellCentroid (g : GridTraits K) (i j : Nat) : P2 K :=
  ⟨g.xmin + ((i : K) + 1 / 2) * g.cellWidth, g.ymin + ((j : K) + 1 / 2) * g.cellWidth⟩

/-- `get_cell_corner0`: `grid_traits.hpp:125-129`. -/
def GridTraits.cellCorner0 (g : GridTraits K) (i j : Nat) : P2 K :=
  ⟨g.xmin + (i : K) * g.cellWidth, g.ymin + (j : K) * g.cellWidth⟩

/-- `get_cell_corner1`: `grid_traits.hpp:131-135`. -/
def GridTraits.cellCorner1 (g : GridTraits K) (i j : Nat) : P2 K :=
  ⟨g.xmin + ((addU32 i 1 : Nat) : K) * g.cellWidth, g.ymin + (j : K) * g.cellWidth⟩

/-- `get_cell_corner2`: `grid_traits.hpp:137-141`. -/
def GridTraits.cellCorner2 (g : GridTraits K) (i j : Nat) : P2 K :=
  ⟨g.xmin + ((addU32 i 1 : Nat) : K) * g.cellWidth, g.ymin + ((addU32 j 1 : Nat) : K) * g.cellWidth⟩

/-- `get_cell_corner3`: `grid_traits.hpp:143-147`. -/
def GridTraits.cellCorner3 (g : GridTraits K) (i j : Nat) : P2 K :=
  ⟨g.xmin + (i : K) * g.cellWidth, g.ymin + ((addU32 j 1 : Nat) : K) * g.cellWidth⟩

/-- `get_cell_polygon`: `grid_traits.hpp:101-109`. -/
def GridTraits.cellPolygon (g : GridTraits K) (i j : Nat) : List (P2 K) :=
  let xmax := g.xmin + ((addU32 i 1 : Nat) : K) * g.cellWidth
  let ymax := g.ymin + ((addU32 j 1 : Nat) : K) * g.cellWidth
  let xmin := g.xmin + (i : K) * g.cellWidth
  let ymin := g.ymin + (j : K) * g.cellWidth
  [⟨xmin, ymin⟩, ⟨xmax, ymin⟩, ⟨xmax, ymax⟩, ⟨xmin, ymax⟩]

/-- `get_cell_aabb`: `grid_traits.hpp:111-119`. -/
def GridTraits.cellAabb (g : GridTraits K) (i j : Nat) : Box K :=
  let xmax := g.xmin + ((addU32 i 1 : Nat) : K) * g.cellWidth
  let ymax := g.ymin + ((addU32 j 1 : Nat) : K) * g.cellWidth
  let xmin := g.xmin + (i : K) * g.cellWidth
  let ymin := g.ymin + (j : K) * g.cellWidth
  ⟨⟨xmin, ymin⟩, ⟨xmax, ymax⟩⟩

/-- `get_scaled_grid_coordinate_x`: `grid_traits.hpp:149-150`. -/
def GridTraits.scaledX (g : GridTraits K) (x : K) : K := (x - g.xmin) * g.cellWidthDivisor

/-- `get_scaled_grid_coordinate_y`: `grid_traits.hpp:152-153`. -/
def GridTraits.scaledY (g : GridTraits K) (y : K) : K := (y - g.ymin) * g.cellWidthDivisor

section
variable {D : Type}

/-- `grid_2d`: `geometrix/algorithm/grid_2d.hpp:22-81`. The `boost::multi_array` is its flat storage in
row order with the two extents. -/
structure Grid2d (D : Type*) where
  width : Nat
  height : Nat
  data : List D

/-- The constructor: `grid_2d.hpp:34-37`; all cells hold a default constructed value. -/
def makeGrid2d (dflt : D) (g : GridTraits K) : Grid2d D :=
  ⟨g.width, g.height, List.replicate (g.width * g.height) dflt⟩

/-- Reading through `get_cell(i, j)`: `grid_2d.hpp:49-52`; `boost::multi_array` asserts both indices
and takes the element at `i * height + j`. -/
def Grid2d.get (m : Grid2d D) (i j : Nat) : Res D :=
  if i < m.width then
    if j < m.height then
      match m.data[i * m.height + j]? with
      | some v => .ok v
      | none => .error .outOfRange
    else .error .outOfRange
  else .error .outOfRange

/-- Assigning to the reference returned by `get_cell(i, j)`: `grid_2d.hpp:64-67`. -/
def Grid2d.set (m : Grid2d D) (i j : Nat) (v : D) : Res (Grid2d D) :=
  if i < m.width then
    if j < m.height then
      if i * m.height + j < m.data.length then
        .ok { m with data := m.data.set (i * m.height + j) v }
      else .error .outOfRange
    else .error .outOfRange
  else .error .outOfRange

/-- Reading through `get_cell(point)`: `grid_2d.hpp:39-47,54-62`. -/
def Grid2d.getAt (g : GridTraits K) (m : Grid2d D) (p : P2 K) : Res D :=
  if ¬ g.isContained p then .error .assertFailed
  else do
    let i ← g.xIndex p.x
    let j ← g.yIndex p.y
    m.get i j

/-- The `std::unordered_map` of a `hash_grid_2d`: `geometrix/algorithm/hash_grid_2d.hpp:27-28`. The
map is an association list; the order of the entries and the hash function are not observable through
the members of `hash_grid_2d`. -/
abbrev HashGrid (D : Type*) := List ((Nat × Nat) × D)

/-- `find_cell(i, j)`: `hash_grid_2d.hpp:77-92`; `none` is the null pointer. -/
def HashGrid.find (m : HashGrid D) (i j : Nat) : Option D :=
  (List.find? (fun e => e.1 == (i, j)) m).map (·.2)

/-- `get_cell(i, j)`: `hash_grid_2d.hpp:104-112`. The result is the changed map and the value of the
cell. -/
def HashGrid.get (dflt : D) (m : HashGrid D) (i j : Nat) : HashGrid D × D :=
  match m.find i j with
  | some v => (m, v)
  | none => (((i, j), dflt) :: m, dflt)

/-- Assigning to the reference returned by `get_cell(i, j)`. -/
def HashGrid.set (dflt : D) (m : HashGrid D) (i j : Nat) (v : D) : HashGrid D :=
  (m.get dflt i j).1.map fun e => if e.1 == (i, j) then (e.1, v) else e

/-- `erase(i, j)`: `hash_grid_2d.hpp:123-128`: the entry that is found is removed. -/
def HashGrid.erase (m : HashGrid D) (i j : Nat) : HashGrid D :=
  List.eraseP (fun e => e.1 == (i, j)) m

/-- `clear()`: `hash_grid_2d.hpp:130`. -/
def HashGrid.clear (_ : HashGrid D) : HashGrid D := []

/-- `find_cell(point)`: `hash_grid_2d.hpp:57-75`. -/
def HashGrid.findAt (g : GridTraits K) (m : HashGrid D) (p : P2 K) : Res (Option D) :=
  if ¬ g.isContained p then .error .assertFailed
  else do
    let i ← g.xIndex p.x
    let j ← g.yIndex p.y
    .ok (m.find i j)

/-- `get_cell(point)`: `hash_grid_2d.hpp:94-102`. -/
def HashGrid.getAt (dflt : D) (g : GridTraits K) (m : HashGrid D) (p : P2 K) :
    Res (HashGrid D × D) :=
  if ¬ g.isContained p then .error .assertFailed
  else do
    let i ← g.xIndex p.x
    let j ← g.yIndex p.y
    .ok (m.get dflt i j)

end

end Geometrix
