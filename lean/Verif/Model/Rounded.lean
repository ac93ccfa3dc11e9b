import Verif.Model.Grid
import Verif.Model.Orientation

/-!
# Some functions with rounding

The other models compute with the numbers of a field. Here every sum, difference, product and quotient is rounded, as it is
with floating point numbers; `fl` is the rounding function. Simplifications: there is no overflow and no underflow, and a
product and a sum are not contracted to one operation.
-/

set_option linter.unusedSectionVars false

namespace Geometrix

variable {K : Type*} [Field K] [LinearOrder K]

/-- The difference of two points or vectors: `geometrix/algebra/expression.hpp`, by coordinates. -/
def subR (fl : K → K) (B A : P2 K) : P2 K := ⟨fl (B.x - A.x), fl (B.y - A.y)⟩

/-- `absolute_tolerance_comparison_policy`: `geometrix/numeric/number_comparison_policy.hpp:390-434`, see `Cmp.absolute`. -/
def Cmp.absoluteR (fl : K → K) (e : K) : Cmp K where
  equals u v := decide (absoluteValue (fl (u - v)) ≤ e)
  lt u v := decide (fl (u - v) < -e)
  le u v := decide (fl (u - v) ≤ e)
  gt u v := decide (fl (u - v) > e)
  ge u v := decide (fl (u - v) ≥ -e)

/-- `get_orientation` of two vectors: `geometrix/algorithm/orientation.hpp:36-42`. -/
def getOrientationVR (fl : K → K) (cmp : Cmp K) (A B : P2 K) : Orient :=
  orientationOf cmp (fl (A.x * B.y)) (fl (A.y * B.x))

/-- `get_orientation` of three points: `orientation.hpp:46-49`. -/
def getOrientationR (fl : K → K) (cmp : Cmp K) (A B C : P2 K) : Orient :=
  getOrientationVR fl cmp (subR fl B A) (subR fl C A)

/-- `dot_product` in two dimensions: `geometrix/algebra/detail/dot_product.hpp:106-125,281-300`. -/
def dotR (fl : K → K) (u v : P2 K) : K := fl (fl (u.x * v.x) + fl (u.y * v.y))

/-- `point_point_distance_sqrd` in two dimensions:
`geometrix/algorithm/distance/point_point_distance.hpp:71-82,126-134`. -/
def distSqR (fl : K → K) (a b : P2 K) : K :=
  fl (fl (fl (b.x - a.x) * fl (b.x - a.x)) + fl (fl (b.y - a.y) * fl (b.y - a.y)))

section

variable [IsStrictOrderedRing K] [FloorSemiring K]

/-- The constructors of `grid_traits`: `geometrix/algorithm/grid_traits.hpp:35-66`, see `makeGrid`. -/
def makeGridR (fl : K → K) (xmin xmax ymin ymax cellWidth : K) : Res (GridTraits K) :=
  if ¬ (cellWidth > 0) then .error .assertFailed
  else if ¬ (xmin < xmax ∧ ymin < ymax) then .error .assertFailed
  else
    let divisor := fl (1 / cellWidth)
    match numericCastU32 (fl (fl (xmax - xmin) * divisor)) with
    | .error e => .error e
    | .ok nx =>
    match numericCastU32 (fl (fl (ymax - ymin) * divisor)) with
    | .error e => .error e
    | .ok ny => .ok ⟨xmin, xmax, ymin, ymax, cellWidth, divisor, addU32 nx 1, addU32 ny 1⟩

/-- `get_x_index`: `grid_traits.hpp:74-78`. -/
def GridTraits.xIndexR (fl : K → K) (g : GridTraits K) (x : K) : Res Nat :=
  if ¬ (x ≥ g.xmin ∧ x ≤ g.xmax) then .error .assertFailed
  else toU32 (fl (fl (x - g.xmin) * g.cellWidthDivisor))

/-- `get_y_index`: `grid_traits.hpp:80-84`. -/
def GridTraits.yIndexR (fl : K → K) (g : GridTraits K) (y : K) : Res Nat :=
  if ¬ (y ≥ g.ymin ∧ y ≤ g.ymax) then .error .assertFailed
  else toU32 (fl (fl (y - g.ymin) * g.cellWidthDivisor))

/-- `get_cell_aabb`: `grid_traits.hpp:111-119`. The indices are exact as floating point numbers. -/
def GridTraits.cellAabbR (fl : K → K) (g : GridTraits K) (i j : Nat) : Box K :=
  let xmax := fl (g.xmin + fl (((addU32 i 1 : Nat) : K) * g.cellWidth))
  let ymax := fl (g.ymin + fl (((addU32 j 1 : Nat) : K) * g.cellWidth))
  let xmin := fl (g.xmin + fl ((i : K) * g.cellWidth))
  let ymin := fl (g.ymin + fl ((j : K) * g.cellWidth))
  ⟨⟨xmin, ymin⟩, ⟨xmax, ymax⟩⟩

end

end Geometrix
