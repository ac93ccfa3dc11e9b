import Verif.Model.Policy

/-!
# Orientation, collinearity and betweenness
-/

set_option linter.unusedSectionVars false

namespace Geometrix

variable {K : Type*} [Field K] [LinearOrder K]

/-- `orientation_type`: `geometrix/algorithm/orientation_enum.hpp:16-21`. -/
inductive Orient where
  /-- `oriented_right = -1` -/
  | right
  /-- `oriented_collinear = 0` -/
  | collinear
  /-- `oriented_left = 1` -/
  | left
  deriving DecidableEq, Repr

/-- The numeric value of the enumerator: `orientation_enum.hpp:16-21`. -/
def Orient.toInt : Orient → Int
  | .right => -1
  | .collinear => 0
  | .left => 1

/-- `opposite_orientation`: `orientation_enum.hpp:23-26`. -/
def Orient.opposite : Orient → Orient
  | .right => .left
  | .collinear => .collinear
  | .left => .right

/-- `detail::orientation`: `geometrix/algorithm/orientation.hpp:21-30`. -/
def orientationOf (cmp : Cmp K) (x0 x1 : K) : Orient :=
  if cmp.lt x0 x1 then .right
  else if cmp.gt x0 x1 then .left
  else .collinear

/-- `get_orientation` of two vectors: `orientation.hpp:36-42`. -/
def getOrientationV (cmp : Cmp K) (A B : P2 K) : Orient :=
  orientationOf cmp (A.x * B.y) (A.y * B.x)

/-- `get_orientation` of three points: `orientation.hpp:46-49`. -/
def getOrientation (cmp : Cmp K) (A B C : P2 K) : Orient :=
  getOrientationV cmp (B - A) (C - A)

/-- `numeric_sequence_equals` in two dimensions:
`geometrix/tensor/numeric_sequence_compare.hpp:22-45,82-88`. -/
def seqEquals (cmp : Cmp K) (A B : P2 K) : Bool :=
  cmp.equals A.y B.y && cmp.equals A.x B.x

/-- `is_collinear`: `geometrix/utility/utilities.hpp:135-148`. -/
def isCollinear (cmp : Cmp K) (A B C : P2 K) : Bool :=
  cmp.equals (cross (B - A) (C - A)) 0

/-- The body of `is_collinear_point_between` after its assertion: `utilities.hpp:185-212`. -/
def betweenCore (cmp : Cmp K) (A B C : P2 K) (includeBounds : Bool) : Bool :=
  if !cmp.equals A.x B.x then
    if includeBounds then
      (cmp.le A.x C.x && cmp.le C.x B.x) || (cmp.ge A.x C.x && cmp.ge C.x B.x)
    else
      (cmp.lt A.x C.x && cmp.lt C.x B.x) || (cmp.gt A.x C.x && cmp.gt C.x B.x)
  else
    if includeBounds then
      (cmp.le A.y C.y && cmp.le C.y B.y) || (cmp.ge A.y C.y && cmp.ge C.y B.y)
    else
      (cmp.lt A.y C.y && cmp.lt C.y B.y) || (cmp.gt A.y C.y && cmp.gt C.y B.y)

/-- `is_collinear_point_between`: `utilities.hpp:171-213`, with the assertion of line 183. -/
def isCollinearPointBetween (cmp : Cmp K) (A B C : P2 K) (includeBounds : Bool) : Res Bool :=
  if isCollinear cmp A B C then .ok (betweenCore cmp A B C includeBounds)
  else .error .assertFailed

/-- `is_between`: `utilities.hpp:153-166`. The assertion inside `is_collinear_point_between` repeats
the test of line 165 and therefore always passes here, see `isBetween_eq_call`. -/
def isBetween (cmp : Cmp K) (A B C : P2 K) (includeBounds : Bool) : Bool :=
  isCollinear cmp A B C && betweenCore cmp A B C includeBounds

/-- `is_between` written as the code has it, with the inner call and its assertion. -/
theorem isBetween_eq_call (cmp : Cmp K) (A B C : P2 K) (inc : Bool) :
    (if isCollinear cmp A B C then isCollinearPointBetween cmp A B C inc else .ok false)
      = .ok (isBetween cmp A B C inc) := by
  unfold isBetween isCollinearPointBetween
  cases isCollinear cmp A B C <;> simp

/-- `is_vector_between`: `utilities.hpp:218-254`. -/
def isVectorBetween (cmp : Cmp K) (a b c : P2 K) (includeBounds : Bool) : Bool :=
  let detcb := cross c b
  if cmp.equals detcb 0 && cmp.ge (dot b c) 0 then includeBounds
  else
    let detac := cross a c
    if cmp.equals detac 0 && cmp.ge (dot a c) 0 then includeBounds
    else
      let detab := cross a b
      if cmp.equals detab 0 && cmp.ge (dot b a) 0 then false
      else if cmp.ge (detac * detab) 0 then cmp.gt detcb 0
      else cmp.gt detac 0

/-- `vector_angle_compare::operator()` with a reference vector:
`geometrix/utility/vector_angle_compare.hpp:57-84`. -/
def vectorAngleCompare (cmp : Cmp K) (ref v1 v2 : P2 K) : Bool :=
  let detv2 := cross ref v2
  if cmp.equals detv2 0 && cmp.ge (dot v2 ref) 0 then false
  else
    let detv1 := cross ref v1
    if cmp.equals detv1 0 && cmp.ge (dot v1 ref) 0 then true
    else if cmp.ge (detv1 * detv2) 0 then cmp.gt (cross v1 v2) 0
    else cmp.gt detv1 0

/-- `point_angle_compare::operator()`: `geometrix/utility/point_angle_compare.hpp:44-72`, which
compares the vectors from the origin against the fixed reference `(1, 0)` (line 37). -/
def pointAngleCompare (cmp : Cmp K) (origin a b : P2 K) : Bool :=
  let da := a - origin
  let db := b - origin
  let ref : P2 K := ⟨1, 0⟩
  let detb := cross ref db
  if cmp.equals detb 0 && cmp.ge (dot db ref) 0 then false
  else
    let deta := cross ref da
    if cmp.equals deta 0 && cmp.ge (dot da ref) 0 then true
    else if cmp.ge (deta * detb) 0 then cmp.gt (cross da db) 0
    else cmp.gt deta 0

/-- `pseudo_angle`: `vector_angle_compare.hpp:24-32`. The assertion rejects the null vector.
`copysign(r, y)` is `|r|` for `y ≥ 0` and `-|r|` for `y < 0`; simplification: there is no negative
zero. -/
def pseudoAngle (v : P2 K) : Res K :=
  if v = 0 then .error .assertFailed
  else
    let r := |1 - v.x / (|v.x| + |v.y|)|
    let result := if v.y < 0 then -r else r
    .ok (if v.y < 0 then 4 + result else result)

/-- `detail::lexicographical<2>::compare`, used by `lexicographical_comparer` and
`lexicographically_less_than`: `utilities.hpp:372-396,399-435`. -/
def lexCompare (cmp : Cmp K) (p q : P2 K) : Bool :=
  if cmp.lt p.x q.x then true
  else if cmp.equals p.x q.x then
    if cmp.lt p.y q.y then true
    else if cmp.equals p.y q.y then false
    else false
  else false

/-- `reverse_lexicographical_point_compare::operator()` in two dimensions:
`utilities.hpp:449-454`. -/
def reverseLexCompare (cmp : Cmp K) (p q : P2 K) : Bool :=
  cmp.lt p.y q.y || (cmp.equals p.y q.y && cmp.lt p.x q.x)

/-- A segment: `geometrix/primitive/segment.hpp`, a start and an end point. -/
@[ext] structure Seg (K : Type*) where
  s : P2 K
  e : P2 K
  deriving DecidableEq, Repr

/-- `lexicographical_segment_compare::operator()`: `utilities.hpp:478-517`. Line 484 takes the end
of the *second* segment as `end1`; this is modelled as written. -/
def lexSegmentCompare (cmp : Cmp K) (s1 s2 : Seg K) : Bool :=
  let start1 := s1.s
  let end1 := s2.e
  let start2 := s2.s
  let end2 := s2.e
  let lu1 := if lexCompare cmp start1 end1 then (start1, end1) else (end1, start1)
  let lu2 := if lexCompare cmp start2 end2 then (start2, end2) else (end2, start2)
  lexCompare cmp lu1.1 lu2.1 || (seqEquals cmp lu1.1 lu2.1 && lexCompare cmp lu1.2 lu2.2)

/-- `segment_interval_compare::operator()`: `utilities.hpp:534-553`. -/
def segmentIntervalCompare (cmp : Cmp K) (lhs rhs : Seg K) : Bool :=
  let lhsEnd := if lexCompare cmp lhs.s lhs.e then lhs.e else lhs.s
  let rhsStart := if lexCompare cmp rhs.s rhs.e then rhs.s else rhs.e
  lexCompare cmp lhsEnd rhsStart

/-- `dimension_compare<D>::operator()`: `utilities.hpp:817-828`. `D` is 0 or 1. -/
def dimensionCompare (cmp : Cmp K) (d : Fin 2) (p q : P2 K) : Bool :=
  let c := fun r : P2 K => if d = 0 then r.x else r.y
  if cmp.lt (c p) (c q) then true
  else if cmp.equals (c p) (c q) then lexCompare cmp p q
  else false

/-- `coordinate_less_compare::operator()`: `utilities.hpp:765-768`. -/
def coordinateLessCompare (cmp : Cmp K) (lhs rhs : K) : Bool := cmp.lt rhs lhs

/-- `min_copy`: `utilities.hpp:835-838`. -/
def minCopy (a b : K) : K := if a < b then a else b

/-- `max_copy`: `utilities.hpp:841-844`. -/
def maxCopy (a b : K) : K := if a > b then a else b

/-- `clamp`: `utilities.hpp:848-853`. -/
def clamp (n lo hi : K) : K := if n < lo then lo else if n > hi then hi else n

/-- `sign`: `utilities.hpp:856-859`. -/
def signOf (v : K) : Int := if v ≥ 0 then 1 else -1

end Geometrix
