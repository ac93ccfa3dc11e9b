import Verif.Model.Basic

/-!
# Rotations and splitting a segment
-/

set_option linter.unusedSectionVars false

namespace Geometrix

variable {K : Type*} [Field K] [LinearOrder K]

/-- A two by two matrix by rows: `geometrix/tensor/matrix.hpp`. -/
structure Mat2 (K : Type*) where
  m00 : K
  m01 : K
  m10 : K
  m11 : K

/-- The product of a matrix and a vector: `geometrix/algebra/functions/multiplication.hpp` (expression
templates erased). -/
def Mat2.mulVec (m : Mat2 K) (v : P2 K) : P2 K :=
  ⟨m.m00 * v.x + m.m01 * v.y, m.m10 * v.x + m.m11 * v.y⟩

/-- `make_rotation_matrix`: `geometrix/algorithm/rotation.hpp:24-33`. -/
def makeRotation (v1 v2 : P2 K) : Mat2 K := ⟨dot v1 v2, -cross v1 v2, cross v1 v2, dot v1 v2⟩

/-- `rotate_point` with a matrix: `rotation.hpp:36-39`. -/
def rotatePointM (p : P2 K) (rot : Mat2 K) (origin : P2 K) : P2 K := rot.mulVec (p - origin) + origin

/-- `rotate_point` with two vectors: `rotation.hpp:42-45`. -/
def rotatePoint (p v1 v2 origin : P2 K) : P2 K := rotatePointM p (makeRotation v1 v2) origin

/-- `rotate_vector`: `rotation.hpp:48-57`. -/
def rotateVector (v v1 v2 : P2 K) : P2 K := (makeRotation v1 v2).mulVec v

/-- `rotate_points`: `rotation.hpp:60-69`. -/
def rotatePoints (poly : List (P2 K)) (v1 v2 origin : P2 K) : List (P2 K) :=
  poly.map fun p => (makeRotation v1 v2).mulVec (p - origin) + origin

/-- `rotate_translate_points`: `rotation.hpp:72-87`. -/
def rotateTranslatePoints (poly : List (P2 K)) (v1 v2 translation origin : P2 K) : List (P2 K) :=
  poly.map fun p => (makeRotation v1 v2).mulVec (p - origin) + origin + translation

/-- `split_segment_detail::split_segment`: `geometrix/algorithm/split_segment.hpp:24-36`; the result is
what the call appends to `segs`. The first argument bounds the depth of the recursion. -/
def splitSegmentRec (maxSq : K) : Nat → P2 K → P2 K → Res (List (P2 K × P2 K))
  | 0, _, _ => .error .diverges
  | fuel + 1, start, stop =>
    if distSq start stop > maxSq then
      match splitSegmentRec maxSq fuel start (start + (1 / 2 : K) • (stop - start)) with
      | .error e => .error e
      | .ok l =>
        match splitSegmentRec maxSq fuel (start + (1 / 2 : K) • (stop - start)) stop with
        | .error e => .error e
        | .ok r => .ok (l ++ r)
    else .ok [(start, stop)]

/-- `split_segment`: `split_segment.hpp:39-45`, with the recursion cut off at depth `fuel`. -/
def splitSegment (fuel : Nat) (start stop : P2 K) (maxSize : K) : Res (List (P2 K × P2 K)) :=
  splitSegmentRec (maxSize * maxSize) fuel start stop

end Geometrix
