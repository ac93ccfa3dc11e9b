import Verif.Model.Orientation

/-!
# Equal point sequences and polygons, and the order of points by distance

`geometrix/primitive/point_sequence_utilities.hpp` and `geometrix/algorithm/distance/distance_compare.hpp`.
-/

set_option linter.unusedSectionVars false

namespace Geometrix

variable {K : Type*} [Field K] [LinearOrder K]

/-- The loop of `point_sequences_equal`: `geometrix/primitive/point_sequence_utilities.hpp:474-478`. The second number is
the index `i`, the first how many are left. -/
def sequencesEqualLoop (cmp : Cmp K) (p1 p2 : List (P2 K)) : Nat → Nat → Res Bool
  | 0, _ => .ok true
  | n + 1, i =>
    match p1[i]?, p2[i]? with
    | some a, some b => if !seqEquals cmp a b then .ok false else sequencesEqualLoop cmp p1 p2 n (i + 1)
    | _, _ => .error .outOfRange

/-- `point_sequences_equal`: `point_sequence_utilities.hpp:465-481`. -/
def sequencesEqual (cmp : Cmp K) (p1 p2 : List (P2 K)) : Res Bool :=
  if p1.length ≠ p2.length then .ok false else sequencesEqualLoop cmp p1 p2 p1.length 0

/-- The loop of `polygons_equal`: `point_sequence_utilities.hpp:492-496`. `std::size_t` has 64 bits. -/
def polygonsEqualLoop (cmp : Cmp K) (p1 p2 : List (P2 K)) (offset : Nat) : Nat → Nat → Res Bool
  | 0, _ => .ok true
  | n + 1, i =>
    match p1[i]?, p2[(i + offset) % 2 ^ 64 % p2.length]? with
    | some a, some b =>
      if !seqEquals cmp a b then .ok false else polygonsEqualLoop cmp p1 p2 offset n (i + 1)
    | _, _ => .error .outOfRange

/-- `polygons_equal`: `point_sequence_utilities.hpp:483-499`. -/
def polygonsEqual (cmp : Cmp K) (p1 p2 : List (P2 K)) (offset : Nat) : Res Bool :=
  if p1.length ≠ p2.length then .ok false else polygonsEqualLoop cmp p1 p2 offset p1.length 0

/-- The loop of `polygon_polygon_offset`: `point_sequence_utilities.hpp:510-516`. -/
def startLoop (cmp : Cmp K) (p1 p2 : List (P2 K)) : Nat → Nat → Res Nat
  | 0, _ => .ok (2 ^ 64 - 1)
  | n + 1, i =>
    match p1[0]?, p2[i]? with
    | some a, some b => if seqEquals cmp a b then .ok i else startLoop cmp p1 p2 n (i + 1)
    | _, _ => .error .outOfRange

/-- `polygon_polygon_offset`: `point_sequence_utilities.hpp:503-517`. -/
def polygonOffset (cmp : Cmp K) (p1 p2 : List (P2 K)) : Res Nat :=
  if p2.length ≠ p1.length then .error .assertFailed else startLoop cmp p1 p2 p2.length 0

/-- `distance_compare`: `geometrix/algorithm/distance/distance_compare.hpp:16-43`. -/
def distanceCompare (cmp : Cmp K) (p lhs rhs : P2 K) : Bool := cmp.lt (distSq p lhs) (distSq p rhs)

end Geometrix
