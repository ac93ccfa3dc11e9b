import Verif.Model.Policy
import Verif.Model.Box
import Mathlib.Analysis.Real.Sqrt

/-!
# Area, centroid and length of point sequences
-/

namespace Geometrix

variable {K : Type*} [Field K] [LinearOrder K]

/-- The loop of `get_signed_area`: `geometrix/primitive/point_sequence_utilities.hpp:118-124`. The
list is what the iterator `it` has still to pass, `area` the running sum. -/
def areaLoop (area : K) : List (P2 K) → K
  | a :: b :: rest => areaLoop (area + cross a b) (b :: rest)
  | _ => area

/-- `get_signed_area`: `point_sequence_utilities.hpp:100-129`. For an empty sequence `begin() + 1` is
already beyond `end()`. -/
def signedArea : List (P2 K) → Res K
  | [] => .error .outOfRange
  | a :: rest =>
    .ok ((areaLoop 0 (a :: rest) + cross ((a :: rest).getLast (by simp)) a) * (1 / 2))

/-- `get_area`: `point_sequence_utilities.hpp:132-148`. -/
def polygonArea (poly : List (P2 K)) : Res K :=
  match signedArea poly with
  | .error e => .error e
  | .ok a => .ok |a|

/-- The running values of `get_centroid`. -/
structure Moments (K : Type*) where
  area : K
  mX : K
  mY : K

/-- One step of the loop of `get_centroid`: `point_sequence_utilities.hpp:53-58` and `62-68`. -/
def Moments.step (m : Moments K) (a b : P2 K) : Moments K :=
  ⟨m.area + cross a b, m.mX + cross a b * (a.x + b.x), m.mY + cross a b * (a.y + b.y)⟩

/-- The loop of `get_centroid`: `point_sequence_utilities.hpp:44-59`. -/
def momentLoop (m : Moments K) : List (P2 K) → Moments K
  | a :: b :: rest => momentLoop (m.step a b) (b :: rest)
  | _ => m

/-- `get_centroid`: `point_sequence_utilities.hpp:21-74`. -/
def centroid : List (P2 K) → Res (P2 K)
  | [] => .error .outOfRange
  | a :: rest =>
    let m := (momentLoop ⟨0, 0, 0⟩ (a :: rest)).step ((a :: rest).getLast (by simp)) a
    match cdiv 1 (6 * (m.area * (1 / 2))) with
    | .error e => .error e
    | .ok q => .ok ⟨m.mX * q, m.mY * q⟩

/-- `point_point_distance`: `geometrix/algorithm/distance/point_point_distance.hpp`, the square root
of the squared distance. -/
noncomputable def pointDist (a b : P2 ℝ) : ℝ := Real.sqrt (distSq a b)

/-- The loop of `polyline_length`: `geometrix/algorithm/point_sequence/length.hpp:32-37`. -/
noncomputable def lengthLoop (length : ℝ) : List (P2 ℝ) → ℝ
  | a :: b :: rest => lengthLoop (length + pointDist a b) (b :: rest)
  | _ => length

/-- `polyline_length`: `length.hpp:26-40`. -/
noncomputable def polylineLength (poly : List (P2 ℝ)) : ℝ := lengthLoop 0 poly

/-- The loop of `polygon_length`: `length.hpp:50-53`. The first argument counts the remaining
iterations. -/
noncomputable def polygonLengthLoop (poly : List (P2 ℝ)) : Nat → Nat → Nat → ℝ → Res ℝ
  | 0, _, _, length => .ok length
  | k + 1, i, j, length =>
    match poly[i]?, poly[j]? with
    | some a, some b =>
      polygonLengthLoop poly k (i + 1) ((j + 1) % poly.length) (length + pointDist a b)
    | _, _ => .error .outOfRange

/-- `polygon_length`: `length.hpp:42-56`. -/
noncomputable def polygonLength (poly : List (P2 ℝ)) : Res ℝ :=
  polygonLengthLoop poly poly.length 0 1 0

/-- `next_index`: `point_sequence_utilities.hpp:413-417`. -/
def nextIndex (n index : Nat) : Nat := if index + 1 < n then index + 1 else 0

/-- `prev_index`: `point_sequence_utilities.hpp:419-423`. For an empty sequence the unsigned
subtraction wraps round; the caller below reads an element first. -/
def prevIndex (n index : Nat) : Nat := if index > 0 then index - 1 else n - 1

/-- `is_point_concave`: `point_sequence_utilities.hpp:425-435`. -/
def isPointConcave (poly : List (P2 K)) (index : Nat) : Res Bool :=
  match poly[index]?, poly[prevIndex poly.length index]?, poly[nextIndex poly.length index]? with
  | some p, some prev, some next => .ok (!decide (cross (p - prev) (next - prev) > 0))
  | _, _, _ => .error .outOfRange

end Geometrix
