import Verif.Model.Orientation
import Verif.Model.Distance
import Verif.Model.PointSequence
import Verif.Model.PolylineSplit

/-!
# Part of the border of a polygon near a point

`geometrix/algorithm/point_sequence/find_subsequence.hpp`.
-/

set_option linter.unusedSectionVars false

namespace Geometrix

variable {K : Type*} [Field K] [LinearOrder K]

/-- The loop of `find_containing_polygon_border_segment`: `find_subsequence.hpp:33-39`. The first argument is
`size - i`. `j` starts at 1, which is outside for a polygon with one vertex. -/
def containingLoop (cmp : Cmp K) (P : List (P2 K)) (p : P2 K) : Nat → Nat → Nat → Res (Option Nat)
  | 0, _, _ => .ok none
  | n + 1, i, j =>
    match P[i]?, P[j]? with
    | some A, some B =>
      if isBetween cmp A B p true then .ok (some i)
      else containingLoop cmp P p n (i + 1) ((j + 1) % P.length)
    | _, _ => .error .outOfRange

/-- `find_containing_polygon_border_segment`: `find_subsequence.hpp:29-40`. -/
def findContaining (cmp : Cmp K) (P : List (P2 K)) (p : P2 K) : Res (Option Nat) :=
  containingLoop cmp P p P.length 0 1

/-- The update of `distance` and `index`: `find_subsequence.hpp:55-56,78-79`. -/
def keepCloser (d : K) (i : Nat) : Option (K × Nat) → Option (K × Nat)
  | none => some (d, i)
  | some (d', i') => if d < d' then some (d, i) else some (d', i')

/-- The loop of `find_closest_polygon_border_segment`: `find_subsequence.hpp:52-59`. The state is the pair of
`distance` and `index`; `none` stands for the initial pair of the largest numbers, and every distance is taken to be
smaller than the largest number. -/
def closestLoop (P : List (P2 K)) (p : P2 K) : Nat → Nat → Nat → Option (K × Nat) → Res (Option (K × Nat))
  | 0, _, _, best => .ok best
  | n + 1, i, j, best =>
    match P[i]?, P[j]? with
    | some A, some B =>
      match pointSegDistSq p A B with
      | .error e => .error e
      | .ok d =>
        closestLoop P p n (i + 1) ((j + 1) % P.length) (keepCloser d i best)
    | _, _ => .error .outOfRange

/-- `find_closest_polygon_border_segment`: `find_subsequence.hpp:44-60`. `none` is the largest index. -/
def findClosest (P : List (P2 K)) (p : P2 K) : Res (Option Nat) :=
  match closestLoop P p P.length 0 1 none with
  | .error e => .error e
  | .ok r => .ok (r.map Prod.snd)

/-- The loop of `find_containing_or_closest_polygon_border_segment`: `find_subsequence.hpp:72-82`. -/
def containingOrClosestLoop (cmp : Cmp K) (P : List (P2 K)) (p : P2 K) :
    Nat → Nat → Nat → Option (K × Nat) → Res (Option Nat)
  | 0, _, _, best => .ok (best.map Prod.snd)
  | n + 1, i, j, best =>
    match P[i]?, P[j]? with
    | some A, some B =>
      if isBetween cmp A B p true then .ok (some i)
      else
        match pointSegDistSq p A B with
        | .error e => .error e
        | .ok d =>
          containingOrClosestLoop cmp P p n (i + 1) ((j + 1) % P.length) (keepCloser d i best)
    | _, _ => .error .outOfRange

/-- `find_containing_or_closest_polygon_border_segment`: `find_subsequence.hpp:64-83`. -/
def findContainingOrClosest (cmp : Cmp K) (P : List (P2 K)) (p : P2 K) : Res (Option Nat) :=
  containingOrClosestLoop cmp P p P.length 0 1 none

/-- `polygon_incrementer<clockwise>`: `find_subsequence.hpp:90-95`. -/
def incCw (size i : Nat) : Nat := (i + size - 1) % size

/-- `polygon_incrementer<counterclockwise>`: `find_subsequence.hpp:98-103`. -/
def incCcw (size i : Nat) : Nat := (i + 1) % size

/-- The loop of `polygon_subsequence_half`: `find_subsequence.hpp:120-136`, the points that are added. The first
argument bounds the number of rounds. -/
noncomputable def halfLoop (P : List (P2 ℝ)) (inc : Nat → Nat) : Nat → P2 ℝ → ℝ → Nat → Res (List (P2 ℝ))
  | 0, _, _, _ => .error .diverges
  | n + 1, cur, extent, j =>
    if 0 < extent then
      match P[j]? with
      | none => .error .outOfRange
      | some Q =>
        let length := pointDist cur Q
        if length ≤ extent then
          match halfLoop P inc n Q (extent - length) (inc j) with
          | .error e => .error e
          | .ok l => .ok (Q :: l)
        else
          match stepBack Q cur extent with
          | .error e => .error e
          | .ok C =>
            match halfLoop P inc n C 0 (inc j) with
            | .error e => .error e
            | .ok l => .ok (C :: l)
    else .ok []

/-- `polygon_subsequence_half`: `find_subsequence.hpp:112-139`. For the empty polygon the incrementer divides by
zero. -/
noncomputable def subsequenceHalf (fuel : Nat) (P : List (P2 ℝ)) (inc : Nat → Nat → Nat) (p : P2 ℝ) (extent : ℝ)
    (startIndex : Nat) : Res (List (P2 ℝ)) :=
  if P.length = 0 then .error .divByZero
  else
    match halfLoop P (inc P.length) fuel p extent (inc P.length startIndex) with
    | .error e => .error e
    | .ok l => .ok (p :: l)

/-- `polygon_subsequence`: `find_subsequence.hpp:143-154`. The start index is the largest number only for the empty
polygon; there the incrementer divides by zero. -/
noncomputable def polygonSubsequence (fuel : Nat) (cmp : Cmp ℝ) (P : List (P2 ℝ)) (p : P2 ℝ) (extent : ℝ) :
    Res (List (P2 ℝ)) :=
  match findContainingOrClosest cmp P p with
  | .error e => .error e
  | .ok none => .error .divByZero
  | .ok (some startIndex) =>
    match subsequenceHalf fuel P incCw p extent (startIndex + 1) with
    | .error e => .error e
    | .ok result1 =>
      match subsequenceHalf fuel P incCcw p extent startIndex with
      | .error e => .error e
      | .ok result2 => .ok (result1.reverse.take (result1.length - 1) ++ result2.drop 1)

end Geometrix
