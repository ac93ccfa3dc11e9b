import Verif.Model.Line

/-!
# Line simplification
-/

set_option linter.unusedSectionVars false

namespace Geometrix

/-- The loop that finds the farthest point:
`geometrix/algorithm/point_sequence/ramer_douglas_peucker_algorithm.hpp:39-47`. -/
noncomputable def rdpScan (poly : List (P2 ℝ)) (l : Line2) : List Nat → Nat × ℝ → Res (Nat × ℝ)
  | [], s => .ok s
  | i :: is, s =>
    match poly[i]? with
    | none => .error .outOfRange
    | some p =>
      rdpScan poly l is (if pointLineDist p l > s.2 then (i, pointLineDist p l) else s)

/-- Lines 34-48 of `ramer_douglas_peucker_algorithm.hpp`: `index` and `dmax`. -/
noncomputable def rdpFar (poly : List (P2 ℝ)) (start stop : Nat) : Res (Nat × ℝ) :=
  if start + 2 < stop then
    match poly[start]?, poly[stop - 1]? with
    | some a, some b =>
      match makeLine a b with
      | .error e => .error e
      | .ok l => rdpScan poly l (List.range' (start + 1) (stop - start - 2)) (0, 0)
    | _, _ => .error .outOfRange
  else .ok (0, 0)

/-- `detail::ramer_douglas_peucker_algorithm`: `ramer_douglas_peucker_algorithm.hpp:24-63`. The result
is what the call appends to `nPoly`. `checked` says whether the assertion of line 59 is compiled in
(it is not when `NDEBUG` is defined). The first argument bounds the depth of the recursion. -/
noncomputable def rdp (checked : Bool) (poly : List (P2 ℝ)) (epsilon : ℝ) :
    Nat → Nat → Nat → Res (List (P2 ℝ))
  | 0, _, _ => .error .diverges
  | fuel + 1, start, stop =>
    match rdpFar poly start stop with
    | .error e => .error e
    | .ok (index, dmax) =>
      if dmax > epsilon then
        match rdp checked poly epsilon fuel start index with
        | .error e => .error e
        | .ok left =>
          match rdp checked poly epsilon fuel index stop with
          | .error e => .error e
          | .ok right => .ok (left.dropLast ++ right)
      else if checked && start + 1 == stop then .error .assertFailed
      else
        match poly[start]?, poly[stop - 1]? with
        | some a, some b => .ok [a, b]
        | _, _ => .error .outOfRange

/-- `ramer_douglas_peucker_algorithm`: `ramer_douglas_peucker_algorithm.hpp:66-73`. -/
noncomputable def ramerDouglasPeucker (checked : Bool) (poly : List (P2 ℝ)) (epsilon : ℝ) :
    Res (List (P2 ℝ)) :=
  rdp checked poly epsilon (poly.length + 1) 0 poly.length

end Geometrix
