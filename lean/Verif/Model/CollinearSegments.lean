import Verif.Model.Orientation

/-!
# Sets of collinear segments

`geometrix/utility/utilities.hpp:559-755`. A `std::set` of segments with `segment_interval_compare` is the
list of its elements in order.
-/

set_option linter.unusedSectionVars false

namespace Geometrix

variable {K : Type*} [Field K] [LinearOrder K]

/-- `std::set::insert` with a comparison `lt`: an element that is equivalent to one of the set is not
inserted. Not part of Geometrix; used at `utilities.hpp:669,754`. -/
def setInsert {α : Type*} (lt : α → α → Bool) : List α → α → List α
  | [], x => [x]
  | e :: r, x => if lt e x then e :: setInsert lt r x else if lt x e then x :: e :: r else e :: r

/-- The part of the set before `equal_range( x )`. Used at `utilities.hpp:574,683`. -/
def rangeBefore {α : Type*} (lt : α → α → Bool) (S : List α) (x : α) : List α := S.takeWhile (lt · x)

/-- The elements of `equal_range( x )`, used at `utilities.hpp:574,683`: from the first that is not less than
`x` to before the first that is greater. -/
def rangeEqual {α : Type*} (lt : α → α → Bool) (S : List α) (x : α) : List α :=
  (S.dropWhile (lt · x)).takeWhile (fun e => !lt x e)

/-- The part of the set after `equal_range( x )`. Used at `utilities.hpp:574,683`. -/
def rangeAfter {α : Type*} (lt : α → α → Bool) (S : List α) (x : α) : List α :=
  (S.dropWhile (lt · x)).dropWhile (fun e => !lt x e)

/-- The body of the loop of `collinear_segment_difference` for the element `s` of the set:
`utilities.hpp:577-665`. `none`: the element stays in the set (`++lb`). `some l`: it is erased and the segments
`l` are added to `toInsert`. -/
def differenceStep (cmp : Cmp K) (C D : P2 K) (s : Seg K) : Res (Option (List (Seg K))) :=
  let A := s.s
  let B := s.e
  if !(isCollinear cmp C D A && isCollinear cmp C D B) then .error .assertFailed
  else
    let CAD := isBetween cmp C D A true
    let CBD := isBetween cmp C D B true
    if CAD && CBD then .ok (some [])
    else
      let aEqC := seqEquals cmp A C
      let aEqD := seqEquals cmp A D
      let bEqC := seqEquals cmp B C
      let bEqD := seqEquals cmp B D
      let ACB := isBetween cmp A B C true
      let ADB := isBetween cmp A B D true
      if ACB && ADB then
        if isBetween cmp C B D true && !bEqC then
          .ok (some ((if !aEqC then [⟨A, C⟩] else []) ++ (if !bEqD then [⟨D, B⟩] else [])))
        else if isBetween cmp A C D true && !aEqC then
          .ok (some ((if !aEqD then [⟨A, D⟩] else []) ++ (if !bEqC then [⟨C, B⟩] else [])))
        else .error .assertFailed
      else if CAD && !(aEqC || aEqD) then
        if ADB && !bEqD then .ok (some [⟨D, B⟩])
        else if ACB && !bEqC then .ok (some [⟨C, B⟩])
        else .ok none
      else if CBD && !(bEqC || bEqD) then
        if ADB && !aEqD then .ok (some [⟨A, D⟩])
        else if ACB && !aEqC then .ok (some [⟨A, C⟩])
        else .ok none
      else .ok none

/-- The loop of `collinear_segment_difference` over the equal range: `utilities.hpp:576-667`. The elements that
stay, and `toInsert`. -/
def differenceLoop (cmp : Cmp K) (C D : P2 K) : List (Seg K) → Res (List (Seg K) × List (Seg K))
  | [] => .ok ([], [])
  | s :: rest =>
    match differenceStep cmp C D s with
    | .error e => .error e
    | .ok r =>
      match differenceLoop cmp C D rest with
      | .error e => .error e
      | .ok (kept, ins) =>
        match r with
        | none => .ok (s :: kept, ins)
        | some l => .ok (kept, l ++ ins)

/-- `collinear_segment_difference`: `utilities.hpp:559-670`. The new set. -/
def collinearSegmentDifference (cmp : Cmp K) (S : List (Seg K)) (seg : Seg K) : Res (List (Seg K)) :=
  if seqEquals cmp seg.s seg.e then .ok S
  else
    let lt := segmentIntervalCompare cmp
    match differenceLoop cmp seg.s seg.e (rangeEqual lt S seg) with
    | .error e => .error e
    | .ok (kept, ins) => .ok (ins.foldl (setInsert lt) (rangeBefore lt S seg ++ kept ++ rangeAfter lt S seg))

/-- The body of the loop of `collinear_segment_union` for the element `s` of the set and the union `u` so far:
`utilities.hpp:689-751`. `none`: the element stays in the set. `some u'`: it is erased and `u'` is the new
union. -/
def unionStep (cmp : Cmp K) (u s : Seg K) : Res (Option (Seg K)) :=
  let A := s.s
  let B := s.e
  let C := u.s
  let D := u.e
  if !(isCollinear cmp C D A && isCollinear cmp C D B) then .error .assertFailed
  else
    let CAD := isBetween cmp C D A true
    let CBD := isBetween cmp C D B true
    if CAD && CBD then .ok (some u)
    else
      let ACB := isBetween cmp A B C true
      let ADB := isBetween cmp A B D true
      if ACB && ADB then .ok (some ⟨A, B⟩)
      else if CAD then
        if ADB then .ok (some ⟨C, B⟩)
        else if ACB then .ok (some ⟨D, B⟩)
        else .ok none
      else if CBD then
        if ADB then .ok (some ⟨A, C⟩)
        else if ACB then .ok (some ⟨A, D⟩)
        else .ok none
      else .ok none

/-- The loop of `collinear_segment_union`: `utilities.hpp:687-752`. The elements that stay and the union. -/
def unionLoop (cmp : Cmp K) : Seg K → List (Seg K) → Res (List (Seg K) × Seg K)
  | u, [] => .ok ([], u)
  | u, s :: rest =>
    match unionStep cmp u s with
    | .error e => .error e
    | .ok none =>
      match unionLoop cmp u rest with
      | .error e => .error e
      | .ok (kept, w) => .ok (s :: kept, w)
    | .ok (some u') => unionLoop cmp u' rest

/-- `collinear_segment_union`: `utilities.hpp:672-755`. The new set. -/
def collinearSegmentUnion (cmp : Cmp K) (S : List (Seg K)) (seg : Seg K) : Res (List (Seg K)) :=
  let lt := segmentIntervalCompare cmp
  match unionLoop cmp seg (rangeEqual lt S seg) with
  | .error e => .error e
  | .ok (kept, u) => .ok (setInsert lt (rangeBefore lt S seg ++ kept ++ rangeAfter lt S seg) u)

end Geometrix
