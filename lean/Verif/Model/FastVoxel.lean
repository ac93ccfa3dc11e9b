import Verif.Model.Grid
import Verif.Model.CohenSutherland

/-!
# Fast voxel traversal of a grid

`geometrix/algorithm/fast_voxel_grid_traversal.hpp`. The visitor calls are listed in order. The two
functions of the file differ only in that `stoppable_fast_voxel_grid_traversal` returns when the visitor
returns false; here there is one function with a parameter for the answers of the visitor, and
`fast_voxel_grid_traversal` is the case in which the answer is always true.
-/

set_option linter.unusedSectionVars false

namespace Geometrix

variable {K : Type*} [Field K] [LinearOrder K] [IsStrictOrderedRing K] [FloorSemiring K]

/-- `i += step` for a `boost::uint32_t` and a `boost::int32_t`. -/
def stepU32 (i : Nat) (step : Int) : Nat := (((i : Int) + step) % 2 ^ 32).toNat

/-- The loops of the vertical and horizontal strips:
`geometrix/algorithm/fast_voxel_grid_traversal.hpp:76-83,90-97` and `:221-229,236-244`. -/
def voxelStrip (visit : Nat → Bool) : Nat → Nat → Nat → Res (List Nat)
  | 0, _, _ => .error .diverges
  | fuel + 1, j, jEnd =>
    if j ≠ jEnd then
      let j := if j < jEnd then j + 1 else j - 1
      if !visit j then .ok [j]
      else match voxelStrip visit fuel j jEnd with
        | .error e => .error e
        | .ok rest => .ok (j :: rest)
    else .ok []

/-- The loop of the sloped case: `fast_voxel_grid_traversal.hpp:145-166` and `:292-314`. `outI` and
`outJ` are the values converted to unsigned. -/
def voxelLoop (visit : Nat × Nat → Bool) (stepI stepJ : Int) (outI outJ iEnd jEnd : Nat)
    (tdeltaX tdeltaY : K) : Nat → Nat → Nat → K → K → Res (List (Nat × Nat))
  | 0, _, _, _, _ => .error .diverges
  | fuel + 1, i, j, tmaxX, tmaxY =>
    if tmaxX < tmaxY then
      let i := stepU32 i stepI
      if i = outI then .ok []
      else
        let tmaxX := tmaxX + tdeltaX
        if (stepI > 0 ∧ i > iEnd) ∨ (stepI < 0 ∧ i < iEnd) ∨ (stepJ > 0 ∧ j > jEnd) ∨
            (stepJ < 0 ∧ j < jEnd) then .ok []
        else if !visit (i, j) then .ok [(i, j)]
        else match voxelLoop visit stepI stepJ outI outJ iEnd jEnd tdeltaX tdeltaY fuel i j tmaxX
            tmaxY with
          | .error e => .error e
          | .ok rest => .ok ((i, j) :: rest)
    else
      let j := stepU32 j stepJ
      if j = outJ then .ok []
      else
        let tmaxY := tmaxY + tdeltaY
        if (stepI > 0 ∧ i > iEnd) ∨ (stepI < 0 ∧ i < iEnd) ∨ (stepJ > 0 ∧ j > jEnd) ∨
            (stepJ < 0 ∧ j < jEnd) then .ok []
        else if !visit (i, j) then .ok [(i, j)]
        else match voxelLoop visit stepI stepJ outI outJ iEnd jEnd tdeltaX tdeltaY fuel i j tmaxX
            tmaxY with
          | .error e => .error e
          | .ok rest => .ok ((i, j) :: rest)

/-- The sloped case after the first visit: `fast_voxel_grid_traversal.hpp:101-166` and `:248-314`. -/
def voxelSloped (cmp : Cmp K) (visit : Nat × Nat → Bool) (fuel : Nat) (g : GridTraits K) (s : Seg K)
    (i j iEnd jEnd : Nat) : Res (List (Nat × Nat)) :=
  let direction := s.e - s.s
  let (stepI, outI, borderX) : Int × Nat × K :=
    if cmp.gt direction.x 0 then (1, g.width, g.xmin + ((addU32 i 1 : Nat) : K) * g.cellWidth)
    else (-1, 2 ^ 32 - 1, g.xmin + (i : K) * g.cellWidth)
  let (stepJ, outJ, borderY) : Int × Nat × K :=
    if cmp.gt direction.y 0 then (1, g.height, g.ymin + ((addU32 j 1 : Nat) : K) * g.cellWidth)
    else (-1, 2 ^ 32 - 1, g.ymin + (j : K) * g.cellWidth)
  if ¬ direction.x ≠ 0 then .error .assertFailed
  else if ¬ direction.y ≠ 0 then .error .assertFailed
  else match cdiv 1 direction.x with
    | .error e => .error e
    | .ok rxr =>
    match cdiv 1 direction.y with
    | .error e => .error e
    | .ok ryr =>
      voxelLoop visit stepI stepJ outI outJ iEnd jEnd (g.cellWidth * (stepI : K) * rxr)
        (g.cellWidth * (stepJ : K) * ryr) fuel i j ((borderX - s.s.x) * rxr) ((borderY - s.s.y) * ryr)

/-- The traversal between the ends `q0` and `q1` that remain after clipping:
`fast_voxel_grid_traversal.hpp:57-166` and `:201-314`. -/
def voxelClipped (cmp : Cmp K) (visit : Nat × Nat → Bool) (fuel : Nat) (g : GridTraits K) (s : Seg K)
    (q0 q1 : P2 K) : Res (List (Nat × Nat)) :=
  match toU32 (g.scaledX q0.x), toU32 (g.scaledY q0.y), toU32 (g.scaledX q1.x),
      toU32 (g.scaledY q1.y) with
  | .ok i, .ok j, .ok iEnd, .ok jEnd =>
    if !visit (i, j) then .ok [(i, j)]
    else if i = iEnd then
      if j = jEnd then .ok [(i, j)]
      else match voxelStrip (fun v => visit (i, v)) fuel j jEnd with
        | .error e => .error e
        | .ok rest => .ok ((i, j) :: rest.map fun v => (i, v))
    else if j = jEnd then
      match voxelStrip (fun v => visit (v, j)) fuel i iEnd with
      | .error e => .error e
      | .ok rest => .ok ((i, j) :: rest.map fun v => (v, j))
    else match voxelSloped cmp visit fuel g s i j iEnd jEnd with
      | .error e => .error e
      | .ok rest => .ok ((i, j) :: rest)
  | _, _, _, _ => .error .overflow

/-- `fast_voxel_grid_traversal` and `stoppable_fast_voxel_grid_traversal`:
`fast_voxel_grid_traversal.hpp:24-167,169-315`. `visit` gives the answers of the visitor. -/
def fastVoxel (cmp : Cmp K) (visit : Nat × Nat → Bool) (fuel : Nat) (g : GridTraits K) (s : Seg K) :
    Res (List (Nat × Nat)) :=
  let b : Box K := ⟨⟨g.xmin, g.ymin⟩, ⟨g.xmax, g.ymax⟩⟩
  if s.s.x < b.lo.x ∨ s.s.x > b.hi.x ∨ s.s.y < b.lo.y ∨ s.s.y > b.hi.y ∨
      s.e.x < b.lo.x ∨ s.e.x > b.hi.x ∨ s.e.y < b.lo.y ∨ s.e.y > b.hi.y then
    match cohenSutherland cmp b s.s s.e with
    | .error e => .error e
    | .ok (false, _, _) => .ok []
    | .ok (true, q0, q1) => voxelClipped cmp visit fuel g s q0 q1
  else voxelClipped cmp visit fuel g s s.s s.e

end Geometrix
