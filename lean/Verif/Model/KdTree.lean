import Verif.Model.Policy
import Mathlib.Data.Fin.VecNotation
import Mathlib.Data.List.FinRange

/-!
# The kd-tree

`geometrix/algorithm/kd_tree.hpp` and `geometrix/algorithm/median_partitioning_strategy.hpp`.

Points have `d + 1` coordinates; the code supports two and three (`make_aabb` exists for those).
-/

set_option linter.unusedSectionVars false

namespace Geometrix

variable {K : Type*} [Field K] [LinearOrder K]

/-- A point with `d` coordinates. -/
abbrev PN (d : Nat) (K : Type*) := Fin d → K

/-- `axis_aligned_bounding_box` in `d` dimensions:
`geometrix/primitive/axis_aligned_bounding_box.hpp:198-320`. -/
structure BoxN (d : Nat) (K : Type*) where
  lo : PN d K
  hi : PN d K

/-- `dimension_processor::compare` for a point: `axis_aligned_bounding_box.hpp:64-93`. The code goes
through the dimensions from the last to the first and stops at the first that fails; the tests have no
effects, so the result is that of testing all of them. -/
def BoxN.intersectsPoint {d : Nat} (cmp : Cmp K) (b : BoxN d K) (p : PN d K) : Bool :=
  (List.finRange d).all fun i => !(cmp.lt (p i) (b.lo i) || cmp.gt (p i) (b.hi i))

/-- `dimension_processor::compare` for a box and `intersects`:
`axis_aligned_bounding_box.hpp:74-100,242-253`. -/
def BoxN.intersectsBox {d : Nat} (cmp : Cmp K) (a b : BoxN d K) : Bool :=
  (List.finRange d).all fun i => !(cmp.lt (a.hi i) (b.lo i) || cmp.gt (a.lo i) (b.hi i))

/-- `contains`: `axis_aligned_bounding_box.hpp:255-271`. -/
def BoxN.contains {d : Nat} (cmp : Cmp K) (a range : BoxN d K) : Bool :=
  let upper := a.intersectsPoint cmp range.hi
  let lower := a.intersectsPoint cmp range.lo
  upper && lower

/-- One step of `get_bounds`: `geometrix/primitive/point_sequence_utilities.hpp:227-241,258-278`.
`none` stands for the initial bounds, plus and minus infinity. -/
def boundsStepN {d : Nat} (cmp : Cmp K) (b : Option (BoxN d K)) (p : PN d K) : Option (BoxN d K) :=
  match b with
  | none => some ⟨p, p⟩
  | some b => some
    ⟨fun i => if cmp.lt (p i) (b.lo i) then p i else b.lo i,
     fun i => if cmp.gt (p i) (b.hi i) then p i else b.hi i⟩

/-- `make_aabb` of a point sequence: `axis_aligned_bounding_box.hpp:331-386`. `none` is the inverted
infinite box of an empty sequence. -/
def getBoundsN {d : Nat} (cmp : Cmp K) (pts : List (PN d K)) : Option (BoxN d K) :=
  pts.foldl (boundsStepN cmp) none

/-- `detail::lexicographical::compare`: `geometrix/utility/utilities.hpp:372-396`, for the
coordinates in `dims`. -/
def lexN {d : Nat} (cmp : Cmp K) (p q : PN d K) : List (Fin d) → Bool
  | [] => false
  | i :: dims =>
    if cmp.lt (p i) (q i) then true
    else if cmp.equals (p i) (q i) then lexN cmp p q dims
    else false

/-- `dimension_compare::operator()`: `utilities.hpp:807-832`. -/
def dimensionCompareN {d : Nat} (cmp : Cmp K) (dim : Fin d) (p q : PN d K) : Bool :=
  if cmp.lt (p dim) (q dim) then true
  else if cmp.equals (p dim) (q dim) then lexN cmp p q (List.finRange d)
  else false

/-- The loop of `median_partitioning_strategy::partition`:
`geometrix/algorithm/median_partitioning_strategy.hpp:39-46`. `median` is the point at `medianIndex`
and the list holds the points after it. -/
def medianScan {α : Type*} (less : α → α → Bool) (median : α) : List α → Nat → Nat
  | [], medianIndex => medianIndex
  | next :: rest, medianIndex =>
    if !less median next then medianScan less next rest (medianIndex + 1)
    else medianIndex

/-- `median_partitioning_strategy::partition`: `median_partitioning_strategy.hpp:25-49`. `nth dim n l`
is what `std::nth_element` makes of `l` for position `n` and the comparison of dimension `dim`. The
iterator increment past the end of an empty sequence is undefined behaviour (`outOfRange`). The result
is the rearranged sequence and the median index. -/
def medianPartition {d : Nat} (cmp : Cmp K) (nth : Fin d → Nat → List (PN d K) → List (PN d K))
    (dim : Fin d) (l : List (PN d K)) : Res (List (PN d K) × Nat) :=
  let medianIndex := l.length / 2
  let l := nth dim medianIndex l
  match l.drop medianIndex with
  | [] => .error .outOfRange
  | median :: rest => .ok (l, medianScan (dimensionCompareN cmp dim) median rest medianIndex)

/-- `kd_tree`: the members at `geometrix/algorithm/kd_tree.hpp:203-210`. `null` is an empty child
pointer, `leaf` a tree whose `m_pLeaf` is set. -/
inductive KdTree (d : Nat) (K : Type*) where
  | null : KdTree d K
  | leaf (region : BoxN d K) (p : PN d K) : KdTree d K
  | node (region : BoxN d K) (median : K) (left right : KdTree d K) : KdTree d K

/-- `m_region` of the tree a pointer points to. -/
def KdTree.region {d : Nat} : KdTree d K → Option (BoxN d K)
  | .null => none
  | .leaf b _ => some b
  | .node b _ _ _ => some b

/-- `kd_tree_builder::build_tree`: `kd_tree.hpp:91-124`; `build` (`:127-158`) is the same with
dimension 0. Recursion of the code without end would be `diverges`. -/
def kdBuild {d : Nat} (cmp : Cmp K)
    (nth : Fin (d + 1) → Nat → List (PN (d + 1) K) → List (PN (d + 1) K)) :
    Nat → BoxN (d + 1) K → Fin (d + 1) → List (PN (d + 1) K) → Res (KdTree (d + 1) K)
  | 0, _, _, _ => .error .diverges
  | fuel + 1, region, dim, l =>
    match l with
    | [p] => .ok (.leaf region p)
    | l => do
      let (l, medianIndex) ← medianPartition cmp nth dim l
      match l[medianIndex]? with
      | none => .error .outOfRange
      | some mp =>
        let median := mp dim
        let left := l.take medianIndex
        let right := l.drop medianIndex
        let pLeft ← if left.isEmpty then .ok .null
          else kdBuild cmp nth fuel ⟨region.lo, Function.update region.hi dim median⟩ (dim + 1) left
        let pRight ← if right.isEmpty then .ok .null
          else kdBuild cmp nth fuel ⟨Function.update region.lo dim median, region.hi⟩ (dim + 1) right
        .ok (.node region median pLeft pRight)

/-- The constructor: `kd_tree.hpp:58-63`. The bounds are computed with the direct policy (the
`make_aabb` overload without a policy). -/
def kdTree {d : Nat} (cmp : Cmp K)
    (nth : Fin (d + 1) → Nat → List (PN (d + 1) K) → List (PN (d + 1) K))
    (pts : List (PN (d + 1) K)) : Res (KdTree (d + 1) K) :=
  match getBoundsN Cmp.direct pts with
  | none => .error .outOfRange
  | some region => kdBuild cmp nth pts.length region 0 pts

/-- `traverse_subtrees`: `kd_tree.hpp:188-201`. The points are listed in the order in which the visitor
sees them. -/
def KdTree.traverse {d : Nat} : KdTree d K → List (PN d K)
  | .null => []
  | .leaf _ p => [p]
  | .node _ _ l r => l.traverse ++ r.traverse

/-- `search`: `kd_tree.hpp:65-72,160-186`. The points are listed in the order in which the visitor sees
them. -/
def KdTree.search {d : Nat} (cmp : Cmp K) (range : BoxN d K) : KdTree d K → List (PN d K)
  | .null => []
  | .leaf _ p => [p]
  | .node _ _ l r =>
    (match l.region with
      | none => []
      | some b =>
        if range.contains cmp b then l.traverse
        else if range.intersectsBox cmp b then l.search cmp range
        else []) ++
    (match r.region with
      | none => []
      | some b =>
        if range.contains cmp b then r.traverse
        else if range.intersectsBox cmp b then r.search cmp range
        else [])

end Geometrix
