import Verif.Model.MovingSphere
import Verif.Model.RayIntersection
import Verif.Model.Distance
import Verif.Model.Line

/-!
# Solid leaf binary space partition trees

`geometrix/algorithm/solid_leaf_bsp_tree.hpp` for segments of the plane, with
`geometrix/algorithm/classify_simplex_to_plane.hpp` and
`geometrix/algorithm/hyperplane_partition_policies.hpp`.
-/

set_option linter.unusedSectionVars false

namespace Geometrix

/-- A hyperplane of the plane: the normal vector and the distance to the origin of a line,
`geometrix/primitive/hyperplane_traits.hpp:26-41`. -/
structure Plane2 (K : Type*) where
  n : P2 K
  d : K
  deriving DecidableEq

/-- `make_hyperplane` of a segment: `geometrix/primitive/hyperplane_traits.hpp:72-77`. -/
noncomputable def makeHyperplane (a b : P2 ℝ) : Res (Plane2 ℝ) :=
  match makeLine a b with
  | .error e => .error e
  | .ok l => .ok ⟨l.n, l.d⟩

/-- `plane_orientation`: `classify_simplex_to_plane.hpp:17-23`. -/
inductive PlaneSide where
  | coplanar
  | front
  | back
  | straddling
  deriving DecidableEq

/-- `point_in_solid_classification`: `point_in_solid_classification.hpp:14-19`. -/
inductive SolidClass where
  | inSolid
  | onBoundary
  | inEmpty
  deriving DecidableEq

variable {K : Type*} [Field K] [LinearOrder K]

/-- The signed distance of a point from a hyperplane: `classify_simplex_to_plane.hpp:32`. -/
def planeDist (pl : Plane2 K) (p : P2 K) : K := dot p pl.n - pl.d

/-- `classify_point_to_plane`: `classify_simplex_to_plane.hpp:26-43`. -/
def classifyPoint (cmp : Cmp K) (p : P2 K) (pl : Plane2 K) : PlaneSide :=
  let dist := planeDist pl p
  if cmp.gt dist 0 then .front
  else if cmp.lt dist 0 then .back
  else .coplanar

/-- `classify_simplex_to_plane`: `classify_simplex_to_plane.hpp:47-83`. The simplex is the list of its
vertices. -/
def classifySimplex (cmp : Cmp K) (vs : List (P2 K)) (pl : Plane2 K) : PlaneSide :=
  let numInFront := vs.countP (fun p => decide (classifyPoint cmp p pl = .front))
  let numBehind := vs.countP (fun p => decide (classifyPoint cmp p pl = .back))
  if numBehind ≠ 0 ∧ numInFront ≠ 0 then .straddling
  else if numInFront ≠ 0 then .front
  else if numBehind ≠ 0 then .back
  else .coplanar

/-- The point at which `split_simplex` cuts the segment, with the two assertions about it:
`solid_leaf_bsp_tree.hpp:91-96` and `110-115`. -/
def splitPoint (cmp : Cmp K) (a b : P2 K) (pl : Plane2 K) : Res (P2 K) :=
  match segPlane b a pl.n pl.d with
  | .error e => .error e
  | .ok none => .error .assertFailed
  | .ok (some (_, x)) => if classifyPoint cmp x pl = .coplanar then .ok x else .error .assertFailed

/-- `bsp_detail::split_simplex` for segments: `solid_leaf_bsp_tree.hpp:73-134`. The part in front and
the part behind. -/
def splitSimplex (cmp : Cmp K) (a b : P2 K) (pl : Plane2 K) : Res ((P2 K × P2 K) × (P2 K × P2 K)) :=
  match classifyPoint cmp a pl, classifyPoint cmp b pl with
  | .front, .back =>
    match splitPoint cmp a b pl with
    | .error e => .error e
    | .ok x => .ok ((a, x), (x, b))
  | .back, .front =>
    match splitPoint cmp a b pl with
    | .error e => .error e
    | .ok x => .ok ((x, b), (a, x))
  | _, _ => .error .assertFailed

/-- An element of the lists which `build_tree` works on: a segment of `simplices`, its bit in
`usedBits`, its number in `sIndices`, and the hyperplane `m_planes[sIndices[i]]` of that number:
`solid_leaf_bsp_tree.hpp:407`. Simplification: the four containers, which always have the same length,
are one list. -/
structure BspItem (K : Type*) where
  a : P2 K
  b : P2 K
  used : Bool
  idx : Nat
  plane : Plane2 K
  deriving DecidableEq

/-- The body of the loop over the simplices: `solid_leaf_bsp_tree.hpp:445-494`. What is added to the
front, to the back, and to `coplanarIndices`. -/
def sendItem (cmp : Cmp K) (pl : Plane2 K) (it : BspItem K) :
    Res (List (BspItem K) × List (BspItem K) × List Nat) :=
  match classifySimplex cmp [it.a, it.b] pl with
  | .coplanar =>
    let dp := dot it.plane.n pl.n
    if cmp.equals dp 1 || cmp.equals dp (-1) then
      if dp < 0 then .ok ([], [it], [it.idx]) else .ok ([it], [], [it.idx])
    else .error .assertFailed
  | .front => .ok ([it], [], [])
  | .back => .ok ([], [it], [])
  | .straddling =>
    match splitSimplex cmp it.a it.b pl with
    | .error e => .error e
    | .ok (f, b) => .ok ([{ it with a := f.1, b := f.2 }], [{ it with a := b.1, b := b.2 }], [])

/-- The loop over the simplices: `solid_leaf_bsp_tree.hpp:445-494`. -/
def sendItems (cmp : Cmp K) (pl : Plane2 K) :
    List (BspItem K) → Res (List (BspItem K) × List (BspItem K) × List Nat)
  | [] => .ok ([], [], [])
  | it :: rest =>
    match sendItem cmp pl it with
    | .error e => .error e
    | .ok x =>
      match sendItems cmp pl rest with
      | .error e => .error e
      | .ok y => .ok (x.1 ++ y.1, x.2.1 ++ y.2.1, x.2.2 ++ y.2.2)

/-- A tree. The arrays `m_front`, `m_back`, `m_node_planes`, `m_in_solid` and `m_indices`
(`solid_leaf_bsp_tree.hpp:722-726`) hold the nodes of a tree; a leaf is a node without children
(line 717). A node holds the hyperplane `m_planes[m_node_planes[node]]` (lines 503-513). -/
inductive SolidTree (K : Type*) where
  | leaf (indices : List Nat) (solid : Bool)
  | node (plane : Plane2 K) (indices : List Nat) (front back : SolidTree K)
  deriving DecidableEq

/-- `autopartition_policy`: `hyperplane_partition_policies.hpp:37-55`. The position of the selected
element. The bit which the policy sets is set by `buildSolid`. -/
def autoSelect (items : List (BspItem K)) : Option Nat := items.findIdx? (fun it => !it.used)

/-- The score of the element `i`: `hyperplane_partition_policies.hpp:115-143`. The hyperplane of a part
of a segment is the hyperplane of the segment, there is no rounding. -/
def bspScore (cmp : Cmp K) (items : List (BspItem K)) (i : Nat) (it : BspItem K) : K :=
  let others := items.eraseIdx i
  let side := fun (o : BspItem K) => classifySimplex cmp [o.a, o.b] it.plane
  let numInFront := others.countP (fun o => decide (side o = .coplanar ∨ side o = .front))
  let numBehind := others.countP (fun o => decide (side o = .back))
  let numStraddling := others.countP (fun o => decide (side o = .straddling))
  4 / 5 * (numStraddling : K) + 1 / 5 * |(numInFront : K) - numBehind|

/-- The loop of `scored_selector_policy`: `hyperplane_partition_policies.hpp:110-151`, over the elements
from the position `i` on. `best` is the position of the best score so far and the score. -/
def scoredLoop (cmp : Cmp K) (items : List (BspItem K)) :
    List (BspItem K) → Nat → Option (Nat × K) → Option (Nat × K)
  | [], _, best => best
  | it :: rest, i, best =>
    if it.used then scoredLoop cmp items rest (i + 1) best
    else
      let score := bspScore cmp items i it
      match best with
      | none => scoredLoop cmp items rest (i + 1) (some (i, score))
      | some b =>
        scoredLoop cmp items rest (i + 1) (if score < b.2 then some (i, score) else some b)

/-- `scored_selector_policy`: `hyperplane_partition_policies.hpp:95-156`. -/
def scoredSelect (cmp : Cmp K) (items : List (BspItem K)) : Option Nat :=
  (scoredLoop cmp items items 0 none).map (·.1)

/-- `usedBits.set(i)`: `hyperplane_partition_policies.hpp:46` and `152`. -/
def markUsed (items : List (BspItem K)) (i : Nat) : List (BspItem K) :=
  items.modify i (fun it => { it with used := true })

/-- `build_tree`: `solid_leaf_bsp_tree.hpp:406-501`. `back` says whether the tree is built for the back
of a hyperplane, which is the solid side (lines 256-260). The first argument bounds the depth of the
recursion. -/
def buildSolid (cmp : Cmp K) (sel : List (BspItem K) → Option Nat) :
    Nat → Bool → List (BspItem K) → Res (SolidTree K)
  | 0, _, _ => .error .diverges
  | fuel + 1, back, items =>
    if items.isEmpty then .ok (.leaf [] back)
    else
      match sel items with
      | none => .ok (.leaf (items.map (·.idx)) back)
      | some k =>
        match items[k]? with
        | none => .error .outOfRange
        | some it =>
          match sendItems cmp it.plane (markUsed items k) with
          | .error e => .error e
          | .ok x =>
            match buildSolid cmp sel fuel false x.1 with
            | .error e => .error e
            | .ok f =>
              match buildSolid cmp sel fuel true x.2.1 with
              | .error e => .error e
              | .ok b => .ok (.node it.plane x.2.2 f b)

/-- The loop of the constructor: `solid_leaf_bsp_tree.hpp:292-297`. `mk` is `make_hyperplane`. -/
def makeItems (mk : P2 K → P2 K → Res (Plane2 K)) : List (P2 K × P2 K) → Nat → Res (List (BspItem K))
  | [], _ => .ok []
  | s :: rest, i =>
    match mk s.1 s.2 with
    | .error e => .error e
    | .ok pl =>
      match makeItems mk rest (i + 1) with
      | .error e => .error e
      | .ok r => .ok (⟨s.1, s.2, false, i, pl⟩ :: r)

/-- The constructor of `solid_leaf_bsp_tree`: `solid_leaf_bsp_tree.hpp:289-300`. `mk` is
`make_hyperplane` and `sel` the selector policy. -/
def solidBsp (mk : P2 K → P2 K → Res (Plane2 K)) (cmp : Cmp K) (sel : List (BspItem K) → Option Nat)
    (fuel : Nat) (sides : List (P2 K × P2 K)) : Res (SolidTree K) :=
  match makeItems mk sides 0 with
  | .error e => .error e
  | .ok items => buildSolid cmp sel fuel false items

/-- `point_in_solid_space`: `solid_leaf_bsp_tree.hpp:515-548`. -/
def pointInSolid (cmp : Cmp K) : SolidTree K → P2 K → SolidClass
  | .leaf _ solid, _ => if solid then .inSolid else .inEmpty
  | .node pl _ f b, p =>
    let dist := planeDist pl p
    if cmp.gt dist 0 then pointInSolid cmp f p
    else if cmp.lt dist 0 then pointInSolid cmp b p
    else if pointInSolid cmp f p = pointInSolid cmp b p then pointInSolid cmp f p
    else .onBoundary

/-- `m_indices[node]`: `solid_leaf_bsp_tree.hpp:726`. -/
def SolidTree.indices : SolidTree K → List Nat
  | .leaf is _ => is
  | .node _ is _ _ => is

/-- The number of nodes of a tree, a bound for the iterations of the loops over the nodes. -/
def SolidTree.size : SolidTree K → Nat
  | .leaf _ _ => 1
  | .node _ _ f b => f.size + b.size + 1

/-- `x < minDist2`, where `none` stands for infinity: `solid_leaf_bsp_tree.hpp:577`, `592` and `596`. -/
def belowMin {α : Type*} (x : K) : Option (K × α) → Bool
  | none => true
  | some m => decide (x < m.1)

/-- The loop over the simplices of a node: `solid_leaf_bsp_tree.hpp:574-582`. -/
def closestOf (sides : List (P2 K × P2 K)) (p : P2 K) :
    List Nat → Option (K × Nat) → Res (Option (K × Nat))
  | [], m => .ok m
  | i :: rest, m =>
    match sides[i]? with
    | none => .error .outOfRange
    | some s =>
      match pointSegDistSq p s.1 s.2 with
      | .error e => .error e
      | .ok d2 => closestOf sides p rest (if belowMin d2 m then some (d2, i) else m)

/-- The nodes which are pushed for a node: `solid_leaf_bsp_tree.hpp:584-598`. -/
def pushChildren (cmp : Cmp K) (p : P2 K) (m : Option (K × Nat)) (t : SolidTree K) (stack : List (SolidTree K)) :
    List (SolidTree K) :=
  match t with
  | .leaf _ _ => stack
  | .node pl _ f b =>
    let dist := planeDist pl p
    let inFront := cmp.gt dist 0
    let inBack := !cmp.gt dist 0 && cmp.lt dist 0
    let stack := if belowMin (dist * dist) m || !inFront then b :: stack else stack
    if belowMin (dist * dist) m || !inBack then f :: stack else stack

/-- The loop of `get_min_distance_sqrd_to_solid_impl`: `solid_leaf_bsp_tree.hpp:569-599`. The first
argument bounds the number of iterations. -/
def closestLoopBsp (cmp : Cmp K) (sides : List (P2 K × P2 K)) (p : P2 K) :
    Nat → List (SolidTree K) → Option (K × Nat) → Res (Option (K × Nat))
  | _, [], m => .ok m
  | 0, _ :: _, _ => .error .diverges
  | fuel + 1, t :: stack, m =>
    match closestOf sides p t.indices m with
    | .error e => .error e
    | .ok m' => closestLoopBsp cmp sides p fuel (pushChildren cmp p m' t stack) m'

/-- `get_min_distance_sqrd_to_solid`: `solid_leaf_bsp_tree.hpp:551-602`. The smallest squared distance and
the number written through `closestSimplex`; `none` if the result is infinity and nothing is written. -/
def minDistToSolid (cmp : Cmp K) (sides : List (P2 K × P2 K)) (t : SolidTree K) (p : P2 K) :
    Res (Option (K × Nat)) :=
  closestLoopBsp cmp sides p t.size [t] none

/-- `t <= tmax`, where `none` stands for the largest number: `solid_leaf_bsp_tree.hpp:665`. No
parameter is greater than the largest number. -/
def atMost (t : K) : Option K → Bool
  | none => true
  | some m => decide (t ≤ m)

/-- `t >= tmin`, where `none` stands for the largest number: `solid_leaf_bsp_tree.hpp:667`. -/
def atLeast (t : K) : Option K → Bool
  | none => false
  | some m => decide (m ≤ t)

/-- The insertion of a number into a `std::set` of numbers, in ascending order without repetition. -/
def natInsert (x : Nat) : List Nat → List Nat
  | [] => [x]
  | y :: r => if x < y then x :: y :: r else if x = y then y :: r else y :: natInsert x r

/-- `find_closest_hit`: `solid_leaf_bsp_tree.hpp:620-636`, with `ray_simplex_intersect`
(lines 206-212). `m` is the smallest distance so far and its number, `none` at the start (the largest
number and `undefined_index`). -/
def findClosestHit (cmp : Cmp K) (sides : List (P2 K × P2 K)) (p d : P2 K) :
    List Nat → Option (K × Nat) → Res (Option Nat)
  | [], m => .ok (m.map (·.2))
  | i :: rest, m =>
    match sides[i]? with
    | none => .error .outOfRange
    | some s =>
      match raySegment cmp p d s.1 s.2 with
      | .error e => .error e
      | .ok ⟨.nonCrossing, _, _⟩ => findClosestHit cmp sides p d rest m
      | .ok ⟨_, none, _⟩ => .error .nan
      | .ok ⟨_, some t, _⟩ => findClosestHit cmp sides p d rest (if belowMin t m then some (t, i) else m)

/-- `solid_bsp_ray_tracing_result` of a hit: the distance (`none` for the largest number) and the number of
the simplex (`none` for `undefined_index`): `solid_leaf_bsp_tree.hpp:32-68`. -/
structure BspHit (K : Type*) where
  t : Option K
  data : Option Nat
  deriving DecidableEq

/-- The return of a hit in a solid leaf: `solid_leaf_bsp_tree.hpp:690-697`. -/
def bspHit (cmp : Cmp K) (sides : List (P2 K × P2 K)) (p d : P2 K) (onlyBorder : Bool) (tmin tmax : Option K)
    (minIdx maxIdx : List Nat) : Res (Option (BspHit K)) :=
  if !minIdx.isEmpty || !onlyBorder then
    match findClosestHit cmp sides p d minIdx none with
    | .error e => .error e
    | .ok i => .ok (some ⟨tmin, i⟩)
  else
    match findClosestHit cmp sides p d maxIdx none with
    | .error e => .error e
    | .ok i => .ok (some ⟨tmax, i⟩)

/-- The loop of `ray_intersection_impl`: `solid_leaf_bsp_tree.hpp:652-711`. The first argument bounds
the number of iterations. A set is empty after it has been moved (lines 671 and 704). -/
def bspRayLoop (cmp : Cmp K) (sides : List (P2 K × P2 K)) (p d : P2 K) (onlyBorder : Bool) :
    Nat → SolidTree K → Option K → Option K → List Nat → List Nat → List (SolidTree K × Option K × List Nat) →
    Res (Option (BspHit K))
  | 0, _, _, _, _, _, _ => .error .diverges
  | fuel + 1, .node pl is f b, tmin, tmax, minIdx, maxIdx, stack =>
    let denom := dot d pl.n
    let dist := pl.d - dot p pl.n
    let nearIndex := decide (dist > 0)
    let nearNode := if nearIndex then b else f
    let farNode := if nearIndex then f else b
    if denom ≠ 0 then
      match cdiv dist denom with
      | .error e => .error e
      | .ok t =>
        if decide (0 ≤ t) && atMost t tmax then
          if atLeast t tmin then
            bspRayLoop cmp sides p d onlyBorder fuel nearNode tmin (some t) minIdx (is.foldr natInsert [])
              ((farNode, tmax, maxIdx) :: stack)
          else bspRayLoop cmp sides p d onlyBorder fuel farNode tmin tmax minIdx maxIdx stack
        else bspRayLoop cmp sides p d onlyBorder fuel nearNode tmin tmax minIdx maxIdx stack
    else bspRayLoop cmp sides p d onlyBorder fuel nearNode tmin tmax minIdx maxIdx stack
  | fuel + 1, .leaf _ solid, tmin, tmax, minIdx, maxIdx, stack =>
    if solid then bspHit cmp sides p d onlyBorder tmin tmax minIdx maxIdx
    else
      match stack with
      | [] => .ok none
      | (n, tm, mi) :: rest => bspRayLoop cmp sides p d onlyBorder fuel n tmax tm maxIdx mi rest

/-- `ray_intersection` and `ray_intersection_only_border`: `solid_leaf_bsp_tree.hpp:339-349` and
`640-715`. -/
def bspRay (cmp : Cmp K) (sides : List (P2 K × P2 K)) (t : SolidTree K) (p d : P2 K) (onlyBorder : Bool) :
    Res (Option (BspHit K)) :=
  bspRayLoop cmp sides p d onlyBorder t.size t (some 0) none [] [] []

end Geometrix
