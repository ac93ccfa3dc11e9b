import Verif.Model.Grid
import Verif.Model.PointSequence
import Verif.Model.PointInPolygon
import Verif.Model.PolylineSplit
import Verif.Model.Sphere

/-!
# Triangle meshes

`geometrix/algorithm/mesh_2d.hpp` and `geometrix/algorithm/eberly_triangle_aabb_intersection.hpp`.
-/

set_option linter.unusedSectionVars false

namespace Geometrix

section
variable {K : Type*} [Field K] [LinearOrder K]

/-- One entry of `m_indices` with the entry of `m_triangles` at the same position: `mesh_2d.hpp:231-232`. The two vectors
are filled together (`:187-188`) and never changed afterwards. -/
structure MeshTri (K : Type*) where
  i0 : Nat
  i1 : Nat
  i2 : Nat
  a : P2 K
  b : P2 K
  c : P2 K
  deriving DecidableEq

/-- The three indices of a triangle, `get_triangle_indices`: `mesh_2d.hpp:225`. -/
def MeshTri.indices (t : MeshTri K) : Nat × Nat × Nat := (t.i0, t.i1, t.i2)

/-- The members of `mesh_2d_base`: `mesh_2d.hpp:230-233`. -/
structure MeshBase (K : Type*) where
  points : List (P2 K)
  tris : List (MeshTri K)
  integral : List K
  deriving DecidableEq

/-- The triples of indices that the constructor goes through, `indices.size() / 3` of them; one or two indices that are left
over are not looked at: `mesh_2d.hpp:163-171`. -/
def meshTriples : List Nat → List (Nat × Nat × Nat)
  | i :: j :: k :: rest => (i, j, k) :: meshTriples rest
  | _ => []

/-- The test for coinciding vertices and the entry made otherwise: `mesh_2d.hpp:181-188`. -/
def keepTri (cmp : Cmp K) (t : MeshTri K) : Option (MeshTri K) :=
  if seqEquals cmp t.a t.b || seqEquals cmp t.b t.c || seqEquals cmp t.c t.a then none else some t

/-- One round of the loop in the constructor, up to the entry: `mesh_2d.hpp:168-188`. `none` is the `continue`. -/
def meshStep (cmp : Cmp K) (pts : List (P2 K)) (i : Nat × Nat × Nat) : Res (Option (MeshTri K)) :=
  match pts[i.1]?, pts[i.2.1]?, pts[i.2.2]? with
  | some a, some b, some c =>
    if getOrientation cmp a b c == .right then .ok (keepTri cmp ⟨i.1, i.2.2, i.2.1, a, c, b⟩)
    else .ok (keepTri cmp ⟨i.1, i.2.1, i.2.2, a, b, c⟩)
  | _, _, _ => .error .assertFailed

/-- The loop of the constructor without the weights: `mesh_2d.hpp:166-192`. -/
def meshLoop (cmp : Cmp K) (pts : List (P2 K)) : List (Nat × Nat × Nat) → Res (List (MeshTri K))
  | [] => .ok []
  | i :: rest =>
    match meshStep cmp pts i with
    | .error e => .error e
    | .ok t =>
      match meshLoop cmp pts rest with
      | .error e => .error e
      | .ok ts => .ok (t.toList ++ ts)

/-- The weight of a triangle with `triangle_area_weight_policy`: `mesh_2d.hpp:117-121,189`. -/
def triWeight (t : MeshTri K) : Res K := polygonArea [t.a, t.b, t.c]

/-- `triWeights`: `mesh_2d.hpp:165,189-191`. -/
def triWeights : List (MeshTri K) → Res (List K)
  | [] => .ok []
  | t :: rest =>
    match triWeight t with
    | .error e => .error e
    | .ok w =>
      match triWeights rest with
      | .error e => .error e
      | .ok ws => .ok (w :: ws)

/-- The loop that fills `m_integral`: `mesh_2d.hpp:194-200`, with `normalize` of the weight policy (`:123-126`). -/
def integralLoop (total : K) : K → List K → Res (List K)
  | _, [] => .ok []
  | last, w :: rest =>
    match cdiv w total with
    | .error e => .error e
    | .ok r =>
      match integralLoop total (last + r) rest with
      | .error e => .error e
      | .ok l => .ok ((last + r) :: l)

/-- The constructor of `mesh_2d_base` with `triangle_area_weight_policy`: `mesh_2d.hpp:157-201`. The total is added up in the
loop at line 190. -/
def makeMesh (cmp : Cmp K) (pts : List (P2 K)) (indices : List Nat) : Res (MeshBase K) :=
  match meshLoop cmp pts (meshTriples indices) with
  | .error e => .error e
  | .ok ts =>
    match triWeights ts with
    | .error e => .error e
    | .ok ws =>
      match integralLoop (ws.foldl (· + ·) 0) 0 ws with
      | .error e => .error e
      | .ok l => .ok ⟨pts, ts, l⟩

/-- `std::lower_bound` on an ascending sequence: the position of the first element that is not less. `m_integral` is
ascending because the weights are not negative. -/
def lowerBound (l : List K) (v : K) : Nat := (l.takeWhile (fun x => decide (x < v))).length

end

/-- The point of the expression at `mesh_2d.hpp:218`. -/
noncomputable def triPosition (t : MeshTri ℝ) (s r2 : ℝ) : P2 ℝ :=
  (1 - s) • t.a + (s * (1 - r2)) • t.b + (s * r2) • t.c

/-- `get_random_position`: `mesh_2d.hpp:204-219`. The upper bounds in the assertions at lines 208 and 209 are on `rT`. -/
noncomputable def randomPosition (m : MeshBase ℝ) (rT r1 r2 : ℝ) : Res (P2 ℝ) :=
  if m.tris = [] then .error .assertFailed
  else if ¬ (0 ≤ rT ∧ rT ≤ 1) then .error .assertFailed
  else if ¬ (0 ≤ r1 ∧ rT ≤ 1) then .error .assertFailed
  else if ¬ (0 ≤ r2 ∧ rT ≤ 1) then .error .assertFailed
  else
    match m.tris[lowerBound m.integral rT]? with
    | none => .error .assertFailed
    | some t =>
      match csqrt r1 with
      | .error e => .error e
      | .ok s => .ok (triPosition t s r2)

/-! ## Adjacent triangles -/

/-- `(std::numeric_limits<std::size_t>::max)()` for a `std::size_t` of 64 bits. -/
def noTriangle : Nat := 2 ^ 64 - 1

/-- The order of `std::pair<std::size_t, std::size_t>`. -/
def sideKeyLt (p q : Nat × Nat) : Bool := decide (p.1 < q.1) || (decide (p.1 = q.1) && decide (p.2 < q.2))

/-- `adjTriangles`: `mesh_2d.hpp:335-337`. The map is its entries in the order of the keys; an `adj_item` is the number of
the triangle and that of the side. -/
abbrev SideMap := List ((Nat × Nat) × List (Nat × Nat))

/-- `adjTriangles[key].push_back(item)`: `mesh_2d.hpp:342-344`. -/
def SideMap.push (key item : Nat × Nat) : SideMap → SideMap
  | [] => [(key, [item])]
  | e :: m =>
    if e.1 = key then (e.1, e.2 ++ [item]) :: m
    else if sideKeyLt key e.1 then (key, [item]) :: e :: m
    else e :: SideMap.push key item m

/-- `adjTriangles.find(key)`: `mesh_2d.hpp:351`. -/
def SideMap.find (m : SideMap) (key : Nat × Nat) : Option (List (Nat × Nat)) :=
  (List.find? (fun e => e.1 == key) m).map (·.2)

/-- The first loop of `create_adjacency_matrix`: `mesh_2d.hpp:339-345`. `n` is the number of the next triangle. -/
def sideMapLoop : Nat → SideMap → List (Nat × Nat × Nat) → SideMap
  | _, m, [] => m
  | n, m, t :: rest =>
    sideMapLoop (n + 1)
      (((m.push (t.1, t.2.1) (n, 0)).push (t.2.1, t.2.2) (n, 1)).push (t.2.2, t.1) (n, 2)) rest

/-- The adjacency matrix: row and column give the entry. The code only writes to rows of existing triangles
(`mesh_2d.hpp:333`); the function has the default entry in all other places. -/
abbrev AdjMatrix := Nat → Nat → Nat

/-- `adjMatrix[row][column] = value`. -/
def AdjMatrix.set (m : AdjMatrix) (row column value : Nat) : AdjMatrix :=
  fun r c => if r = row ∧ c = column then value else m r c

/-- The two assignments at `mesh_2d.hpp:359-360`. -/
def linkPair (m : AdjMatrix) (i j : Nat × Nat) : AdjMatrix :=
  (m.set i.1 i.2 j.1).set j.1 j.2 i.1

/-- The loops over the items of a side and those of its reverse: `mesh_2d.hpp:355-362`. -/
def linkSides (m : AdjMatrix) (is js : List (Nat × Nat)) : AdjMatrix :=
  is.foldl (fun m i => js.foldl (fun m j => linkPair m i j) m) m

/-- One round of the second loop of `create_adjacency_matrix`: `mesh_2d.hpp:347-364`. -/
def linkEntry (sides : SideMap) (m : AdjMatrix) (e : (Nat × Nat) × List (Nat × Nat)) : AdjMatrix :=
  match sides.find (e.1.2, e.1.1) with
  | none => m
  | some js => linkSides m e.2 js

/-- `create_adjacency_matrix`: `mesh_2d.hpp:330-365`, from the indices of the triangles. -/
def adjacency (tris : List (Nat × Nat × Nat)) : AdjMatrix :=
  let sides := sideMapLoop 0 [] tris
  sides.foldl (linkEntry sides) fun _ _ => noTriangle

/-- `tri[i]` of a `std::array<std::size_t, 3>` with an index from 0 to 2. -/
def triIndex (t : Nat × Nat × Nat) : Nat → Nat
  | 0 => t.1
  | 1 => t.2.1
  | _ => t.2.2

/-- `detail::is_adjacent_side<i, j>`: `mesh_2d.hpp:373-377`. -/
def isAdjacentSide (i j : Nat) (t u : Nat × Nat × Nat) : Bool :=
  triIndex t i == triIndex u ((j + 1) % 3) && triIndex t ((i + 1) % 3) == triIndex u j

/-- `get_triangle_adjacent_side`: `mesh_2d.hpp:380-393`. -/
def adjacentSide (t u : Nat × Nat × Nat) : Res Nat :=
  if isAdjacentSide 0 0 t u || isAdjacentSide 0 1 t u || isAdjacentSide 0 2 t u then .ok 0
  else if isAdjacentSide 1 0 t u || isAdjacentSide 1 1 t u || isAdjacentSide 1 2 t u then .ok 1
  else if isAdjacentSide 2 0 t u || isAdjacentSide 2 1 t u || isAdjacentSide 2 2 t u then .ok 2
  else .error .assertFailed

/-! ## The test of a triangle and a box -/

/-- The condition under which one axis makes the test return false:
`eberly_triangle_aabb_intersection.hpp:60,70,80,90,100`. `p0`, `p1`, `p2` are the projections of the vertices and `r` that of the
half box. -/
noncomputable def axisApart (cmp : Cmp ℝ) (p0 p1 p2 r : ℝ) : Bool :=
  cmp.lt (max p0 (max p1 p2)) (-r) || cmp.gt (min p0 (min p1 p2)) r

/-- One of the blocks for an axis made from a side `f` of the triangle: `eberly_triangle_aabb_intersection.hpp:52,54-82`. -/
noncomputable def sideAxisApart (cmp : Cmp ℝ) (v0 v1 v2 f : P2 ℝ) (e0 e1 : ℝ) : Bool :=
  let a : P2 ℝ := ⟨f.y, -f.x⟩
  axisApart cmp (dot v0 a) (dot v1 a) (dot v2 a) (e0 * |dot ⟨1, 0⟩ a| + e1 * |dot ⟨0, 1⟩ a|)

/-- `eberly_triangle_aabb_intersection_2d`: `eberly_triangle_aabb_intersection.hpp:20-106`. -/
noncomputable def triangleBox (cmp : Cmp ℝ) (A B C : P2 ℝ) (box : Box ℝ) : Res Bool :=
  let c : P2 ℝ := (1 / 2 : ℝ) • (box.lo + box.hi)
  let e0 := (box.hi.x - box.lo.x) * (1 / 2)
  let e1 := (box.hi.y - box.lo.y) * (1 / 2)
  let v0 := A - c
  let v1 := B - c
  let v2 := C - c
  match normalize2 (v0 - v1) with
  | .error e => .error e
  | .ok f0 =>
  match normalize2 (v1 - v2) with
  | .error e => .error e
  | .ok f1 =>
  match normalize2 (v2 - v0) with
  | .error e => .error e
  | .ok f2 =>
    if sideAxisApart cmp v0 v1 v2 f0 e0 e1 then .ok false
    else if sideAxisApart cmp v0 v1 v2 f1 e0 e1 then .ok false
    else if sideAxisApart cmp v0 v1 v2 f2 e0 e1 then .ok false
    else if axisApart cmp (dot v0 ⟨1, 0⟩) (dot v1 ⟨1, 0⟩) (dot v2 ⟨1, 0⟩) e0 then .ok false
    else if axisApart cmp (dot v0 ⟨0, 1⟩) (dot v1 ⟨0, 1⟩) (dot v2 ⟨0, 1⟩) e1 then .ok false
    else .ok true

/-! ## The grid of triangles -/

/-- Inserting into a `boost::container::flat_set<std::size_t>`: an ascending list without repetitions. -/
def flatInsert (n : Nat) : List Nat → List Nat
  | [] => [n]
  | m :: l => if n < m then n :: m :: l else if n = m then m :: l else m :: flatInsert n l

/-- `triangle_grid_cache` with `grid_2d`: `mesh_2d.hpp:44-106`. -/
structure TriangleCache where
  traits : GridTraits ℝ
  grid : Grid2d (List Nat)

/-- The two corners moved away from each other: `mesh_2d.hpp:61-68`. -/
noncomputable def cacheBounds (b : Box ℝ) : Res (Box ℝ) :=
  match normalize2 (b.lo - b.hi) with
  | .error e => .error e
  | .ok u =>
    let lo := b.lo + Real.sqrt 2 • u
    match normalize2 (b.hi - lo) with
    | .error e => .error e
    | .ok w => .ok ⟨lo, b.hi + Real.sqrt 2 • w⟩

/-- The body of the loops over columns and rows: `mesh_2d.hpp:87-89`. -/
noncomputable def cacheCell (g : GridTraits ℝ) (n : Nat) (t : MeshTri ℝ) (m : Grid2d (List Nat)) (col row : Nat) :
    Res (Grid2d (List Nat)) :=
  match triangleBox (Cmp.absolute (1 / 10 ^ 10)) t.a t.b t.c ⟨g.cellCorner0 col row, g.cellCorner2 col row⟩ with
  | .error e => .error e
  | .ok false => .ok m
  | .ok true =>
    match m.get col row with
    | .error e => .error e
    | .ok s => m.set col row (flatInsert n s)

/-- A loop that may stop with a fault. -/
def foldRes {α β : Type*} (f : β → α → Res β) : β → List α → Res β
  | b, [] => .ok b
  | b, a :: l =>
    match f b a with
    | .error e => .error e
    | .ok b => foldRes f b l

/-- The pairs of a column and a row in the order of the two loops: `mesh_2d.hpp:83-85`. -/
def cellPairs (imin imax jmin jmax : Nat) : List (Nat × Nat) :=
  (List.range' imin (imax + 1 - imin)).flatMap fun col => (List.range' jmin (jmax + 1 - jmin)).map fun row => (col, row)

/-- One round of the loop over the triangles, once the indices are known: `mesh_2d.hpp:83-91`. With an index of `2 ^ 32 - 1`
the condition `col <= imax` or `row <= jmax` on `boost::uint32_t` never fails and the loop does not end. -/
noncomputable def cacheRange (g : GridTraits ℝ) (m : Grid2d (List Nat)) (n : Nat) (t : MeshTri ℝ)
    (imin imax jmin jmax : Nat) : Res (Grid2d (List Nat)) :=
  if imax = 2 ^ 32 - 1 ∨ jmax = 2 ^ 32 - 1 then .error .diverges
  else foldRes (fun m c => cacheCell g n t m c.1 c.2) m (cellPairs imin imax jmin jmax)

/-- One round of the loop over the triangles: `mesh_2d.hpp:75-92`. -/
noncomputable def cacheTriangle (g : GridTraits ℝ) (m : Grid2d (List Nat)) (n : Nat) (t : MeshTri ℝ) :
    Res (Grid2d (List Nat)) :=
  match getBounds (Cmp.absolute 0) [t.a, t.b, t.c] with
  | none => .error .nan
  | some b =>
    match g.xIndex b.lo.x, g.xIndex b.hi.x, g.yIndex b.lo.y, g.yIndex b.hi.y with
    | .ok imin, .ok imax, .ok jmin, .ok jmax => cacheRange g m n t imin imax jmin jmax
    | .error e, _, _, _ => .error e
    | _, .error e, _, _ => .error e
    | _, _, .error e, _ => .error e
    | _, _, _, .error e => .error e

/-- The constructor of `triangle_grid_cache`: `mesh_2d.hpp:52-93`. -/
noncomputable def makeCache (pts : List (P2 ℝ)) (tris : List (MeshTri ℝ)) : Res TriangleCache :=
  if pts = [] then .error .assertFailed
  else if tris = [] then .error .assertFailed
  else
    match getBounds (Cmp.absolute 0) pts with
    | none => .error .nan
    | some b =>
      match cacheBounds b with
      | .error e => .error e
      | .ok c =>
        match makeGrid c.lo.x c.hi.x c.lo.y c.hi.y 1 with
        | .error e => .error e
        | .ok g =>
          match foldRes (fun m t => cacheTriangle g m t.2 t.1) (makeGrid2d [] g) tris.zipIdx with
          | .error e => .error e
          | .ok m => .ok ⟨g, m⟩

/-- `find_indices`: `mesh_2d.hpp:95-103`. -/
noncomputable def TriangleCache.find (c : TriangleCache) (p : P2 ℝ) : Res (List Nat) :=
  if c.traits.isContained p then Grid2d.getAt c.traits c.grid p else .ok []

/-- The loop of `find_triangle`: `mesh_2d.hpp:270-275`. -/
noncomputable def findTriangleLoop (cmp : Cmp ℝ) (tris : List (MeshTri ℝ)) (p : P2 ℝ) : List Nat → Res (Option Nat)
  | [] => .ok none
  | n :: rest =>
    match tris[n]? with
    | none => .error .outOfRange
    | some t => if pointInTriangle cmp p t.a t.b t.c then .ok (some n) else findTriangleLoop cmp tris p rest

/-- `mesh_2d` with `triangle_grid_cache` and `grid_2d`: `mesh_2d.hpp:242-259,367-368`. -/
structure Mesh where
  base : MeshBase ℝ
  cache : TriangleCache
  adj : AdjMatrix

/-- The constructor of `mesh_2d`: `mesh_2d.hpp:253-259`. -/
noncomputable def makeMesh2d (cmp : Cmp ℝ) (pts : List (P2 ℝ)) (indices : List Nat) : Res Mesh :=
  match makeMesh cmp pts indices with
  | .error e => .error e
  | .ok b =>
    match makeCache b.points b.tris with
    | .error e => .error e
    | .ok c => .ok ⟨b, c, adjacency (b.tris.map MeshTri.indices)⟩

/-- `find_triangle`: `mesh_2d.hpp:266-278`. -/
noncomputable def Mesh.findTriangle (m : Mesh) (cmp : Cmp ℝ) (p : P2 ℝ) : Res (Option Nat) :=
  match m.cache.find p with
  | .error e => .error e
  | .ok s => findTriangleLoop cmp m.base.tris p s

end Geometrix
