import Verif.Model.PolylineIntersection
import Verif.Model.Memoize

/-!
# The test for simple polygons

`geometrix/algorithm/point_sequence/is_polygon_simple.hpp`.
-/

set_option linter.unusedSectionVars false

namespace Geometrix

variable {K : Type*} [Field K] [LinearOrder K]

/-- A loop that evaluates a condition for one element after the other and returns at the first one for which
it is true. -/
def anyRes {α : Type*} (f : α → Res Bool) : List α → Res Bool
  | [] => .ok false
  | a :: as =>
    match f a with
    | .error e => .error e
    | .ok true => .ok true
    | .ok false => anyRes f as

/-- The condition `iType != e_non_crossing` for the segments between the vertices `i`, `j` and `k`, `l`:
`is_polygon_simple.hpp:55-56,83-84`. -/
def edgesHit (cmp : Cmp K) (P : List (P2 K)) (i j k l : Nat) : Res Bool :=
  match P[i]?, P[j]?, P[k]?, P[l]? with
  | some A, some B, some C, some D =>
    match segSegIntersection cmp A B C D with
    | .error e => .error e
    | .ok (ty, _) => .ok (decide (ty ≠ .nonCrossing))
  | _, _, _, _ => .error .outOfRange

/-- `is_polygon_simple`: `is_polygon_simple.hpp:70-93`. The assertion of line 77 is modelled. -/
def isPolygonSimple (cmp : Cmp K) (P : List (P2 K)) : Res Bool :=
  let size := P.length
  let next := fun i => (i + 1) % size
  let adjacent := fun i j => next i == j || next j == i
  if ¬ size > 2 then .error .assertFailed
  else
    let pairs := (List.range (size - 2)).flatMap fun i => (List.range' (i + 2) (size - (i + 2))).map fun j => (i, j)
    match anyRes (fun ij : Nat × Nat =>
        match edgesHit cmp P ij.1 (next ij.1) ij.2 (next ij.2) with
        | .error e => .error e
        | .ok b => .ok (b && !adjacent ij.1 ij.2)) pairs with
    | .error e => .error e
    | .ok b => .ok (!b)

/-- `operator <` of `std::pair`. -/
def pairLt (a b : Nat × Nat) : Bool := decide (a.1 < b.1) || (decide (a.1 = b.1) && decide (a.2 < b.2))

/-- The constructor of `intersection_key`: `is_polygon_simple.hpp:27-33`. -/
def intersectionKey (t : Nat × Nat × Nat × Nat) : (Nat × Nat) × (Nat × Nat) :=
  let a := (t.1, t.2.1)
  let b := (t.2.2.1, t.2.2.2)
  if pairLt a b then (b, a) else (a, b)

/-- `operator <` of `intersection_key`: `is_polygon_simple.hpp:35-38`. -/
def keyLt (x y : (Nat × Nat) × (Nat × Nat)) : Bool :=
  pairLt x.1 y.1 || (decide (x.1 = y.1) && pairLt x.2 y.2)

/-- The inner loop of `is_polygon_simple_memoized`: `is_polygon_simple.hpp:61`, the values of `(k, l)` for
which its body runs. -/
def simpleInner (size i : Nat) : Nat → Nat → Nat → Res (List (Nat × Nat))
  | 0, _, _ => .error .diverges
  | fuel + 1, k, l =>
    if l = i then .ok []
    else
      match simpleInner size i fuel l ((l + 1) % size) with
      | .error e => .error e
      | .ok r => .ok ((k, l) :: r)

/-- The loop over the pairs with the memoized test. -/
def memoAny (cmp : Cmp K) (P : List (P2 K)) : List (((Nat × Nat) × (Nat × Nat)) × Bool) →
    List (Nat × Nat × Nat × Nat) → Res (Bool × List (((Nat × Nat) × (Nat × Nat)) × Bool))
  | cache, [] => .ok (false, cache)
  | cache, t :: ts =>
    match memoCall keyLt intersectionKey (fun t => edgesHit cmp P t.1 t.2.1 t.2.2.1 t.2.2.2) cache t with
    | .error e => .error e
    | .ok (true, cache', _) => .ok (true, cache')
    | .ok (false, cache', _) => memoAny cmp P cache' ts

/-- The outer loop of `is_polygon_simple_memoized`: `is_polygon_simple.hpp:60-65`, from the vertex `j`. -/
def simpleOuter (cmp : Cmp K) (P : List (P2 K)) :
    List (Nat × Nat) → List (((Nat × Nat) × (Nat × Nat)) × Bool) → Res Bool
  | [], _ => .ok true
  | (i, j) :: rest, cache =>
    let k := (j + 1) % P.length
    match simpleInner P.length i (P.length + 1) k ((k + 1) % P.length) with
    | .error e => .error e
    | .ok kl =>
      match memoAny cmp P cache (kl.map fun e => (i, j, e.1, e.2)) with
      | .error e => .error e
      | .ok (true, _) => .ok false
      | .ok (false, cache') => simpleOuter cmp P rest cache'

/-- `is_polygon_simple_memoized`: `is_polygon_simple.hpp:46-68`. -/
def isPolygonSimpleMemoized (cmp : Cmp K) (P : List (P2 K)) : Res Bool :=
  simpleOuter cmp P ((List.range P.length).map fun j => (if j = 0 then P.length - 1 else j - 1, j)) []

/-- `to_polyline`: `is_polygon_simple.hpp:95-103`. The front of an empty polygon is undefined. -/
def toPolyline (P : List (P2 K)) : Res (List (P2 K)) :=
  match P with
  | [] => .error .outOfRange
  | p :: _ => .ok (P ++ [p])

/-- The polylines of all rings. -/
def toPolylines : List (List (P2 K)) → Res (List (List (P2 K)))
  | [] => .ok []
  | P :: Ps =>
    match toPolyline P, toPolylines Ps with
    | .ok q, .ok qs => .ok (q :: qs)
    | .error e, _ => .error e
    | _, .error e => .error e

/-- The visitor of `is_polygon_with_holes_simple`: `is_polygon_simple.hpp:129-132`. -/
def nullVisitor (_ : Unit) (c : PairCall K) : Bool × Unit := (decide (c.type ≠ .nonCrossing), ())

/-- The pairs of different rings, the earlier one first: `is_polygon_simple.hpp:125-127`. -/
def ringPairs {α : Type*} : List α → List (α × α)
  | [] => []
  | a :: as => as.map (fun b => (a, b)) ++ ringPairs as

/-- `is_polygon_with_holes_simple`: `is_polygon_simple.hpp:106-139`. -/
def isPolygonWithHolesSimple (cmp : Cmp K) (outer : List (P2 K)) (holes : List (List (P2 K))) : Res Bool :=
  match anyRes (fun P =>
      match isPolygonSimple cmp P with
      | .error e => .error e
      | .ok b => .ok (!b)) (outer :: holes) with
  | .error e => .error e
  | .ok true => .ok false
  | .ok false =>
    match toPolylines (outer :: holes) with
    | .error e => .error e
    | .ok subjects =>
      match anyRes (fun ab =>
          match polyPolyIntersect cmp ab.1 ab.2 nullVisitor () with
          | .error e => .error e
          | .ok (b, _) => .ok b) (ringPairs subjects) with
      | .error e => .error e
      | .ok b => .ok (!b)

end Geometrix
