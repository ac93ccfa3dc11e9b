import Verif.Model.SegmentIntersection

/-!
# Intersections of segments and polylines with polylines

`geometrix/algorithm/intersection/segment_polyline_intersection.hpp`,
`geometrix/algorithm/intersection/polyline_polyline_intersection.hpp`. The visitor is a function object that
may change its own state: it takes a state and the arguments of the call and gives the answer, whether to
stop, and the new state. The two points passed to the visitor are the ones written by
`segment_segment_intersection`; the list has fewer than two elements when not all of them were written.
-/

set_option linter.unusedSectionVars false

namespace Geometrix

variable {K : Type*} [Field K] [LinearOrder K] {σ : Type*}

/-- The arguments of a call of the visitor of `segment_polyline_intersect`: the type, the indices of the
ends of the edge and the points written. -/
structure EdgeCall (K : Type*) where
  type : IType
  i : Nat
  j : Nat
  pts : List (P2 K)

/-- `segment_polyline_intersect`: `segment_polyline_intersection.hpp:28-53`, the loop from the edge with the
number `i`, whose points are the head of the list. -/
def segPolylineLoop (cmp : Cmp K) (A B : P2 K) (visit : σ → EdgeCall K → Bool × σ) :
    Nat → List (P2 K) → Bool → σ → Res (Bool × σ)
  | i, p :: q :: rest, intersected, s =>
    match segSegIntersection cmp A B p q with
    | .error f => .error f
    | .ok (ty, pts) =>
      if ty ≠ .nonCrossing then
        match visit s ⟨ty, i, i + 1, pts⟩ with
        | (true, s') => .ok (true, s')
        | (false, s') => segPolylineLoop cmp A B visit (i + 1) (q :: rest) true s'
      else segPolylineLoop cmp A B visit (i + 1) (q :: rest) intersected s
  | _, _, intersected, s => .ok (intersected, s)

/-- `segment_polyline_intersect`: `segment_polyline_intersection.hpp:28-53`. The result carries the final
state of the visitor. -/
def segPolylineIntersect (cmp : Cmp K) (A B : P2 K) (poly : List (P2 K))
    (visit : σ → EdgeCall K → Bool × σ) (s : σ) : Res (Bool × σ) :=
  segPolylineLoop cmp A B visit 0 poly false s

/-- The arguments of a call of the visitor of `polyline_polyline_intersect`. -/
structure PairCall (K : Type*) where
  type : IType
  i1 : Nat
  j1 : Nat
  i : Nat
  j : Nat
  pts : List (P2 K)

/-- The inner visitor `iVisitor`: `polyline_polyline_intersection.hpp:42-50`. Its state is the flag
`intersected` and the state of the outer visitor. -/
def innerVisitor (visit : σ → PairCall K → Bool × σ) (i1 j1 : Nat) (s : Bool × σ) (c : EdgeCall K) :
    Bool × (Bool × σ) :=
  if c.type = .nonCrossing then (false, s)
  else
    let r := visit s.2 ⟨c.type, i1, j1, c.i, c.j, c.pts⟩
    (r.1, (true, r.2))

/-- `polyline_polyline_intersect`: `polyline_polyline_intersection.hpp:39-57`, the loop from the edge with
the number `i1` of the first polyline. -/
def polyPolyLoop (cmp : Cmp K) (B : List (P2 K)) (visit : σ → PairCall K → Bool × σ) :
    Nat → List (P2 K) → Bool → σ → Res (Bool × σ)
  | i1, p :: q :: rest, intersected, s =>
    match segPolylineIntersect cmp p q B (innerVisitor visit i1 (i1 + 1)) (intersected, s) with
    | .error f => .error f
    | .ok (stop, (intersected', s')) =>
      if stop then .ok (intersected', s')
      else polyPolyLoop cmp B visit (i1 + 1) (q :: rest) intersected' s'
  | _, _, intersected, s => .ok (intersected, s)

/-- `polyline_polyline_intersect`: `polyline_polyline_intersection.hpp:28-58`. -/
def polyPolyIntersect (cmp : Cmp K) (A B : List (P2 K)) (visit : σ → PairCall K → Bool × σ) (s : σ) :
    Res (Bool × σ) :=
  polyPolyLoop cmp B visit 0 A false s

end Geometrix
