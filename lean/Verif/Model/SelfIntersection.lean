import Verif.Model.PolylineIntersection

/-!
# Self intersections of a polyline

`geometrix/algorithm/point_sequence/self_intersection.hpp`.
-/

set_option linter.unusedSectionVars false

namespace Geometrix

variable {K : Type*} [Field K] [LinearOrder K] {σ : Type*}

/-- The order in which the loops of `polyline_self_intersection` go through the pairs of edges:
`self_intersection.hpp:38-40`. -/
def selfPairs (size : Nat) : List (Nat × Nat) :=
  (List.range (size - 2)).flatMap fun i => (List.range' (i + 1) (size - 1 - (i + 1))).map fun j => (i, j)

/-- The body of the loops: `self_intersection.hpp:31-35,42-46`, for the pairs in the list. The visitor is a function
object that may change its own state; what it is called with are the numbers of the edges, the type and the points
written by `segment_segment_intersection`. -/
def selfLoop (cmp : Cmp K) (poly : List (P2 K)) (visit : σ → EdgeCall K → σ) :
    List (Nat × Nat) → Bool → σ → Res (Bool × σ)
  | [], isIntersecting, s => .ok (isIntersecting, s)
  | (i, j) :: rest, isIntersecting, s =>
    match poly[i]?, poly[i + 1]?, poly[j]?, poly[j + 1]? with
    | some A, some B, some C, some D =>
      match segSegIntersection cmp A B C D with
      | .error e => .error e
      | .ok (ty, pts) =>
        if ty ≠ .nonCrossing ∧ (¬ (i + 1 = j ∨ j + 1 = i) ∨ ty = .overlapping) then
          selfLoop cmp poly visit rest true (visit s ⟨ty, i, j, pts⟩)
        else selfLoop cmp poly visit rest isIntersecting s
    | _, _, _, _ => .error .outOfRange

/-- `polyline_self_intersection`: `self_intersection.hpp:18-51`. The result carries the final state of the visitor. -/
def selfIntersection (cmp : Cmp K) (poly : List (P2 K)) (visit : σ → EdgeCall K → σ) (s : σ) : Res (Bool × σ) :=
  if poly.length < 3 then .ok (false, s)
  else selfLoop cmp poly visit (selfPairs poly.length) false s

end Geometrix
