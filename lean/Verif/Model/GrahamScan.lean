import Verif.Model.Orientation

/-!
# Convex hull by Graham's scan

`geometrix/algorithm/convex_hull_graham.hpp`.
-/

set_option linter.unusedSectionVars false

namespace Geometrix

variable {K : Type*} [Field K] [LinearOrder K]

/-- `graham_compare::operator()` with the point `o`: `convex_hull_graham.hpp:50-53`. -/
def grahamLess (cmp : Cmp K) (o p1 p2 : P2 K) : Bool := cmp.gt (cross (p1 - o) (p2 - o)) 0

/-- The condition of `find_lowest`: `convex_hull_graham.hpp:128-130`. -/
def grahamLower (cmp : Cmp K) (p low : P2 K) : Bool :=
  cmp.lt p.y low.y || (cmp.equals p.y low.y && cmp.gt p.x low.x)

/-- One turn of the loop of `find_lowest`: `convex_hull_graham.hpp:123-135`. The state is the sequence
and `indexLowest`. `lowestPoint` is a reference to the element at the index as it was before the
assignment of line 132, and that element is exchanged with the first one. -/
def findLowestStep (cmp : Cmp K) (st : List (P2 K) × Nat) (i : Nat) : List (P2 K) × Nat :=
  match st.1[0]?, st.1[st.2]?, st.1[i]? with
  | some first, some low, some p =>
    if grahamLower cmp p low then ((st.1.set 0 low).set st.2 first, i) else st
  | _, _, _ => st

/-- `find_lowest`: `convex_hull_graham.hpp:112-136`. -/
def findLowest (cmp : Cmp K) (pts : List (P2 K)) : List (P2 K) :=
  ((List.range' 1 (pts.length - 1)).foldl (findLowestStep cmp) (pts, 0)).1

/-- The loop of `get_convex_hull`: `convex_hull_graham.hpp:89-106`. The first list holds the points
from index `i` on, the second is `gStack`, front first. The assertions of lines 92 and 94 fail when the
stack has less than two elements. The number bounds the turns, see `C41_terminates`. -/
def grahamLoop (cmp : Cmp K) : Nat → List (P2 K) → List (P2 K) → Res (List (P2 K))
  | _, [], stack => .ok stack
  | 0, _ :: _, _ => .error .diverges
  | n + 1, p :: rest, p2 :: p1 :: stack =>
    if getOrientation cmp p1 p2 p == .left then grahamLoop cmp n rest (p :: p2 :: p1 :: stack)
    else grahamLoop cmp n (p :: rest) (p1 :: stack)
  | _ + 1, _ :: _, _ => .error .assertFailed

/-- `graham_scan::get_convex_hull`: `convex_hull_graham.hpp:68-110`. `sort` is `std::sort` with its
comparison. The hull is made from the stack, front first. With less than two points the accesses of lines
79 and 86 are out of range. -/
def grahamHull (cmp : Cmp K) (sort : (P2 K → P2 K → Bool) → List (P2 K) → List (P2 K))
    (pts : List (P2 K)) : Res (List (P2 K)) :=
  match findLowest cmp pts with
  | [] => .error .outOfRange
  | o :: t =>
    match sort (grahamLess cmp o) t with
    | [] => .error .outOfRange
    | a :: rest => grahamLoop cmp (2 * rest.length) rest [a, o]

end Geometrix
