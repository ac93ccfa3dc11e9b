import Verif.Model.PointSequence

/-!
# Congruence of polylines and polygons
-/

namespace Geometrix

/-- The test of line 64 of `geometrix/algorithm/point_sequence/is_congruent.hpp` (also line 114): the
angle at `p1i` between the neighbours `p1h` and `p1j` is the same as the one at `p2i`. -/
def sameCorner {K : Type*} [Field K] (cmp : Cmp K) (p1h p1i p1j p2h p2i p2j : P2 K) : Bool :=
  !(!cmp.equals (dot (p1h - p1i) (p1j - p1i)) (dot (p2h - p2i) (p2j - p2i)) ||
    !cmp.equals (cross (p1h - p1i) (p1j - p1i)) (cross (p2h - p2i) (p2j - p2i)))

/-- The loop of `are_polylines_congruent`: `is_congruent.hpp:43-67`. `prev` are the two points with
index `i - 1`, absent for `i = 0`; the lists start with the points with index `i`. -/
noncomputable def congruentLoop (cmp : Cmp ℝ) (prev : Option (P2 ℝ × P2 ℝ)) :
    List (P2 ℝ) → List (P2 ℝ) → Bool
  | p1i :: p1j :: r1, p2i :: p2j :: r2 =>
    if !cmp.equals (pointDist p1i p1j) (pointDist p2i p2j) then false
    else
      match prev with
      | none => congruentLoop cmp (some (p1i, p2i)) (p1j :: r1) (p2j :: r2)
      | some (p1h, p2h) =>
        if !sameCorner cmp p1h p1i p1j p2h p2i p2j then false
        else congruentLoop cmp (some (p1i, p2i)) (p1j :: r1) (p2j :: r2)
  | _, _ => true

/-- `are_polylines_congruent`: `is_congruent.hpp:23-70`. -/
noncomputable def polylinesCongruent (cmp : Cmp ℝ) (poly1 poly2 : List (P2 ℝ)) : Bool :=
  if poly1.length ≠ poly2.length then false else congruentLoop cmp none poly1 poly2

/-- `are_polygons_congruent`: `is_congruent.hpp:73-120`. For two or more vertices the index pairs
`i`, `j` are the consecutive vertices of the list closed with its first vertex, so the loop is the one
above; for one vertex the first pair is `0`, `1` and the vertex `1` does not exist. -/
noncomputable def polygonsCongruent (cmp : Cmp ℝ) (poly1 poly2 : List (P2 ℝ)) : Res Bool :=
  if poly1.length ≠ poly2.length then .ok false
  else
    match poly1, poly2 with
    | [], _ => .ok true
    | [_], _ => .error .outOfRange
    | a :: r, b :: s => .ok (congruentLoop cmp none (a :: r ++ [a]) (b :: s ++ [b]))
    | _ :: _ :: _, [] => .error .outOfRange

end Geometrix
