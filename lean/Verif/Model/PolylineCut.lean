import Verif.Model.PolylineOffset

/-!
# Cutting a polyline where it meets itself, and the trimmed parallel polyline

`geometrix/algorithm/point_sequence/polyline_offset.hpp`.
-/

set_option linter.unusedSectionVars false

namespace Geometrix

variable {K : Type*} [Field K] [LinearOrder K]

/-- `point_closer_to_vertex_cmp`: `polyline_offset.hpp:137-149`. An item is the number of an edge and a point. The numbers
are those of edges, so that the vertex always exists. -/
def cutLess (poly : List (P2 K)) (a b : Nat × P2 K) : Bool :=
  if a.1 ≠ b.1 then decide (a.1 < b.1)
  else
    match poly[a.1]? with
    | some p => decide (distSq p a.2 < distSq p b.2)
    | none => false

/-- `std::set::insert` with that order; the set is the list of its items in order: `polyline_offset.hpp:154-155`. An item
that is neither before nor after an item of the set is not inserted. -/
def insertCut (poly : List (P2 K)) (c : Nat × P2 K) : List (Nat × P2 K) → List (Nat × P2 K)
  | [] => [c]
  | d :: l =>
    if cutLess poly c d then c :: d :: l
    else if cutLess poly d c then d :: insertCut poly c l
    else d :: l

/-- The visitor of `self_intersection_set`: `polyline_offset.hpp:162-172`. Reading a point that
`segment_segment_intersection` has not written is a fault. -/
def cutVisitor (poly : List (P2 K)) (s : Res (List (Nat × P2 K))) (c : EdgeCall K) : Res (List (Nat × P2 K)) :=
  match s with
  | .error e => .error e
  | .ok l =>
    if c.i = c.j then .error .assertFailed
    else
      match c.pts with
      | [] => .error .outOfRange
      | x1 :: more =>
        let l := insertCut poly (c.j, x1) (insertCut poly (c.i, x1) l)
        if c.type = .overlapping then
          match more with
          | [] => .error .outOfRange
          | x2 :: _ => .ok (insertCut poly (c.j, x2) (insertCut poly (c.i, x2) l))
        else .ok l

/-- `self_intersection_set`: `polyline_offset.hpp:157-175`. -/
def selfIntersectionSet (cmp : Cmp K) (poly : List (P2 K)) : Res (List (Nat × P2 K)) :=
  match selfIntersection cmp poly (cutVisitor poly) (.ok []) with
  | .error e => .error e
  | .ok (_, s) => s

/-- A point is pushed unless it equals the last one: `polyline_offset.hpp:194-195` and `198-199`. The list is
never empty. -/
def pushPoint (cmp : Cmp K) (pi : List (P2 K)) (p : P2 K) : List (P2 K) :=
  match pi.getLast? with
  | some q => if seqEquals cmp p q then pi else pi ++ [p]
  | none => pi ++ [p]

/-- The points number `lo` to `lo + n - 1`: the loops at `polyline_offset.hpp:192` and `218`. -/
def rangePoints (pline : List (P2 K)) (lo n : Nat) : Res (List (P2 K)) :=
  if n = 0 ∨ lo + n ≤ pline.length then .ok ((pline.drop lo).take n) else .error .outOfRange

/-- Pieces of a single point are not kept: `polyline_offset.hpp:204-205`. -/
def keepPiece (pi : List (P2 K)) (r : List (List (P2 K))) : List (List (P2 K)) :=
  if pi.length > 1 then pi :: r else r

/-- The loop of `split`: `polyline_offset.hpp:208-245`. The first piece, lines 187-206, is treated like the others,
with `lastIndex = 0` and the first vertex as `lastPoint`. -/
def cutLoop (cmp : Cmp K) (pline : List (P2 K)) (lastIndex : Nat) (lastPoint : P2 K) :
    List (Nat × P2 K) → Res (List (List (P2 K)))
  | [] => .ok (keepPiece ((pline.drop (lastIndex + 1)).foldl (pushPoint cmp) [lastPoint]) [])
  | (c, x) :: rest =>
    match rangePoints pline (lastIndex + 1) (c - lastIndex) with
    | .error e => .error e
    | .ok ps =>
      let pi := (ps ++ [x]).foldl (pushPoint cmp) [lastPoint]
      match cutLoop cmp pline c x rest with
      | .error e => .error e
      | .ok r => .ok (keepPiece pi r)

/-- `split`: `polyline_offset.hpp:178-248`. -/
def splitPolyline (cmp : Cmp K) (iset : List (Nat × P2 K)) (pline : List (P2 K)) : Res (List (List (P2 K))) :=
  match iset, pline with
  | [], _ => .error .assertFailed
  | _, [] => .error .outOfRange
  | iset, p :: _ => cutLoop cmp pline 0 p iset

/-- The visitor of `liu_polyline_offset_impl`: `polyline_offset.hpp:270-276`; it asks to stop if the piece meets an edge
other than the first and the last. The state is the flag `reject`. The points it collects are never used. -/
def rejectVisitor (size : Nat) (_ : Bool) (c : PairCall K) : Bool × Bool :=
  let reject := decide (c.i > 0 ∧ c.i + 1 < size)
  (reject, reject)

/-- The pieces that are kept: `polyline_offset.hpp:263-291`. The pieces that meet the polyline but are not rejected go into
`tmpArray2`, from which nothing is taken. -/
def liuKeep (cmp : Cmp K) (pline : List (P2 K)) : List (List (P2 K)) → Res (List (List (P2 K)))
  | [] => .ok []
  | pi :: rest =>
    match polyPolyIntersect cmp pi pline (rejectVisitor pline.length) false with
    | .error e => .error e
    | .ok (meets, _) =>
      match liuKeep cmp pline rest with
      | .error e => .error e
      | .ok r => .ok (if meets then r else pi :: r)

/-- `liu_polyline_offset_impl`: `polyline_offset.hpp:250-299`. -/
noncomputable def liuOffsetImpl (cmp : Cmp ℝ) (left : Bool) (offset : ℝ) (pline : List (P2 ℝ)) :
    Res (List (List (P2 ℝ))) :=
  match untrimmedOffset cmp left offset pline with
  | .error e => .error e
  | .ok pline1 =>
    match selfIntersectionSet cmp pline1 with
    | .error e => .error e
    | .ok [] => .ok [pline1]
    | .ok (c :: iset) =>
      match splitPolyline cmp (c :: iset) pline1 with
      | .error e => .error e
      | .ok splits => liuKeep cmp pline splits

/-- `liu_polyline_offset`: `polyline_offset.hpp:359-366`. -/
noncomputable def liuOffset (cmp : Cmp ℝ) (poly : List (P2 ℝ)) (side : Orient) (offset : ℝ) :
    Res (List (List (P2 ℝ))) :=
  if side = .left then liuOffsetImpl cmp true offset poly else liuOffsetImpl cmp false offset poly

end Geometrix
