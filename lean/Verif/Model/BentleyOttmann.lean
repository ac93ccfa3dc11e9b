import Verif.Model.SegmentIntersection
import Verif.Model.LineCoordinate

/-!
# The sweep of Bentley and Ottmann

`geometrix/algorithm/bentley_ottmann_segment_intersection.hpp` and `geometrix/algorithm/bentley_ottmann_sweep.hpp`, for
floating point coordinates. A pointer to a segment is the position of the segment in the vector together with the
segment; the order of pointers is the order of the positions. A `std::set` of pointers is an ascending list. The sets of
the standard library and the `flat_map` look for positions by bisection, the model goes from the front; that gives the
same position if the container is in order.
-/

set_option linter.unusedSectionVars false

namespace Geometrix

variable {K : Type*} [Field K] [LinearOrder K]

/-- A pointer to a segment of the vector: `bentley_ottmann_segment_intersection.hpp:376`. -/
structure SweepItem (K : Type*) where
  idx : Nat
  seg : Seg K
  deriving DecidableEq

/-- The event queue, a `flat_map` from points to sets of pointers: `bentley_ottmann_segment_intersection.hpp:377`. -/
abbrev EventQueue (K : Type*) := List (P2 K × List (SweepItem K))

/-- `eventQueue[x]`, which makes an entry if there is none: `bentley_ottmann_segment_intersection.hpp:224,394`. -/
def queueTouch (cmp : Cmp K) (x : P2 K) : EventQueue K → EventQueue K
  | [] => [(x, [])]
  | (k, u) :: rest =>
    if lexCompare cmp k x then (k, u) :: queueTouch cmp x rest
    else if lexCompare cmp x k then (x, []) :: (k, u) :: rest
    else (k, u) :: rest

/-- `eventQueue[x].insert(item)`: `bentley_ottmann_segment_intersection.hpp:393`. The items come in the order of their
numbers. -/
def queueInsert (cmp : Cmp K) (x : P2 K) (item : SweepItem K) : EventQueue K → EventQueue K
  | [] => [(x, [item])]
  | (k, u) :: rest =>
    if lexCompare cmp k x then (k, u) :: queueInsert cmp x item rest
    else if lexCompare cmp x k then (x, [item]) :: (k, u) :: rest
    else (k, if item ∈ u then u else u ++ [item]) :: rest

/-- The ends of a segment are put in lexicographical order: `bentley_ottmann_segment_intersection.hpp:390-391`. -/
def orderEnds (cmp : Cmp K) (s : Seg K) : Seg K := if !lexCompare cmp s.s s.e then ⟨s.e, s.s⟩ else s

/-- The pointers to all segments, once their ends are in order. -/
def sweepItems (cmp : Cmp K) (segs : List (Seg K)) : List (SweepItem K) :=
  segs.zipIdx.map fun e => ⟨e.2, orderEnds cmp e.1⟩

/-- The loop that fills the event queue: `bentley_ottmann_segment_intersection.hpp:387-396`. -/
def buildQueue (cmp : Cmp K) : List (SweepItem K) → EventQueue K → EventQueue K
  | [], q => q
  | i :: rest, q => buildQueue cmp rest (queueTouch cmp i.seg.e (queueInsert cmp i.seg.s i q))

/-- The ordinate of a segment on the sweep line through `p`, and the slope:
`bentley_ottmann_segment_intersection.hpp:150-161`. The slope of a vertical segment is not initialised; it is never
read. -/
def sweepOrdinate (vertical : Bool) (s : Seg K) (p : P2 K) : Res (K × K) :=
  if vertical then .ok (p.y, 0) else yOfX s.s s.e p.x

/-- `sweepline_ordinate_compare::operator()`: `bentley_ottmann_segment_intersection.hpp:45-75,142-186`; `p` is the current
event. -/
def sweepLess (cmp : Cmp K) (p : P2 K) (a b : SweepItem K) : Res Bool :=
  if a.idx = b.idx then .ok false
  else if seqEquals cmp a.seg.s b.seg.s && seqEquals cmp a.seg.e b.seg.e then .ok false
  else
    let va := cmp.equals a.seg.s.x a.seg.e.x
    let vb := cmp.equals b.seg.s.x b.seg.e.x
    if va && vb then .ok (decide (a.idx < b.idx))
    else if va && isBetween cmp b.seg.s b.seg.e p true then .ok false
    else if vb && isBetween cmp a.seg.s a.seg.e p true then .ok true
    else
      match sweepOrdinate va a.seg p, sweepOrdinate vb b.seg p with
      | .ok (y1, m1), .ok (y2, m2) =>
        if cmp.lt y1 y2 then .ok true
        else if cmp.gt y1 y2 then .ok false
        else if cmp.equals y1 y2 then
          if va || vb then .error .assertFailed
          else if cmp.lt m1 m2 then .ok true
          else if cmp.gt m1 m2 then .ok false
          else .ok (decide (a.idx < b.idx))
        else .ok (decide (a.idx < b.idx))
      | .error f, _ => .error f
      | _, .error f => .error f

/-- `sweep_line::insert`: `bentley_ottmann_sweep.hpp:42`, a `std::multiset`; an item goes behind those that are equivalent
to it. -/
def sweepInsert (cmp : Cmp K) (p : P2 K) (i : SweepItem K) : List (SweepItem K) → Res (List (SweepItem K))
  | [] => .ok [i]
  | j :: rest =>
    match sweepLess cmp p i j with
    | .error f => .error f
    | .ok true => .ok (i :: j :: rest)
    | .ok false =>
      match sweepInsert cmp p i rest with
      | .error f => .error f
      | .ok r => .ok (j :: r)

/-- The loop that inserts items: `bentley_ottmann_segment_intersection.hpp:284-285`. -/
def sweepInsertAll (cmp : Cmp K) (p : P2 K) : List (SweepItem K) → List (SweepItem K) → Res (List (SweepItem K))
  | [], sweep => .ok sweep
  | i :: rest, sweep =>
    match sweepInsert cmp p i sweep with
    | .error f => .error f
    | .ok sweep => sweepInsertAll cmp p rest sweep

/-- `process_new_events::operator()`: `bentley_ottmann_segment_intersection.hpp:206-227`. `cap` is the capacity of the
event queue. To grow beyond it moves the elements, and the iterator and the reference to the current event, which
`bentley_ottmann_sweep` uses afterwards (`bentley_ottmann_sweep.hpp:95`), are invalid: that is `outOfRange`. -/
def processNew (cmp : Cmp K) (cap : Nat) (p : P2 K) (a b : SweepItem K) (q : EventQueue K) : Res (EventQueue K) :=
  if a.idx = b.idx then .ok q
  else
    match segSegIntersection cmp a.seg.s a.seg.e b.seg.s b.seg.e with
    | .error f => .error f
    | .ok (ty, pts) =>
      if ty = .nonCrossing then .ok q
      else
        match pts with
        | [] => .error .outOfRange
        | x :: _ =>
          if cmp.gt x.x p.x || (cmp.equals x.x p.x && cmp.gt x.y p.y) then
            if (queueTouch cmp x q).length ≤ cap then .ok (queueTouch cmp x q) else .error .outOfRange
          else .ok q

/-- `sweep_line::lower_bound` for the segment of `lower_bound_for_event`: `bentley_ottmann_segment_intersection.hpp:348-359`.
The items in front of the position, and the others. -/
def sweepLowerBound (cmp : Cmp K) (p : P2 K) (i : SweepItem K) :
    List (SweepItem K) → Res (List (SweepItem K) × List (SweepItem K))
  | [] => .ok ([], [])
  | j :: rest =>
    match sweepLess cmp p j i with
    | .error f => .error f
    | .ok false => .ok ([], j :: rest)
    | .ok true =>
      match sweepLowerBound cmp p i rest with
      | .error f => .error f
      | .ok (l, r) => .ok (j :: l, r)

/-- The two loops that look for the first and the last item of `UC`: `bentley_ottmann_segment_intersection.hpp:304-324`.
The first item of the sweep line is passed over. The result is the item and the one before it. -/
def firstPair (uc : List (SweepItem K)) : List (SweepItem K) → Option (SweepItem K × SweepItem K)
  | a :: b :: rest => if b ∈ uc then some (a, b) else firstPair uc (b :: rest)
  | _ => none

/-- New events for the pair that was found, if there is one: `bentley_ottmann_segment_intersection.hpp:310,321`. -/
def processPair (cmp : Cmp K) (cap : Nat) (p : P2 K) (pair : Option (SweepItem K × SweepItem K)) (q : EventQueue K) :
    Res (EventQueue K) :=
  match pair with
  | some (a, b) => processNew cmp cap p a b q
  | none => .ok q

/-- The last part of `handle_event`: `bentley_ottmann_segment_intersection.hpp:289-325`. The address of the segment in
`lower_bound_for_event` differs from that of all segments; it is the number `n`. -/
def newEvents (cmp : Cmp K) (cap n : Nat) (p : P2 K) (uc sweep : List (SweepItem K)) (q : EventQueue K) :
    Res (EventQueue K) :=
  if sweep.length < 2 then .ok q
  else if uc.isEmpty then
    match sweepLowerBound cmp p ⟨n, ⟨p, ⟨p.x + 1, p.y⟩⟩⟩ sweep with
    | .error f => .error f
    | .ok (l, r) =>
      match l.getLast?, r with
      | some a, b :: _ => processNew cmp cap p a b q
      | _, _ => .ok q
  else
    match processPair cmp cap p (firstPair uc sweep) q with
    | .error f => .error f
    | .ok q => processPair cmp cap p ((firstPair uc sweep.reverse).map Prod.swap) q

/-- `sweep_event_handler::handle_event`: `bentley_ottmann_segment_intersection.hpp:243-326`. `p` and `u` are the event,
which still is in the queue. The result is the queue, the sweep line and the set `LUC`. -/
def handleEvent (cmp : Cmp K) (cap : Nat) (items : List (SweepItem K)) (q : EventQueue K) (sweep : List (SweepItem K))
    (p : P2 K) (u : List (SweepItem K)) : Res (EventQueue K × List (SweepItem K) × List (SweepItem K)) :=
  let l := items.filter fun x => decide (x ∈ sweep) && seqEquals cmp p x.seg.e
  let c := items.filter fun x => decide (x ∈ sweep) && (!seqEquals cmp p x.seg.e &&
    (isBetween cmp x.seg.s x.seg.e p true && !seqEquals cmp p x.seg.s))
  let uc := items.filter fun x => decide (x ∈ u ∨ x ∈ c)
  let luc := items.filter fun x => decide (x ∈ uc ∨ x ∈ l)
  let lc := items.filter fun x => decide (x ∈ l ∨ x ∈ c)
  match sweepInsertAll cmp p uc (lc.foldl (fun s x => s.erase x) sweep) with
  | .error f => .error f
  | .ok sweep =>
    match newEvents cmp cap items.length p uc sweep q with
    | .error f => .error f
    | .ok q => .ok (q, sweep, luc)

/-- `bentley_ottmann_sweep`: `bentley_ottmann_sweep.hpp:88-97`. The first argument bounds the number of events; to run out
of it is `diverges`. The result lists the calls of the visitor (`bentley_ottmann_segment_intersection.hpp:273-274`). -/
def sweepLoop (cmp : Cmp K) (cap : Nat) (items : List (SweepItem K)) :
    Nat → EventQueue K → List (SweepItem K) → Res (List (P2 K × List Nat))
  | _, [], _ => .ok []
  | 0, _ :: _, _ => .error .diverges
  | fuel + 1, (p, u) :: rest, sweep =>
    match handleEvent cmp cap items ((p, u) :: rest) sweep p u with
    | .error f => .error f
    | .ok (q, sweep, luc) =>
      match sweepLoop cmp cap items fuel q.tail sweep with
      | .error f => .error f
      | .ok calls => .ok (if luc.length > 1 then (p, luc.map (·.idx)) :: calls else calls)

/-- `bentley_ottmann_segment_intersection`: `bentley_ottmann_segment_intersection.hpp:366-408`. The capacity of the event
queue is what is reserved at line 384. The specialisation of the comparison for integral coordinates is not modelled. -/
def bentleyOttmann (cmp : Cmp K) (fuel : Nat) (segs : List (Seg K)) : Res (List (P2 K × List Nat)) :=
  sweepLoop cmp (3 * segs.length) (sweepItems cmp segs) fuel (buildQueue cmp (sweepItems cmp segs) []) []

end Geometrix
