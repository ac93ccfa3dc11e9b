import Verif.Model.SegmentIntersection

/-!
# Binary space partition trees with the segments at the nodes

`geometrix/algorithm/node_bsp_tree_2d.hpp`. Not modelled: `get_partition` (lines 651-766), which calls
`classify` without its last argument, and `negation` (lines 631-649), which accesses members of a smart
pointer and calls `construct` without a type; neither compiles.
-/

set_option linter.unusedSectionVars false

namespace Geometrix

/-- `point_location_classification`: `point_location_classification.hpp:15-20`. -/
inductive PointLocation where
  | inside
  | boundary
  | outside
  deriving DecidableEq

/-- `node_bsp_tree_2d::classification`, with the two parts which `classify` returns by reference:
`node_bsp_tree_2d.hpp:359-365`. -/
inductive EdgeClass (K : Type*) where
  | crosses (subPos subNeg : P2 K × P2 K)
  | positive
  | negative
  | coincident
  deriving DecidableEq

/-- A tree, or `nil` for an empty pointer to a child. A node holds the splitting segment, the coincident
edges and the two children: `node_bsp_tree_2d.hpp:393-398`. Simplification: the bounds and the cutting
plane are left out, because none of the modelled functions reads them. -/
inductive NodeTree (K : Type*) where
  | nil
  | node (split : P2 K × P2 K) (coincident : List (P2 K × P2 K)) (pos neg : NodeTree K)
  deriving DecidableEq

variable {K : Type*} [Field K] [LinearOrder K]

/-- The part of `classify` after the intersection: `node_bsp_tree_2d.hpp:510-515`. -/
def edgeSide (os oe : Orient) : EdgeClass K :=
  if os = .left ∨ oe = .left then .positive
  else if os = .right ∨ oe = .right then .negative
  else .coincident

/-- The part of `classify` for an edge which crosses the line at `x`: `node_bsp_tree_2d.hpp:467-503`. -/
def edgeCut (cmp : Cmp K) (oe : Orient) (e : P2 K × P2 K) (x : P2 K) : EdgeClass K :=
  if oe = .left then
    if seqEquals cmp e.1 x then .positive
    else if seqEquals cmp e.2 x then .negative
    else .crosses (x, e.2) (e.1, x)
  else
    if seqEquals cmp e.1 x then .negative
    else if seqEquals cmp e.2 x then .positive
    else .crosses (e.1, x) (x, e.2)

/-- `classify`: `node_bsp_tree_2d.hpp:448-516`. -/
def classifyEdge (cmp : Cmp K) (s e : P2 K × P2 K) : Res (EdgeClass K) :=
  let os := getOrientation cmp s.1 s.2 e.1
  let oe := getOrientation cmp s.1 s.2 e.2
  if (os = .left ∧ oe = .right) ∨ (os = .right ∧ oe = .left) then
    match lineSegmentIntersect cmp s.1 s.2 e.1 e.2 with
    | .error f => .error f
    | .ok (.crossing, some x) => .ok (edgeCut cmp oe e x)
    | .ok (.overlapping, _) => .ok .coincident
    | .ok _ => .ok (edgeSide os oe)
  else .ok (edgeSide os oe)

/-- The segments that are sent to the positive child, to the negative child, and those that stay. -/
structure Sorted (K : Type*) where
  pos : List (P2 K × P2 K)
  neg : List (P2 K × P2 K)
  coin : List (P2 K × P2 K)
  deriving DecidableEq

/-- The branches of the loop body: `node_bsp_tree_2d.hpp:283-299` and `422-438`. -/
def Sorted.add (e : P2 K × P2 K) (c : EdgeClass K) (r : Sorted K) : Sorted K :=
  match c with
  | .crosses p n => ⟨p :: r.pos, n :: r.neg, r.coin⟩
  | .positive => ⟨e :: r.pos, r.neg, r.coin⟩
  | .negative => ⟨r.pos, e :: r.neg, r.coin⟩
  | .coincident => ⟨r.pos, r.neg, e :: r.coin⟩

/-- The loop over the range: `node_bsp_tree_2d.hpp:271-300` in `insert` and `411-439` in the
constructor. -/
def sortEdges (cmp : Cmp K) (s : P2 K × P2 K) : List (P2 K × P2 K) → Res (Sorted K)
  | [] => .ok ⟨[], [], []⟩
  | e :: rest =>
    match classifyEdge cmp s e with
    | .error f => .error f
    | .ok c =>
      match sortEdges cmp s rest with
      | .error f => .error f
      | .ok r => .ok (r.add e c)

/-- A partition selector. The list of turns is the position in the tree of the node for which it is
called (the last turn first, `true` for the positive child), so that a selector with a state, such as
the random one (`node_bsp_tree_2d.hpp:71-94`), may answer differently at each node. -/
abbrev EdgeSelector (K : Type*) := List Bool → List (P2 K × P2 K) → Res (P2 K × P2 K)

/-- `first_segment_selector_policy`: `node_bsp_tree_2d.hpp:57-68`. -/
def firstSelector : EdgeSelector K := fun _ l =>
  match l with
  | [] => .error .outOfRange
  | s :: _ => .ok s

/-- `scored_segment_selector_policy::classify`: `node_bsp_tree_2d.hpp:167-220`. The same as the `classify`
of the tree, which also returns the parts. -/
def scoredClassify (cmp : Cmp K) (s e : P2 K × P2 K) : Res (EdgeClass K) := classifyEdge cmp s e

/-- The number of segments in front of, behind, and straddling the plane. -/
structure Tally where
  front : Int
  behind : Int
  straddling : Int
  deriving DecidableEq

/-- The inner loop of the scored selector: `node_bsp_tree_2d.hpp:132-152`. The list is what is left of the
range, `j` the position of its head, `i` the position of `plane`. -/
def tallyLoop (cmp : Cmp K) (plane : P2 K × P2 K) (i : Nat) : Nat → List (P2 K × P2 K) → Tally → Res Tally
  | _, [], t => .ok t
  | j, e :: rest, t =>
    if i = j then tallyLoop cmp plane i (j + 1) rest t
    else
      match scoredClassify cmp e plane with
      | .error f => .error f
      | .ok .coincident => tallyLoop cmp plane i (j + 1) rest { t with front := t.front + 1 }
      | .ok .positive => tallyLoop cmp plane i (j + 1) rest { t with front := t.front + 1 }
      | .ok .negative => tallyLoop cmp plane i (j + 1) rest { t with behind := t.behind + 1 }
      | .ok (.crosses _ _) => tallyLoop cmp plane i (j + 1) rest { t with straddling := t.straddling + 1 }

/-- The score: `node_bsp_tree_2d.hpp:156`, five times `0.8 * numStraddling + 0.2 * abs(...)`.
Simplification: whole numbers in place of `double`. -/
def Tally.score (t : Tally) : Int := 4 * t.straddling + |t.front - t.behind|

/-- The outer loop of the scored selector: `node_bsp_tree_2d.hpp:126-162`. `best` is empty as long as
`bestScore` is the largest number. -/
def scoredEdgeLoop (cmp : Cmp K) (all : List (P2 K × P2 K)) :
    Nat → List (P2 K × P2 K) → Option (Int × (P2 K × P2 K)) → Res (Option (Int × (P2 K × P2 K)))
  | _, [], best => .ok best
  | i, plane :: rest, best =>
    match tallyLoop cmp plane i 0 all ⟨0, 0, 0⟩ with
    | .error f => .error f
    | .ok t =>
      match best with
      | none => scoredEdgeLoop cmp all (i + 1) rest (some (t.score, plane))
      | some b =>
        if t.score < b.1 then scoredEdgeLoop cmp all (i + 1) rest (some (t.score, plane))
        else scoredEdgeLoop cmp all (i + 1) rest (some b)

/-- `scored_segment_selector_policy`: `node_bsp_tree_2d.hpp:97-165`. For an empty range it returns a segment
that was never set. -/
def scoredEdgeSelector (cmp : Cmp K) : EdgeSelector K := fun _ l =>
  match scoredEdgeLoop cmp l 0 l none with
  | .error f => .error f
  | .ok none => .error .outOfRange
  | .ok (some b) => .ok b.2

/-- The constructor: `node_bsp_tree_2d.hpp:401-446`. A splitting segment without length fails the assertion
in `make_line` (line 406, `normalize.hpp:42`). `fuel` bounds the depth of the recursion. -/
def buildNode (cmp : Cmp K) (sel : EdgeSelector K) : Nat → List Bool → List (P2 K × P2 K) → Res (NodeTree K)
  | 0, _, _ => .error .diverges
  | n + 1, path, l =>
    match sel path l with
    | .error f => .error f
    | .ok s =>
      if s.1 = s.2 then .error .assertFailed
      else
        match sortEdges cmp s l with
        | .error f => .error f
        | .ok r =>
          match (if r.pos = [] then .ok .nil else buildNode cmp sel n (true :: path) r.pos) with
          | .error f => .error f
          | .ok p =>
            match (if r.neg = [] then .ok .nil else buildNode cmp sel n (false :: path) r.neg) with
            | .error f => .error f
            | .ok q => .ok (.node s r.coin p q)

/-- The constructor called from outside; the recursion is not deeper than the number of segments,
because the splitting segment goes to neither child. -/
def nodeBsp (cmp : Cmp K) (sel : EdgeSelector K) (l : List (P2 K × P2 K)) : Res (NodeTree K) :=
  buildNode cmp sel (l.length + 1) [] l

/-- `insert`: `node_bsp_tree_2d.hpp:265-317`. On `nil` it is what the parent does when the child does not
exist (lines 302-316): nothing for an empty list, else the constructor. Precondition of the call from
outside: the tree was constructed from a range, so it is not `nil`; a tree made by the default constructor
(lines 234-236) has a splitting segment that was never set. -/
def insertNode (cmp : Cmp K) (sel : EdgeSelector K) : List Bool → NodeTree K → List (P2 K × P2 K) → Res (NodeTree K)
  | path, .nil, l => if l = [] then .ok .nil else buildNode cmp sel (l.length + 1) path l
  | path, .node s coin p q, l =>
    match sortEdges cmp s l with
    | .error f => .error f
    | .ok r =>
      match (if r.pos = [] then .ok p else insertNode cmp sel (true :: path) p r.pos) with
      | .error f => .error f
      | .ok p' =>
        match (if r.neg = [] then .ok q else insertNode cmp sel (false :: path) q r.neg) with
        | .error f => .error f
        | .ok q' => .ok (.node s (coin ++ r.coin) p' q')

/-- `locate_point`: `node_bsp_tree_2d.hpp:518-562`. `ans` is what the parent answers when this child does not
exist (lines 529, 536 and 559); it is not used at the root. -/
def locateNode (cmp : Cmp K) (pt : P2 K) : PointLocation → NodeTree K → PointLocation
  | ans, .nil => ans
  | _, .node s coin p q =>
    match getOrientation cmp s.1 s.2 pt with
    | .left => locateNode cmp pt .inside p
    | .right => locateNode cmp pt .outside q
    | .collinear =>
      if coin.any (fun e => isBetween cmp e.1 e.2 pt true) then .boundary
      else
        match p with
        | .node s' c' p' q' => locateNode cmp pt .boundary (.node s' c' p' q')
        | .nil => locateNode cmp pt .boundary q

/-- `locate_point` of a constructed tree. -/
def locatePoint (cmp : Cmp K) (t : NodeTree K) (pt : P2 K) : PointLocation := locateNode cmp pt .boundary t

/-- Whether both children are missing: `is_leaf`, `node_bsp_tree_2d.hpp:319`, and the condition of line
584. -/
def NodeTree.noChildren : NodeTree K → NodeTree K → Bool
  | .nil, .nil => true
  | _, _ => false

/-- `painters_traversal`: `node_bsp_tree_2d.hpp:577-629`. The segments in the order in which they are
visited. -/
def painters (cmp : Cmp K) (pt : P2 K) : NodeTree K → List (P2 K × P2 K)
  | .nil => []
  | .node s coin p q =>
    if NodeTree.noChildren p q then coin
    else
      match getOrientation cmp s.1 s.2 pt with
      | .left => painters cmp pt q ++ coin ++ painters cmp pt p
      | .right => painters cmp pt p ++ coin ++ painters cmp pt q
      | .collinear => painters cmp pt p ++ painters cmp pt q

/-- The selector answers with one of the segments it is given, as long as these have two different ends:
the contract of `PartitionGeometrySelectorConcept`, `node_bsp_tree_2d.hpp:38-54`. -/
def SelectsEdge (sel : EdgeSelector K) : Prop :=
  ∀ path l, l ≠ [] → (∀ e ∈ l, e.1 ≠ e.2) → ∃ s ∈ l, sel path l = .ok s

/-- The trees that can be made from the segments by the constructor and any number of calls of `insert`,
each with its own selector: `node_bsp_tree_2d.hpp:238-239` and `265-266`. Precondition: the constructor gets
at least one segment, because the selectors read the first one. -/
inductive GrownTree (cmp : Cmp K) : List (P2 K × P2 K) → NodeTree K → Prop where
  | built {sel l t} (hsel : SelectsEdge sel) (hl : l ≠ []) (h : nodeBsp cmp sel l = .ok t) : GrownTree cmp l t
  | insert {sel l more t t'} (hsel : SelectsEdge sel) (h : GrownTree cmp l t)
      (h' : insertNode cmp sel [] t more = .ok t') : GrownTree cmp (l ++ more) t'

end Geometrix
