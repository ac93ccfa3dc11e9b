import Verif.Model.Orientation

/-!
# The list of half edges that links segments to polylines and polygons

`geometrix/algorithm/doubly_connected_edge_list.hpp`. A vertex is its number; the positions are listed by number. The
lengths stored with the edges are not modelled, they are not read.
-/

set_option linter.unusedSectionVars false

namespace Geometrix

variable {K : Type*} [Field K] [LinearOrder K]

/-- `doubly_connected_edge_list`: `doubly_connected_edge_list.hpp:279-284`. `pts` are the points of the vertices of
`m_halfEdgeList` (and the keys of `m_pointVertexMap`), `edges` its edges; `count` and `links` are the number of vertices
and the edges of `m_componentGraph`. -/
structure EdgeList (K : Type*) where
  pts : List (P2 K)
  edges : List (Nat × Nat)
  count : Nat
  links : List (Nat × Nat)
  deriving DecidableEq

/-- The default constructor: `doubly_connected_edge_list.hpp:71-72`. -/
def EdgeList.empty : EdgeList K := ⟨[], [], 0, []⟩

/-- `add_vertex`: `doubly_connected_edge_list.hpp:260-277`. The map is searched from the front; that is the same if the
comparison is a strict weak order. -/
def EdgeList.addVertex (cmp : Cmp K) (d : EdgeList K) (p : P2 K) : Res (Nat × EdgeList K) :=
  match d.pts.findIdx? (fun k => !lexCompare cmp k p && !lexCompare cmp p k) with
  | some v => .ok (v, d)
  | none =>
    if d.pts.length = d.count then .ok (d.pts.length, { d with pts := d.pts ++ [p], count := d.count + 1 })
    else .error .assertFailed

/-- `add_edge`: `doubly_connected_edge_list.hpp:105-122`. `boost::add_edge` makes the vertices that are missing. -/
def EdgeList.addEdge (cmp : Cmp K) (d : EdgeList K) (source target : P2 K) : Res (EdgeList K) :=
  match d.addVertex cmp source with
  | .error f => .error f
  | .ok (s, d) =>
    match d.addVertex cmp target with
    | .error f => .error f
    | .ok (t, d) => .ok { d with edges := d.edges ++ [(s, t)], count := max d.count (max s t + 1), links := d.links ++ [(s, t)] }

/-- The loop of the constructor: `doubly_connected_edge_list.hpp:100-101`. -/
def EdgeList.addEdges (cmp : Cmp K) : List (Seg K) → EdgeList K → Res (EdgeList K)
  | [], d => .ok d
  | s :: rest, d =>
    match d.addEdge cmp s.s s.e with
    | .error f => .error f
    | .ok d => addEdges cmp rest d

/-- The copy constructor: `doubly_connected_edge_list.hpp:79-85`. The graph of the components is not copied. -/
def EdgeList.copy (d : EdgeList K) : EdgeList K := ⟨d.pts, d.edges, 0, []⟩

/-- The components that an edge touches become one. `n` is the number of vertices. -/
def mergeComponents (n a b : Nat) : List (List Nat) → List (List Nat)
  | [] => []
  | c :: rest =>
    if a ∈ c ∨ b ∈ c then
      (List.range n).filter (fun x => decide (x ∈ c ∨ ∃ r ∈ rest, (a ∈ r ∨ b ∈ r) ∧ x ∈ r)) ::
        rest.filter fun r => decide (¬ (a ∈ r ∨ b ∈ r))
    else c :: mergeComponents n a b rest

/-- `boost::connected_components`, which is not part of the library: the sets of connected vertices, in the order of
their smallest vertices. -/
def connectedComponents (n : Nat) (links : List (Nat × Nat)) : List (List Nat) :=
  links.foldl (fun cs e => mergeComponents n e.1 e.2 cs) ((List.range n).map fun v => [v])

/-- The sets of vertices: `doubly_connected_edge_list.hpp:143-150`. Vertices that the graph of the components does not
have get the number zero. -/
def EdgeList.components (d : EdgeList K) : Res (List (List Nat)) :=
  if d.count = d.pts.length then .ok (connectedComponents d.count d.links)
  else
    match connectedComponents d.count d.links with
    | [] => .error .outOfRange
    | c :: rest => .ok ((c ++ (List.range d.pts.length).filter fun x => decide (d.count ≤ x)) :: rest)

/-- The two loops along the edges: `doubly_connected_edge_list.hpp:172-190,200-218`. `t` is the last vertex, `comp` the
vertices that are left, `acc` the vertices of the sequence. The first argument bounds the number of rounds. -/
def traceEdges (edges : List (Nat × Nat)) : Nat → Nat → List Nat → List Nat → Res (List Nat)
  | _, _, [], acc => .ok acc
  | 0, _, _ :: _, _ => .error .diverges
  | fuel + 1, t, c :: comp, acc =>
    match edges.filter fun e => decide (e.1 = t) with
    | [] => .ok acc
    | [(_, t')] =>
      if t' ∈ c :: comp then traceEdges edges fuel t' ((c :: comp).erase t') (acc ++ [t'])
      else traceEdges edges fuel t' (c :: comp) acc
    | _ => .error .assertFailed

/-- `find_start`: `doubly_connected_edge_list.hpp:247-257`. -/
def findStart (edges : List (Nat × Nat)) (comp : List Nat) : Option Nat :=
  comp.find? fun v => decide (∀ e ∈ edges, e.2 ≠ v)

/-- The loop over the components: `doubly_connected_edge_list.hpp:163-222`. The polylines and the polygons as lists of
vertices. -/
def sequencesOf (edges : List (Nat × Nat)) (fuel : Nat) : List (List Nat) → Res (List (List Nat) × List (List Nat))
  | [] => .ok ([], [])
  | comp :: rest =>
    match findStart edges comp with
    | some t =>
      match traceEdges edges fuel t (comp.erase t) [t] with
      | .error f => .error f
      | .ok l =>
        match sequencesOf edges fuel rest with
        | .error f => .error f
        | .ok (ls, ps) => .ok (l :: ls, ps)
    | none =>
      match comp with
      | [] => .error .outOfRange
      | t :: comp' =>
        match traceEdges edges fuel t comp' [t] with
        | .error f => .error f
        | .ok l =>
          match sequencesOf edges fuel rest with
          | .error f => .error f
          | .ok (ls, ps) => .ok (ls, l :: ps)

/-- The positions of vertices: `doubly_connected_edge_list.hpp:169,184,197,212`. -/
def EdgeList.positions (d : EdgeList K) (l : List Nat) : List (P2 K) := l.filterMap fun v => d.pts[v]?

/-- `calculate_point_sequences`: `doubly_connected_edge_list.hpp:134-223`. The polylines and the polygons. -/
def EdgeList.sequences (d : EdgeList K) (fuel : Nat) : Res (List (List (P2 K)) × List (List (P2 K))) :=
  if d.pts.isEmpty then .ok ([], [])
  else
    match d.components with
    | .error f => .error f
    | .ok comps =>
      match sequencesOf d.edges fuel comps with
      | .error f => .error f
      | .ok (ls, ps) => .ok (ls.map d.positions, ps.map d.positions)

/-- `make_dcel`: `doubly_connected_edge_list.hpp:95-103,288-292`, then `get_polylines` and `get_polygons`. -/
def makeEdgeList (cmp : Cmp K) (fuel : Nat) (segs : List (Seg K)) :
    Res (EdgeList K × List (List (P2 K)) × List (List (P2 K))) :=
  match EdgeList.addEdges cmp segs EdgeList.empty with
  | .error f => .error f
  | .ok d =>
    match d.sequences fuel with
    | .error f => .error f
    | .ok r => .ok (d, r)

end Geometrix
