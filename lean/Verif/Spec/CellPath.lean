import Mathlib.Algebra.Order.Group.Abs
import Mathlib.Algebra.Order.Ring.Int
import Verif.Spec.Geometry
import Verif.Spec.Box

/-!
# Paths of cells
-/

namespace Geometrix.Spec

/-- Two different cells that share an edge or a corner. -/
def Neighbours8 (c e : Int × Int) : Prop := c ≠ e ∧ |c.1 - e.1| ≤ 1 ∧ |c.2 - e.2| ≤ 1

/-- Two different cells that share an edge. -/
def Neighbours4 (c e : Int × Int) : Prop := |c.1 - e.1| + |c.2 - e.2| = 1

/-- The centre of cell `c` is at most half a cell from the line through the centres of `a` and `b`, in
the direction of the axis in which `a` and `b` are closer to each other. -/
def HalfCellFromLine (a b c : Int × Int) : Prop :=
  2 * |(b.1 - a.1) * (c.2 - a.2) - (b.2 - a.2) * (c.1 - a.1)| ≤ max |b.1 - a.1| |b.2 - a.2|

/-- The cell number `c` of the cells of width `w` counted from `(x0, y0)`, with its border, contains
`p`. -/
def InClosedCell {K : Type*} [Field K] [LinearOrder K] (x0 y0 w : K) (c : Nat × Nat) (p : P2 K) :
    Prop :=
  InBox ⟨⟨x0 + c.1 * w, y0 + c.2 * w⟩, ⟨x0 + (c.1 + 1) * w, y0 + (c.2 + 1) * w⟩⟩ p

/-- The interior of the cell number `c` contains `p`. -/
def InOpenCell {K : Type*} [Field K] [LinearOrder K] (x0 y0 w : K) (c : Nat × Nat) (p : P2 K) : Prop :=
  x0 + c.1 * w < p.x ∧ p.x < x0 + (c.1 + 1) * w ∧ y0 + c.2 * w < p.y ∧ p.y < y0 + (c.2 + 1) * w

/-- Two different cells with natural number indices that share an edge or a corner. -/
def Touching (c e : Nat × Nat) : Prop := Neighbours8 (c.1, c.2) (e.1, e.2)

/-- Two cells with natural number indices that share an edge. -/
def ShareEdge (c e : Nat × Nat) : Prop := Neighbours4 (c.1, c.2) (e.1, e.2)

/-- The elements of a list up to and including the first that is not accepted. -/
def stopAfter {α : Type*} (accept : α → Bool) : List α → List α
  | [] => []
  | c :: rest => if accept c then c :: stopAfter accept rest else [c]

end Geometrix.Spec
