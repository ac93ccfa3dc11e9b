import Verif.Spec.Geometry

/-!
# Solids of the plane and their borders

A border is a list of directed segments, its sides. Only coordinates of points are used here, none of
the model's algorithms.
-/

namespace Geometrix.Spec

variable {K : Type*} [Field K] [LinearOrder K]

/-- `x` is a point of one of the sides. -/
def OnBorder (sides : List (P2 K × P2 K)) (x : P2 K) : Prop := ∃ s ∈ sides, OnSegment s.1 s.2 x

/-- The direction of a side turned by a quarter turn to the left. -/
def toLeft (s : P2 K × P2 K) : P2 K := ⟨s.1.y - s.2.y, s.2.x - s.1.x⟩

/-- The sides are the border of the set `solid`, which is to the right of each of them: a way that does not
meet a side does not enter or leave `solid`; next to each point inside a side there are points of `solid`
to the right and points outside `solid` to the left of the side. -/
structure BorderOf (sides : List (P2 K × P2 K)) (solid : P2 K → Prop) : Prop where
  across : ∀ p q : P2 K, (∀ t : K, 0 ≤ t → t ≤ 1 → ¬OnBorder sides (p + t • (q - p))) → (solid p ↔ solid q)
  right : ∀ s ∈ sides, ∀ x, InsideSegment s.1 s.2 x → ∀ δ : K, 0 < δ →
    ∃ e : K, 0 < e ∧ e < δ ∧ ¬OnBorder sides (x - e • toLeft s) ∧ solid (x - e • toLeft s)
  left : ∀ s ∈ sides, ∀ x, InsideSegment s.1 s.2 x → ∀ δ : K, 0 < δ →
    ∃ e : K, 0 < e ∧ e < δ ∧ ¬OnBorder sides (x + e • toLeft s) ∧ ¬solid (x + e • toLeft s)

/-- No side lies on the line through another side. -/
def NoTwoOnALine (sides : List (P2 K × P2 K)) : Prop :=
  sides.Pairwise fun s t => area2 s.1 s.2 t.1 ≠ 0 ∨ area2 s.1 s.2 t.2 ≠ 0

/-- `p` is not on the line through any of the sides. -/
def OffLines (sides : List (P2 K × P2 K)) (p : P2 K) : Prop := ∀ s ∈ sides, area2 s.1 s.2 p ≠ 0

/-- The line through `a` and `b` in normal form: `n` is the left unit normal of the direction from `a` to
`b`, and `d` the distance of the line from the origin in the direction of `n`. -/
def NormalForm (a b n : P2 K) (d : K) : Prop :=
  ∃ l : K, 0 < l ∧ l ^ 2 = sqDist a b ∧ l * n.x = a.y - b.y ∧ l * n.y = b.x - a.x ∧
    d = n.x * a.x + n.y * a.y

/-- The sides of an axis-parallel rectangle, clockwise. -/
def rectSides (x0 x1 y0 y1 : K) : List (P2 K × P2 K) :=
  [(⟨x0, y0⟩, ⟨x0, y1⟩), (⟨x0, y1⟩, ⟨x1, y1⟩), (⟨x1, y1⟩, ⟨x1, y0⟩), (⟨x1, y0⟩, ⟨x0, y0⟩)]

/-- The inside of an axis-parallel rectangle. -/
def InRect (x0 x1 y0 y1 : K) (p : P2 K) : Prop := x0 < p.x ∧ p.x < x1 ∧ y0 < p.y ∧ p.y < y1

end Geometrix.Spec
