import Verif.Spec.Polyline
import Mathlib.Data.List.Rotate

/-!
# Sides of a polygon and the parity rule
-/

namespace Geometrix.Spec

variable {K : Type*} [Field K] [LinearOrder K]

/-- The sides of a closed polygon: each vertex with the next one, the last with the first. -/
def sides {α : Type*} (poly : List α) : List (α × α) := poly.zip (poly.rotate 1)

open Classical in
/-- The number of sides of a polygon with a given property. -/
noncomputable def sideCount {α : Type*} (poly : List α) (φ : α → α → Prop) : Nat :=
  (sides poly).countP fun e => decide (φ e.1 e.2)

/-- The segment from `p` to `q` crosses the ray that goes from `A` to the right. An end point at the
height of `A` counts as below it. -/
def CrossesRay (A p q : P2 K) : Prop :=
  (p.y ≤ A.y ∧ A.y < q.y ∨ q.y ≤ A.y ∧ A.y < p.y) ∧ ∃ x, A.x < x ∧ OnSegment p q ⟨x, A.y⟩

/-- The segments from `A` to `B` and from `p` to `q` have a point in common. -/
def SegmentsMeet (A B p q : P2 K) : Prop := ∃ P, OnSegment A B P ∧ OnSegment p q P

end Geometrix.Spec
