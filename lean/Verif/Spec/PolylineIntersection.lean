import Verif.Spec.Polyline
import Verif.Spec.Intersection

/-!
# Visiting intersections
-/

namespace Geometrix.Spec

variable {K : Type*} [Field K] [LinearOrder K]

/-- The visitor is called for one element of the list after the other, until it asks to stop. -/
def callUntil {σ C : Type*} (visit : σ → C → Bool × σ) : σ → List C → σ
  | s, [] => s
  | s, c :: cs => if (visit s c).1 then (visit s c).2 else callUntil visit (visit s c).2 cs

/-- Consecutive points of the polyline differ. -/
def ProperEdges (poly : List (P2 K)) : Prop := ∀ i A B, IsEdge poly i A B → A ≠ B

/-- The segment meets edge number `i` of the polyline. -/
def MeetsEdge (A B : P2 K) (poly : List (P2 K)) (i : Nat) : Prop :=
  ∃ C D P, IsEdge poly i C D ∧ Common A B C D P

/-- Edge `i` of the first polyline meets edge `j` of the second. -/
def EdgesMeet (a b : List (P2 K)) (i j : Nat) : Prop :=
  ∃ A B, IsEdge a i A B ∧ MeetsEdge A B b j

end Geometrix.Spec
