import Verif.Spec.Polyline

/-!
# Corners of polylines and polygons
-/

namespace Geometrix.Spec

variable {K : Type*} [Field K] [LinearOrder K]

/-- Every three consecutive elements of the list are related by `p`. -/
def EveryTriple {α : Type*} (p : α → α → α → Prop) : List α → Prop
  | a :: b :: c :: rest => p a b c ∧ EveryTriple p (b :: c :: rest)
  | _ => True

/-- As `EveryTriple`, and also around the end of the list. -/
def EveryCyclicTriple {α : Type*} (p : α → α → α → Prop) (l : List α) : Prop :=
  EveryTriple p (l ++ l.take 2)

/-- The three points lie on a line. -/
def Collinear (A B C : P2 K) : Prop := area2 A B C = 0

/-- Going from `A` by `B` to `C` is a walk that never stops nor turns back: `B` differs from `A` and
`C`, and if the three are collinear then `B` lies between the others. -/
def Onward (A B C : P2 K) : Prop := A ≠ B ∧ B ≠ C ∧ (Collinear A B C → InsideSegment A C B)

/-- The same points make up both curves. -/
def SameCurve (S T : P2 K → Prop) : Prop := ∀ P, S P ↔ T P

/-- The list without the elements at the given positions. -/
def withoutPositions {α : Type*} (l : List α) (positions : List Nat) : List α :=
  (l.zipIdx.filter fun e => e.2 ∉ positions).map Prod.fst

end Geometrix.Spec
