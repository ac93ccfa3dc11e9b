import Verif.Spec.SelfIntersection

/-!
# Cutting a polyline into pieces
-/

namespace Geometrix.Spec

variable {K : Type*} [Field K] [LinearOrder K]

/-- The vertices, numbered from `i`, with the cut points put in: after each vertex come the cuts with its number, in their
order. Cuts are marked with `true`. -/
def withCuts (cuts : List (Nat × P2 K)) : Nat → List (P2 K) → List (P2 K × Bool)
  | _, [] => []
  | i, p :: l => (p, false) :: (((cuts.filter fun c => c.1 = i).map fun c => (c.2, true)) ++ withCuts cuts (i + 1) l)

/-- The pieces between marked points: a marked point ends one piece and begins the next. -/
def piecesOf : List (P2 K × Bool) → List (List (P2 K))
  | [] => []
  | [(p, _)] => [[p]]
  | (p, _) :: (q, m) :: l =>
    if m then [p, q] :: piecesOf ((q, m) :: l)
    else
      match piecesOf ((q, m) :: l) with
      | [] => []
      | r :: rs => (p :: r) :: rs

/-- A point equal to the next one is left out. -/
def noRepeats [DecidableEq (P2 K)] : List (P2 K) → List (P2 K)
  | p :: q :: l => if p = q then noRepeats (q :: l) else p :: noRepeats (q :: l)
  | l => l

/-- The cut `a` comes before the cut `b`: on an earlier edge, or on the same edge and closer to its start. -/
def CutBefore (poly : List (P2 K)) (a b : Nat × P2 K) : Prop :=
  a.1 < b.1 ∨ (a.1 = b.1 ∧ ∃ A, poly[a.1]? = some A ∧ sqDist A a.2 < sqDist A b.2)

/-- The edges `i` and `j`, from `A` to `B` and from `C` to `D`, count as an intersection of the polyline with itself, and
their common points are those of the segment from `P` to `Q` (which may be a single point): they have a point in common and,
if one follows the other, are on one line. -/
def SelfCut (poly : List (P2 K)) (i j : Nat) (A B C D P Q : P2 K) : Prop :=
  i < j ∧ IsEdge poly i A B ∧ IsEdge poly j C D ∧ (∀ X, Common A B C D X ↔ OnSegment P Q X) ∧
    (j ≠ i + 1 ∨ (OnLine A B C ∧ OnLine A B D))

end Geometrix.Spec
