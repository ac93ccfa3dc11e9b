import Verif.Model.Sphere

/-!
# What it means to be on a circle, and what a report on two circles must say
-/

namespace Geometrix.Spec

/-- `P` is on the circle with centre `c` and radius `r`. -/
def OnCircle (c : P2 ℝ) (r : ℝ) (P : P2 ℝ) : Prop :=
  (P.x - c.x) ^ 2 + (P.y - c.y) ^ 2 = r ^ 2

/-- `P` is in the closed disc with centre `c` and radius `r`. -/
def InDisc (c : P2 ℝ) (r : ℝ) (P : P2 ℝ) : Prop :=
  (P.x - c.x) ^ 2 + (P.y - c.y) ^ 2 ≤ r ^ 2

/-- The report `res` tells the truth about two circles: each state has the meaning given by the
comment at its declaration, and the points reported are exactly the common points. -/
structure IsCircleReport (cA : P2 ℝ) (rA : ℝ) (cB : P2 ℝ) (rB : ℝ) (res : CircleResult) : Prop where
  /-- the discs are disjoint -/
  disjoint : res.state = .nonIntersecting ↔ ¬ ∃ P, InDisc cA rA P ∧ InDisc cB rB P
  /-- one circle is inside the other: all its points are in the other disc, the circles do not
  meet -/
  inside : res.state = .circumscribed ↔
    ((∀ P, InDisc cA rA P → InDisc cB rB P) ∨ (∀ P, InDisc cB rB P → InDisc cA rA P)) ∧
      ¬ ∃ P, OnCircle cA rA P ∧ OnCircle cB rB P
  /-- the circles are the same -/
  same : res.state = .coincident ↔ cA = cB ∧ rA = rB
  /-- exactly one common point, which is reported -/
  one : res.state = .one → ∃ P, res.p0 = some P ∧
    ∀ X, OnCircle cA rA X ∧ OnCircle cB rB X ↔ X = P
  /-- exactly two common points, which are reported -/
  two : res.state = .two → ∃ P Q, res.p0 = some P ∧ res.p1 = some Q ∧ P ≠ Q ∧
    ∀ X, OnCircle cA rA X ∧ OnCircle cB rB X ↔ X = P ∨ X = Q

end Geometrix.Spec
