import Verif.Model.Box
import Verif.Spec.Geometry

/-!
# Boxes as sets of points
-/

namespace Geometrix.Spec

variable {K : Type*} [Field K] [LinearOrder K]

/-- `P` is a point of the closed box. -/
def InBox (b : Box K) (P : P2 K) : Prop :=
  b.lo.x ≤ P.x ∧ P.x ≤ b.hi.x ∧ b.lo.y ≤ P.y ∧ P.y ≤ b.hi.y

/-- The low corner is not above the high corner. -/
def ValidBox (b : Box K) : Prop := b.lo.x ≤ b.hi.x ∧ b.lo.y ≤ b.hi.y

/-- `b` is the least closed box that contains all points of the set `S`: it contains them, and every
box that contains them contains `b`. -/
def IsLeastBox (S : P2 K → Prop) (b : Box K) : Prop :=
  (∀ P, S P → InBox b P) ∧
    ∀ c : Box K, (∀ P, S P → InBox c P) → ∀ P, InBox b P → InBox c P

/-- `P` is a point of the closed box in space. -/
def InBox3 (b : Box3 K) (P : P3 K) : Prop :=
  b.lo.x ≤ P.x ∧ P.x ≤ b.hi.x ∧ b.lo.y ≤ P.y ∧ P.y ≤ b.hi.y ∧ b.lo.z ≤ P.z ∧ P.z ≤ b.hi.z

/-- The low corner is not above the high corner. -/
def ValidBox3 (b : Box3 K) : Prop := b.lo.x ≤ b.hi.x ∧ b.lo.y ≤ b.hi.y ∧ b.lo.z ≤ b.hi.z

/-- Squared distance in space. -/
def sqDist3 (A B : P3 K) : K := (A.x - B.x) ^ 2 + (A.y - B.y) ^ 2 + (A.z - B.z) ^ 2

/-- `P` is a point of the closed segment from `A` to `B` in space. -/
def OnSegment3 (A B P : P3 K) : Prop :=
  ∃ t : K, 0 ≤ t ∧ t ≤ 1 ∧ P = A + t • (B - A)

/-- `m` is the minimum of `f` over the elements that satisfy `S`. -/
def IsMinOver {α : Type*} (S : α → Prop) (f : α → K) (m : K) : Prop :=
  (∃ a, S a ∧ f a = m) ∧ ∀ a, S a → m ≤ f a

end Geometrix.Spec
