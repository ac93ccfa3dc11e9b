import Verif.Spec.Convex

/-!
# Sorting and the lowest point
-/

namespace Geometrix.Spec

/-- A comparison that is a strict weak order on the elements of a list. -/
def StrictWeakOn {α : Type*} (lt : α → α → Bool) (l : List α) : Prop :=
  (∀ a ∈ l, lt a a = false) ∧
  (∀ a ∈ l, ∀ b ∈ l, ∀ c ∈ l, lt a b = true → lt b c = true → lt a c = true) ∧
  (∀ a ∈ l, ∀ b ∈ l, ∀ c ∈ l, lt a b = false → lt b a = false → lt b c = false → lt c b = false →
    lt a c = false ∧ lt c a = false)

/-- What the standard requires of `std::sort`: it rearranges the elements, and when the comparison is a
strict weak order of them no element is less than an earlier one. -/
def Sorts {α : Type*} (sort : (α → α → Bool) → List α → List α) : Prop :=
  ∀ lt l, (sort lt l).Perm l ∧ (StrictWeakOn lt l → (sort lt l).Pairwise fun a b => lt b a = false)

variable {K : Type*} [Field K] [LinearOrder K]

/-- The point is below the others, or at the same height and on the right of them. -/
def LowestOf (o : P2 K) (l : List (P2 K)) : Prop := ∀ p ∈ l, o.y < p.y ∨ (o.y = p.y ∧ p.x < o.x)

/-- No two points of the list are on one line with `o`. -/
def NoLineThrough (o : P2 K) (l : List (P2 K)) : Prop := l.Pairwise fun a b => area2 o a b ≠ 0

/-- When two points of the list are on one line with `o`, some point is on the right of the line: the first ray in
counterclockwise order holds one point. -/
def OneOnFirstRay (o : P2 K) (l : List (P2 K)) : Prop :=
  l.Pairwise fun a b => area2 o a b = 0 → ∃ c ∈ l, 0 < area2 o c a ∧ 0 < area2 o c b

/-- When two points of the list are on one line with `o`, some point is on the left of the line: the last ray in
counterclockwise order holds one point. -/
def OneOnLastRay (o : P2 K) (l : List (P2 K)) : Prop :=
  l.Pairwise fun a b => area2 o a b = 0 → ∃ d ∈ l, 0 < area2 o a d ∧ 0 < area2 o b d

/-- The point is inside of the segment from `a` to `b`, and not an end of it. -/
def InsideOf (p a b : P2 K) : Prop :=
  ∃ s : K, 0 < s ∧ s < 1 ∧ p.x = a.x + s * (b.x - a.x) ∧ p.y = a.y + s * (b.y - a.y)

end Geometrix.Spec
