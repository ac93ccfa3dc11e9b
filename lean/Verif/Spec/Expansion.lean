import Verif.Model.Basic
import Verif.Spec.Rounding

/-!
# Floating point numbers and expansions

An expansion is a list of floating point numbers, the smallest first, that stands for the sum of its components.
-/

set_option linter.unusedSectionVars false

namespace Geometrix.Spec

variable {K : Type*} [Field K] [LinearOrder K]

/-- `x` is a binary floating point number with `p` bits. There are no bounds for the exponent. -/
def IsFloat (p : Nat) (x : K) : Prop := ∃ m e : ℤ, |m| < 2 ^ p ∧ x = m * 2 ^ e

/-- `x` is a multiple of `2 ^ e`: it has no bits below that one. -/
def OnGrid (e : ℤ) (x : K) : Prop := ∃ m : ℤ, x = m * 2 ^ e

/-- The bits of `a` all lie below the last bit of `b`. -/
def Below (a b : K) : Prop := ∃ e : ℤ, OnGrid e b ∧ |a| < 2 ^ e

/-- The bits of `a` all lie below the last bit of `b`, and there is at least one bit between them. -/
def WellBelow (a b : K) : Prop := ∃ e : ℤ, OnGrid e b ∧ |a| < 2 ^ (e - 1)

/-- The bits of `a` all lie below the last bit of `b`, and if `a` comes up to that bit it has no other bit. -/
def HalfBelow (a b : K) : Prop := ∃ e : ℤ, OnGrid e b ∧ |a| ≤ 2 ^ (e - 1)

/-- `x` has one bit. -/
def OneBit (x : K) : Prop := ∃ e : ℤ, |x| = 2 ^ e

/-- An expansion whose components do not overlap. Components that are zero are left out of account. -/
def Nonoverlapping (l : List K) : Prop := (l.filter (· ≠ 0)).Pairwise Below

/-- An expansion whose components do not overlap and are not adjacent. -/
def Nonadjacent (l : List K) : Prop := (l.filter (· ≠ 0)).Pairwise WellBelow

/-- An expansion is strongly nonoverlapping if no two components overlap, components that are adjacent have one bit each, and
no component is adjacent to two others: the definition of J. R. Shewchuk, Adaptive precision floating-point arithmetic,
section 2.4. -/
structure StronglyNonoverlapping (l : List K) : Prop where
  below : Nonoverlapping l
  oneBit : (l.filter (· ≠ 0)).Pairwise fun a b => WellBelow a b ∨ OneBit a ∧ OneBit b
  lonely : ∀ a b c, [a, b, c].Sublist (l.filter (· ≠ 0)) → WellBelow a b ∨ WellBelow b c

/-- An expansion is nearly nonadjacent if no two components overlap, the smaller one of two that are adjacent has one bit, and
no component is adjacent to two others. -/
structure NearlyNonadjacent (l : List K) : Prop where
  halfBelow : (l.filter (· ≠ 0)).Pairwise HalfBelow
  lonely : ∀ a b c, [a, b, c].Sublist (l.filter (· ≠ 0)) → WellBelow a b ∨ WellBelow b c

/-- The coordinates of a point are floating point numbers with `p` bits. -/
def FloatPoint (p : Nat) (a : P2 K) : Prop := IsFloat p a.x ∧ IsFloat p a.y

end Geometrix.Spec
