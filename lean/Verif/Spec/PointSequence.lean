import Verif.Model.Basic
import Mathlib.Analysis.Real.Sqrt
import Mathlib.Data.List.Rotate

/-!
# Area and length of a closed vertex list, in the usual formulas
-/

namespace Geometrix.Spec

/-- Each vertex paired with the next one, the last with the first; the sum of `f` over the pairs. -/
def cyclicSum {α M : Type*} [AddCommMonoid M] (f : α → α → M) (P : List α) : M :=
  (List.zipWith f P (P.rotate 1)).sum

/-- Each vertex but the last paired with the next one; the sum of `f` over the pairs. -/
def chainSum {α M : Type*} [AddCommMonoid M] (f : α → α → M) (P : List α) : M :=
  (List.zipWith f P P.tail).sum

/-- Twice the signed area of the triangle `A B C`, written out in coordinates. -/
def triangleArea2 {K : Type*} [Field K] (A B C : P2 K) : K :=
  (B.x - A.x) * (C.y - A.y) - (C.x - A.x) * (B.y - A.y)

/-- The distance of two points. -/
noncomputable def dist (A B : P2 ℝ) : ℝ := Real.sqrt ((B.x - A.x) ^ 2 + (B.y - A.y) ^ 2)

end Geometrix.Spec
