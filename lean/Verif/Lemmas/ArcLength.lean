import Verif.Lemmas.PolylineSplit

/-!
# Lemmas on the length of polylines
-/

namespace Geometrix

open Spec

theorem dist_triangle' (A B C : P2 ℝ) : Spec.dist A C ≤ Spec.dist A B + Spec.dist B C := by
  unfold Spec.dist
  have key : ∀ a b c d : ℝ, Real.sqrt ((a + c) ^ 2 + (b + d) ^ 2) ≤
      Real.sqrt (a ^ 2 + b ^ 2) + Real.sqrt (c ^ 2 + d ^ 2) := by
    intro a b c d
    rw [Real.sqrt_le_left (by positivity)]
    have h1 := Real.sq_sqrt (show 0 ≤ a ^ 2 + b ^ 2 by positivity)
    have h2 := Real.sq_sqrt (show 0 ≤ c ^ 2 + d ^ 2 by positivity)
    have h3 : a * c + b * d ≤ Real.sqrt (a ^ 2 + b ^ 2) * Real.sqrt (c ^ 2 + d ^ 2) := by
      rw [← Real.sqrt_mul (by positivity)]
      apply Real.le_sqrt_of_sq_le
      nlinarith [sq_nonneg (a * d - b * c)]
    nlinarith
  have := key (B.x - A.x) (B.y - A.y) (C.x - B.x) (C.y - B.y)
  rw [show B.x - A.x + (C.x - B.x) = C.x - A.x by ring, show B.y - A.y + (C.y - B.y) = C.y - A.y by ring] at this
  exact this

theorem chainSum_join {α M : Type*} [AddCommGroup M] (f : α → α → M) (l r : List α) (p : α) :
    chainSum f (l ++ p :: r) = chainSum f (l ++ [p]) + chainSum f (p :: r) := by
  induction l with
  | nil => simp [chainSum_single]
  | cons a l ih =>
    cases l with
    | nil => simp [chainSum_cons, chainSum_single]
    | cons b l =>
      simp only [List.cons_append, chainSum_cons] at ih ⊢
      rw [ih, add_assoc]

theorem dist_le_chainSum (l : List (P2 ℝ)) : ∀ A B : P2 ℝ, Spec.dist A B ≤ chainSum Spec.dist (A :: (l ++ [B])) := by
  induction l with
  | nil => intro A B; simp [chainSum_cons, chainSum_single]
  | cons C l ih =>
    intro A B
    rw [List.cons_append, chainSum_cons]
    exact (dist_triangle' A C B).trans (by linarith [ih C B])

end Geometrix
