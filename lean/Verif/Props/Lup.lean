import Verif.Lemmas.Lup

/-!
# C42: LUP decomposition
-/

set_option linter.unusedSectionVars false

namespace Geometrix

open Spec Finset

variable {K : Type*} [Field K] [LinearOrder K] [IsStrictOrderedRing K]

/-- When the decomposition succeeds, the rearranged rows of the matrix are the product of the lower and the
upper factor, no pivot is zero and no element of the lower factor is greater than one in size. -/
theorem C42_factors (N : Nat) (A lu : Nat → Nat → K) (pi : Nat → Nat)
    (h : lupDecomposition N A = .ok (lu, pi)) :
    IsLup N A lu pi ∧ (∀ i < N, lu i i ≠ 0) ∧ ∀ i < N, ∀ m < i, |lu i m| ≤ 1 := by
  unfold lupDecomposition at h
  rcases lupLoop_spec (A := A) N le_rfl with ⟨e, -⟩ | ⟨lu', pi', e, hI⟩
  · rw [e] at h; simp at h
  · rw [e] at h
    have := Except.ok.inj h
    simp only [Prod.mk.injEq] at this
    obtain ⟨rfl, rfl⟩ := this
    exact ⟨inv_isLup hI (by omega), hI.piv, fun i hi m hm => hI.small m (by omega) i hm hi⟩

/-- A matrix of order three with rows 1 2 0, 2 1 1, 0 3 1. -/
example : (match lupDecomposition 3 (fun i j => ([[1, 2, 0], [2, 1, 1], [0, 3, 1]].getD i []).getD j (0 : ℚ)) with
    | .ok (lu, pi) => lu 0 0 == 2 && lu 1 1 == 3 && lu 2 2 == -1 && pi 0 == 1 && pi 1 == 2 && pi 2 == 0
    | .error _ => false) = true := by decide +kernel

/-- When the decomposition succeeds, `lup_solve` gives the solution of the system. -/
theorem C42_solve (N : Nat) (A lu : Nat → Nat → K) (pi : Nat → Nat)
    (h : lupDecomposition N A = .ok (lu, pi)) (b : Nat → K) :
    ∃ x, lupSolve N lu pi b = .ok x ∧ Solves N A b x := by
  unfold lupDecomposition at h
  rcases lupLoop_spec (A := A) N le_rfl with ⟨e, -⟩ | ⟨lu', pi', e, hI⟩
  · rw [e] at h; simp at h
  · rw [e] at h
    have := Except.ok.inj h
    simp only [Prod.mk.injEq] at this
    obtain ⟨rfl, rfl⟩ := this
    exact inv_solves hI (by omega) hI.piv b

example : (match lupDecomposition 2 (fun i j => ([[1, 2], [3, 4]].getD i []).getD j (0 : ℚ)) with
    | .ok (lu, pi) => match lupSolve 2 lu pi (fun i => [5, 11].getD i 0) with
      | .ok x => x 0 == 1 && x 1 == 2
      | .error _ => false
    | .error _ => false) = true := by decide +kernel

/-- The decomposition throws exactly for a singular matrix; otherwise it succeeds. -/
theorem C42_singular (N : Nat) (A : Nat → Nat → K) :
    (lupDecomposition N A = .error .thrown ↔ SingularMatrix N A) ∧
    ((∃ s, lupDecomposition N A = .ok s) ↔ ¬ SingularMatrix N A) := by
  unfold lupDecomposition
  rcases lupLoop_spec (A := A) N le_rfl with ⟨e, hs⟩ | ⟨lu, pi, e, hI⟩
  · rw [e]; simp [hs]
  · have := inv_regular hI (by omega) hI.piv
    rw [e]; simp [this]

example : lupDecomposition 2 (fun i j => ([[1, 2], [2, 4]].getD i []).getD j (0 : ℚ)) = .error .thrown := by
  have h : (match lupDecomposition 2 (fun i j => ([[1, 2], [2, 4]].getD i []).getD j (0 : ℚ)) with
    | .error .thrown => true
    | _ => false) = true := by decide +kernel
  revert h
  split
  · rename_i e; intro _; exact e
  · intro h; simp at h

/-- The version with loops at run time gives the same factors. -/
theorem C42_loop_factors (N : Nat) (A lu : Nat → Nat → K) (pi : Nat → Nat)
    (h : lupDecompositionLoop N A = .ok (lu, pi)) :
    IsLup N A lu pi ∧ (∀ i < N - 1, lu i i ≠ 0) ∧
    (∀ b, lu (N - 1) (N - 1) ≠ 0 → ∃ x, lupSolve N lu pi b = .ok x ∧ Solves N A b x) ∧
    (∀ b, 0 < N → lu (N - 1) (N - 1) = 0 → lupSolve N lu pi b = .error .divByZero) := by
  unfold lupDecompositionLoop at h
  rcases lupLoop_spec (N := N) (A := A) (N - 1) (by omega) with ⟨e, -⟩ | ⟨lu', pi', e, hI⟩
  · rw [e] at h; simp at h
  · rw [e] at h
    have := Except.ok.inj h
    simp only [Prod.mk.injEq] at this
    obtain ⟨rfl, rfl⟩ := this
    refine ⟨inv_isLup hI (by omega), hI.piv, ?_, ?_⟩
    · intro b hb
      refine inv_solves hI (by omega) (fun i hi => ?_) b
      rcases Nat.lt_or_ge i (N - 1) with h1 | h1
      · exact hI.piv i h1
      · have : i = N - 1 := by omega
        rw [this]; exact hb
    · intro b hN h0
      exact lupBackward_zero _ _ (N - 1) (by omega) h0 N (by omega) le_rfl

example : (match lupDecompositionLoop 2 (fun i j => ([[1, 2], [3, 4]].getD i []).getD j (0 : ℚ)) with
    | .ok (lu, _) => lu 1 1 != 0
    | .error _ => false) = true := by decide +kernel

/-- It does not look at the last pivot: this singular matrix is not reported. -/
theorem C42_loop_singular_refuted : ∃ A : Nat → Nat → ℚ, SingularMatrix 2 A ∧
    ∃ s, lupDecompositionLoop 2 A = .ok s := by
  refine ⟨fun _ _ => 1, ⟨fun j => if j = 0 then 1 else -1, ⟨0, by omega, by simp⟩, ?_⟩, ?_⟩
  · intro i _
    simp [sum_range_succ]
  · rcases lupLoop_spec (N := 2) (A := fun _ _ => (1 : ℚ)) 1 (by omega) with ⟨e, -⟩ | ⟨lu, pi, e, -⟩
    · have h : (match lupLoop 2 (fun _ _ => (1 : ℚ)) 1 with | .ok _ => true | .error _ => false) = true := by
        decide +kernel
      rw [e] at h; simp at h
    · exact ⟨_, e⟩

end Geometrix
