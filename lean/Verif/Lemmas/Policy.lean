import Verif.Model.Policy

/-!
# Helpers for Policy.lean
-/

set_option linter.unusedSectionVars false

namespace Geometrix



variable {K : Type*} [Field K] [LinearOrder K] [IsStrictOrderedRing K]

theorem absoluteValue_eq (v : K) : absoluteValue v = |v| := by
  unfold absoluteValue
  split_ifs with h
  · rw [abs_of_neg h]
  · rw [abs_of_nonneg (not_lt.mp h)]

theorem fractionEquals_symm (e a u v : K) : fractionEquals e a u v = fractionEquals e a v u := by
  unfold fractionEquals
  by_cases hu : u = 0 <;> by_cases hv : v = 0 <;> simp [hu, hv]
  simp only [equalsWithinTolerance, absoluteValue_eq, abs_sub_comm u v]
  rw [Bool.and_comm]

theorem fractionEquals_refl (e a u : K) : fractionEquals e a u u = true := by
  unfold fractionEquals
  split_ifs with hu
  · simp [equalsZero, absoluteValue_eq, hu]
  · simp [equalsWithinTolerance, absoluteValue_eq]

end Geometrix
