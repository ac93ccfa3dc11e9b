import Verif.Lemmas.PiCalculator
import Verif.Lemmas.PiBounds

/-!
# C109: the calculator of pi
-/

namespace Geometrix

/-- C109: up to 15000 digits the function comes to an end without an overflow or an access out of range, and its result
has at most `p - 1` digits after the point. -/
theorem C109_decimals (p : Nat) (h0 : 0 < p) (hp : p ≤ 15000) :
    ∃ n : Nat, calculatePi p = .ok ((n : ℚ) / 10 ^ (p - 1)) := by
  have h : p = 1 ∨ p = 2 ∨ p = 3 ∨ p = 4 ∨ p = 5 ∨ p = 6 ∨ 7 ≤ p := by omega
  rcases h with rfl | rfl | rfl | rfl | rfl | rfl | h
  · exact ⟨3, by norm_num [calculatePi]⟩
  · exact ⟨31, by norm_num [calculatePi]⟩
  · exact ⟨314, by norm_num [calculatePi]⟩
  · exact ⟨3141, by norm_num [calculatePi]⟩
  · exact ⟨31415, by norm_num [calculatePi]⟩
  · exact ⟨314159, by norm_num [calculatePi]⟩
  · obtain ⟨n, hn⟩ := piOuter_first p (by omega) hp
    refine ⟨n, ?_⟩
    unfold calculatePi
    split
    all_goals first
      | omega
      | (dsimp only
         rw [if_pos ⟨h0, by omega⟩, hn]
         simp)

example : (0 : Nat) < 1234 ∧ 1234 ≤ 15000 := by decide

/-- C109: for these precisions the result has the first `p` digits of pi. The full statement is for every precision that
the function accepts. Missing: the other precisions; for all of those up to 32, for 33 and for 36 the statement is
wrong, see below. -/
theorem C109_digits_partial : ∀ p ∈ [1, 2, 3, 4, 5, 6, 8, 9, 12, 13, 16, 17, 20, 21, 24, 25, 28, 29, 32],
    ∃ q : ℚ, calculatePi p = .ok q ∧ (q : ℝ) ≤ Real.pi ∧ Real.pi < (q : ℝ) + 1 / 10 ^ (p - 1) := by
  have h1 := pi_gt_d31
  have h2 := pi_lt_d32
  simp only [List.forall_mem_cons, List.not_mem_nil, false_imp_iff, implies_true, and_true]
  refine ⟨?_, ?_, ?_, ?_, ?_, ?_, ?_, ?_, ?_, ?_, ?_, ?_, ?_, ?_, ?_, ?_, ?_, ?_, ?_⟩
  · exact ⟨3 / 1, by norm_num [calculatePi], by norm_num; linarith, by norm_num; linarith⟩
  · exact ⟨31 / 10, by norm_num [calculatePi], by norm_num; linarith, by norm_num; linarith⟩
  · exact ⟨314 / 100, by norm_num [calculatePi], by norm_num; linarith, by norm_num; linarith⟩
  · exact ⟨3141 / 1000, by norm_num [calculatePi], by norm_num; linarith, by norm_num; linarith⟩
  · exact ⟨31415 / 10000, by norm_num [calculatePi], by norm_num; linarith, by norm_num; linarith⟩
  · exact ⟨314159 / 100000, by norm_num [calculatePi], by norm_num; linarith, by norm_num; linarith⟩
  · exact ⟨_, calculatePi_of (p := 8) (n := 31415926) (d := 10 ^ 7) (by norm_num) (by norm_num)
      (by decide +kernel), by norm_num; linarith, by norm_num; linarith⟩
  · exact ⟨_, calculatePi_of (p := 9) (n := 314159265) (d := 10 ^ 8) (by norm_num) (by norm_num)
      (by decide +kernel), by norm_num; linarith, by norm_num; linarith⟩
  · exact ⟨_, calculatePi_of (p := 12) (n := 314159265358) (d := 10 ^ 11) (by norm_num) (by norm_num)
      (by decide +kernel), by norm_num; linarith, by norm_num; linarith⟩
  · exact ⟨_, calculatePi_of (p := 13) (n := 3141592653589) (d := 10 ^ 12) (by norm_num) (by norm_num)
      (by decide +kernel), by norm_num; linarith, by norm_num; linarith⟩
  · exact ⟨_, calculatePi_of (p := 16) (n := 3141592653589793) (d := 10 ^ 15) (by norm_num) (by norm_num)
      (by decide +kernel), by norm_num; linarith, by norm_num; linarith⟩
  · exact ⟨_, calculatePi_of (p := 17) (n := 31415926535897932) (d := 10 ^ 16) (by norm_num) (by norm_num)
      (by decide +kernel), by norm_num; linarith, by norm_num; linarith⟩
  · exact ⟨_, calculatePi_of (p := 20) (n := 31415926535897932384) (d := 10 ^ 19) (by norm_num) (by norm_num)
      (by decide +kernel), by norm_num; linarith, by norm_num; linarith⟩
  · exact ⟨_, calculatePi_of (p := 21) (n := 314159265358979323846) (d := 10 ^ 20) (by norm_num) (by norm_num)
      (by decide +kernel), by norm_num; linarith, by norm_num; linarith⟩
  · exact ⟨_, calculatePi_of (p := 24) (n := 314159265358979323846264) (d := 10 ^ 23) (by norm_num) (by norm_num)
      (by decide +kernel), by norm_num; linarith, by norm_num; linarith⟩
  · exact ⟨_, calculatePi_of (p := 25) (n := 3141592653589793238462643) (d := 10 ^ 24) (by norm_num) (by norm_num)
      (by decide +kernel), by norm_num; linarith, by norm_num; linarith⟩
  · exact ⟨_, calculatePi_of (p := 28) (n := 3141592653589793238462643383) (d := 10 ^ 27) (by norm_num) (by norm_num)
      (by decide +kernel), by norm_num; linarith, by norm_num; linarith⟩
  · exact ⟨_, calculatePi_of (p := 29) (n := 31415926535897932384626433832) (d := 10 ^ 28) (by norm_num) (by norm_num)
      (by decide +kernel), by norm_num; linarith, by norm_num; linarith⟩
  · exact ⟨_, calculatePi_of (p := 32) (n := 31415926535897932384626433832795) (d := 10 ^ 31) (by norm_num) (by norm_num)
      (by decide +kernel), by norm_num; linarith, by norm_num; linarith⟩

example : (13 : Nat) ∈ [1, 2, 3, 4, 5, 6, 8, 9, 12, 13, 16, 17, 20, 21, 24, 25, 28, 29, 32] := by decide

/-- C109, disagreement: for these precisions the result is too small in the last digits: from the last group of digits
only the first one is taken, and it is put in the last place. With a precision of 7 digits the result is 3.141005. -/
theorem C109_digits_refuted : ∀ p ∈ [7, 10, 11, 14, 15, 18, 19, 22, 23, 26, 27, 30, 31],
    ∃ q : ℚ, calculatePi p = .ok q ∧ (q : ℝ) + 1 / 10 ^ (p - 1) ≤ Real.pi := by
  have h1 := pi_gt_d31
  simp only [List.forall_mem_cons, List.not_mem_nil, false_imp_iff, implies_true, and_true]
  refine ⟨?_, ?_, ?_, ?_, ?_, ?_, ?_, ?_, ?_, ?_, ?_, ?_, ?_⟩
  · exact ⟨_, calculatePi_of (p := 7) (n := 3141005) (d := 10 ^ 6) (by norm_num) (by norm_num)
      (by decide +kernel), by norm_num; linarith⟩
  · exact ⟨_, calculatePi_of (p := 10) (n := 3141592605) (d := 10 ^ 9) (by norm_num) (by norm_num)
      (by decide +kernel), by norm_num; linarith⟩
  · exact ⟨_, calculatePi_of (p := 11) (n := 31415926005) (d := 10 ^ 10) (by norm_num) (by norm_num)
      (by decide +kernel), by norm_num; linarith⟩
  · exact ⟨_, calculatePi_of (p := 14) (n := 31415926535809) (d := 10 ^ 13) (by norm_num) (by norm_num)
      (by decide +kernel), by norm_num; linarith⟩
  · exact ⟨_, calculatePi_of (p := 15) (n := 314159265358009) (d := 10 ^ 14) (by norm_num) (by norm_num)
      (by decide +kernel), by norm_num; linarith⟩
  · exact ⟨_, calculatePi_of (p := 18) (n := 314159265358979302) (d := 10 ^ 17) (by norm_num) (by norm_num)
      (by decide +kernel), by norm_num; linarith⟩
  · exact ⟨_, calculatePi_of (p := 19) (n := 3141592653589793002) (d := 10 ^ 18) (by norm_num) (by norm_num)
      (by decide +kernel), by norm_num; linarith⟩
  · exact ⟨_, calculatePi_of (p := 22) (n := 3141592653589793238406) (d := 10 ^ 21) (by norm_num) (by norm_num)
      (by decide +kernel), by norm_num; linarith⟩
  · exact ⟨_, calculatePi_of (p := 23) (n := 31415926535897932384006) (d := 10 ^ 22) (by norm_num) (by norm_num)
      (by decide +kernel), by norm_num; linarith⟩
  · exact ⟨_, calculatePi_of (p := 26) (n := 31415926535897932384626403) (d := 10 ^ 25) (by norm_num) (by norm_num)
      (by decide +kernel), by norm_num; linarith⟩
  · exact ⟨_, calculatePi_of (p := 27) (n := 314159265358979323846264003) (d := 10 ^ 26) (by norm_num) (by norm_num)
      (by decide +kernel), by norm_num; linarith⟩
  · exact ⟨_, calculatePi_of (p := 30) (n := 314159265358979323846264338302) (d := 10 ^ 29) (by norm_num) (by norm_num)
      (by decide +kernel), by norm_num; linarith⟩
  · exact ⟨_, calculatePi_of (p := 31) (n := 3141592653589793238462643383002) (d := 10 ^ 30) (by norm_num) (by norm_num)
      (by decide +kernel), by norm_num; linarith⟩

/-- The result for 7 digits. -/
example : calculatePi 7 = .ok (3141005 / 1000000) := by
  rw [calculatePi_of (p := 7) (n := 3141005) (d := 1000000) (by norm_num) (by norm_num) (by decide +kernel)]
  norm_num

/-- C109, disagreement: the group of digits 0288, which begins with a zero, is taken to be 2880: for the precisions 33 and
36 the result is larger than pi. -/
theorem C109_zeros_refuted : ∀ p ∈ [33, 36], ∃ q : ℚ, calculatePi p = .ok q ∧ Real.pi + 1 / 10 ^ 32 < (q : ℝ) := by
  have h2 := pi_lt_d32
  simp only [List.forall_mem_cons, List.not_mem_nil, false_imp_iff, implies_true, and_true]
  refine ⟨?_, ?_⟩
  · exact ⟨_, calculatePi_of (p := 33) (n := 314159265358979323846264338327952) (d := 10 ^ 32) (by norm_num) (by norm_num)
      (by decide +kernel), by norm_num; linarith⟩
  · exact ⟨_, calculatePi_of (p := 36) (n := 314159265358979323846264338327952880) (d := 10 ^ 35) (by norm_num) (by norm_num)
      (by decide +kernel), by norm_num; linarith⟩

end Geometrix
