import Mathlib.Analysis.Real.Pi.Bounds
import Mathlib.Analysis.Complex.ExponentialBounds
import Mathlib.Data.Rat.Floor
import Mathlib.Tactic.Linarith
import Mathlib.Tactic.NormNum
import Mathlib.Tactic.Positivity
import Verif.Spec.Constants
import Verif.Model.Constants

namespace Geometrix

open Spec

/-- A number whose leading bit is set is the nearest one if the error is at most half a unit of its last place. -/
theorem isNearest_of_half {p : Nat} {m e : ℤ} {x : ℝ} (h1 : 2 ^ (p - 1) < m) (h2 : m < 2 ^ p) (hp : 1 ≤ p)
    (hx : |(m : ℝ) * 2 ^ e - x| ≤ 2 ^ e / 2) : IsNearest p (m * 2 ^ e) x := by
  have hm : 0 < m := lt_trans (by positivity) h1
  have he : (0 : ℝ) < 2 ^ e := by positivity
  refine ⟨⟨m, e, by rwa [abs_of_pos hm], rfl⟩, ?_⟩
  rintro _ ⟨k, f, hk, rfl⟩
  by_contra hlt
  push Not at hlt
  have hd : |(k : ℝ) * 2 ^ f - m * 2 ^ e| < 2 ^ e := by
    have := abs_sub_le ((k : ℝ) * 2 ^ f) x (m * 2 ^ e)
    rw [abs_sub_comm x] at this
    linarith
  rcases le_or_gt e f with hef | hef
  · -- both are multiples of `2 ^ e`
    obtain ⟨n, rfl⟩ := Int.le.dest hef
    have h3 : (k : ℝ) * 2 ^ (e + (n : ℤ)) = ((k * 2 ^ n : ℤ) : ℝ) * 2 ^ e := by
      rw [zpow_add₀ (by norm_num), zpow_natCast]; push_cast; ring
    rw [h3, ← sub_mul, abs_mul, abs_of_pos he] at hd
    have h4 : |((k * 2 ^ n : ℤ) : ℝ) - m| < 1 := by
      by_contra h5
      push Not at h5
      nlinarith
    have h5 : k * 2 ^ n = m := by
      have h6 : |k * 2 ^ n - m| < 1 := by exact_mod_cast h4
      rw [Int.abs_lt_one_iff] at h6
      omega
    rw [h3, h5] at hlt
    exact lt_irrefl _ hlt
  · -- the other one has a smaller exponent, so that it is too small
    have h3 : (k : ℝ) * 2 ^ f ≤ (2 ^ p) * 2 ^ (e - 1) := by
      have h4 : (k : ℝ) ≤ 2 ^ p := by exact_mod_cast (le_trans (le_abs_self k) hk.le)
      have h5 : (2 : ℝ) ^ f ≤ 2 ^ (e - 1) := zpow_le_zpow_right₀ (by norm_num) (by omega)
      exact mul_le_mul h4 h5 (by positivity) (by positivity)
    have h4 : ((2 : ℝ) ^ p) * 2 ^ (e - 1) = 2 ^ (p - 1) * 2 ^ e := by
      obtain ⟨q, rfl⟩ : ∃ q, p = q + 1 := ⟨p - 1, by omega⟩
      rw [zpow_sub₀ (by norm_num), Nat.add_sub_cancel, pow_succ]; simp; ring
    have h5 : ((2 : ℝ) ^ (p - 1) + 1) * 2 ^ e ≤ m * 2 ^ e := by
      refine mul_le_mul_of_nonneg_right ?_ he.le
      exact_mod_cast h1
    have h6 := (abs_lt.mp hd).1
    nlinarith

theorem pi_double : roundBits 53 (31415926535897931 / 10 ^ 16 : ℚ) = 7074237752028440 * 2 ^ (-51 : ℤ) := by decide +kernel

theorem e_double : roundBits 53 (27182818284590452 / 10 ^ 16 : ℚ) = 6121026514868073 * 2 ^ (-51 : ℤ) := by decide +kernel

theorem sqrt2_double : roundBits 53 (14142135623730950 / 10 ^ 16 : ℚ) = 6369051672525772 * 2 ^ (-52 : ℤ) := by decide +kernel

theorem sqrt_two_bounds : (1.41421356237309504880 : ℝ) < √2 ∧ √2 < 1.41421356237309504881 := by
  constructor
  · rw [Real.lt_sqrt (by norm_num)]; norm_num
  · rw [Real.sqrt_lt' (by norm_num)]; norm_num

theorem exp_one_bounds : (2.71828182845904523534 : ℝ) < Real.exp 1 ∧ Real.exp 1 < 2.71828182845904523538 := by
  have h := abs_le.mp Real.exp_one_near_20
  norm_num at h ⊢
  constructor <;> linarith [h.1, h.2]

end Geometrix
