import Verif.Lemmas.Constants

/-!
# C128: the constants
-/

namespace Geometrix

open Spec

/-- C128 for `double`: the constants are the numbers of the type that are nearest to `π`, `2 π`, `π / 2` and Euler's number, and
the others are exact. Missing from the full statement: `sqrt_2`. -/
theorem C128_double_partial :
    IsNearest 53 ((constPi id : ℚ) : ℝ) Real.pi ∧ IsNearest 53 ((constTwoPi id : ℚ) : ℝ) (2 * Real.pi) ∧
      IsNearest 53 ((constHalfPi id : ℚ) : ℝ) (Real.pi / 2) ∧ IsNearest 53 ((constE id : ℚ) : ℝ) (Real.exp 1) ∧
      (constZero id : ℚ) = 0 ∧ (constOne id : ℚ) = 1 ∧ (constNegativeOne id : ℚ) = -1 ∧ (constTwo id : ℚ) = 2 ∧
      (constOneHalf id : ℚ) = 1 / 2 := by
  have p1 := Real.pi_gt_d20
  have p2 := Real.pi_lt_d20
  have e1 := exp_one_bounds
  have t2 : (constTwoPi id : ℚ) = 7074237752028440 * 2 ^ (-50 : ℤ) := by decide +kernel
  have t3 : (constHalfPi id : ℚ) = 7074237752028440 * 2 ^ (-52 : ℤ) := by decide +kernel
  refine ⟨?_, ?_, ?_, ?_, rfl, rfl, rfl, rfl, rfl⟩
  · have h := isNearest_of_half (p := 53) (m := 7074237752028440) (e := -51) (x := Real.pi) (by norm_num) (by norm_num)
      (by norm_num) (by rw [abs_le]; norm_num at p1 p2 ⊢; constructor <;> linarith)
    rw [constPi, id, pi_double]
    push_cast at h ⊢
    exact h
  · have h := isNearest_of_half (p := 53) (m := 7074237752028440) (e := -50) (x := 2 * Real.pi) (by norm_num) (by norm_num)
      (by norm_num) (by rw [abs_le]; norm_num at p1 p2 ⊢; constructor <;> linarith)
    rw [t2]
    push_cast at h ⊢
    exact h
  · have h := isNearest_of_half (p := 53) (m := 7074237752028440) (e := -52) (x := Real.pi / 2) (by norm_num) (by norm_num)
      (by norm_num) (by rw [abs_le]; norm_num at p1 p2 ⊢; constructor <;> linarith)
    rw [t3]
    push_cast at h ⊢
    exact h
  · have h := isNearest_of_half (p := 53) (m := 6121026514868073) (e := -51) (x := Real.exp 1) (by norm_num) (by norm_num)
      (by norm_num) (by rw [abs_le]; norm_num at e1 ⊢; constructor <;> linarith [e1.1, e1.2])
    rw [constE, id, e_double]
    push_cast at h ⊢
    exact h

/-- C128 for `float`: all constants are the nearest numbers of the type. -/
theorem C128_float :
    IsNearest 24 ((constPi (roundBits 24) : ℚ) : ℝ) Real.pi ∧ IsNearest 24 ((constTwoPi (roundBits 24) : ℚ) : ℝ) (2 * Real.pi) ∧
      IsNearest 24 ((constHalfPi (roundBits 24) : ℚ) : ℝ) (Real.pi / 2) ∧
      IsNearest 24 ((constE (roundBits 24) : ℚ) : ℝ) (Real.exp 1) ∧ IsNearest 24 ((constSqrt2 (roundBits 24) : ℚ) : ℝ) √2 ∧
      (constZero (roundBits 24) : ℚ) = 0 ∧ (constOne (roundBits 24) : ℚ) = 1 ∧ (constNegativeOne (roundBits 24) : ℚ) = -1 ∧
      (constTwo (roundBits 24) : ℚ) = 2 ∧ (constOneHalf (roundBits 24) : ℚ) = 1 / 2 := by
  have p1 := Real.pi_gt_d20
  have p2 := Real.pi_lt_d20
  have e1 := exp_one_bounds
  have s1 := sqrt_two_bounds
  have t1 : (constPi (roundBits 24) : ℚ) = 13176795 * 2 ^ (-22 : ℤ) := by decide +kernel
  have t2 : (constTwoPi (roundBits 24) : ℚ) = 13176795 * 2 ^ (-21 : ℤ) := by decide +kernel
  have t3 : (constHalfPi (roundBits 24) : ℚ) = 13176795 * 2 ^ (-23 : ℤ) := by decide +kernel
  have t4 : (constE (roundBits 24) : ℚ) = 11401300 * 2 ^ (-22 : ℤ) := by decide +kernel
  have t5 : (constSqrt2 (roundBits 24) : ℚ) = 11863283 * 2 ^ (-23 : ℤ) := by decide +kernel
  refine ⟨?_, ?_, ?_, ?_, ?_, by decide +kernel, by decide +kernel, by decide +kernel, by decide +kernel, by decide +kernel⟩
  · have h := isNearest_of_half (p := 24) (m := 13176795) (e := -22) (x := Real.pi) (by norm_num) (by norm_num)
      (by norm_num) (by rw [abs_le]; norm_num at p1 p2 ⊢; constructor <;> linarith)
    rw [t1]
    push_cast at h ⊢
    exact h
  · have h := isNearest_of_half (p := 24) (m := 13176795) (e := -21) (x := 2 * Real.pi) (by norm_num) (by norm_num)
      (by norm_num) (by rw [abs_le]; norm_num at p1 p2 ⊢; constructor <;> linarith)
    rw [t2]
    push_cast at h ⊢
    exact h
  · have h := isNearest_of_half (p := 24) (m := 13176795) (e := -23) (x := Real.pi / 2) (by norm_num) (by norm_num)
      (by norm_num) (by rw [abs_le]; norm_num at p1 p2 ⊢; constructor <;> linarith)
    rw [t3]
    push_cast at h ⊢
    exact h
  · have h := isNearest_of_half (p := 24) (m := 11401300) (e := -22) (x := Real.exp 1) (by norm_num) (by norm_num)
      (by norm_num) (by rw [abs_le]; norm_num at e1 ⊢; constructor <;> linarith [e1.1, e1.2])
    rw [t4]
    push_cast at h ⊢
    exact h
  · have h := isNearest_of_half (p := 24) (m := 11863283) (e := -23) (x := √2) (by norm_num) (by norm_num)
      (by norm_num) (by rw [abs_le]; norm_num at s1 ⊢; constructor <;> linarith [s1.1, s1.2])
    rw [t5]
    push_cast at h ⊢
    exact h

/-- The code violates C128: `sqrt_2<double>()` is not the number of the type `double` nearest to the square root of 2. It is the
one below, although the square root is nearer to the one above. -/
theorem C128_sqrt_refuted : ¬ IsNearest 53 ((constSqrt2 id : ℚ) : ℝ) √2 ∧
    IsNearest 53 (((constSqrt2 id : ℚ) : ℝ) + 2 ^ (-52 : ℤ)) √2 := by
  have s1 := sqrt_two_bounds
  have h0 : ((constSqrt2 id : ℚ) : ℝ) = 6369051672525772 * 2 ^ (-52 : ℤ) := by
    rw [constSqrt2, id, sqrt2_double]; push_cast; rfl
  have h := isNearest_of_half (p := 53) (m := 6369051672525773) (e := -52) (x := √2) (by norm_num) (by norm_num)
      (by norm_num) (by rw [abs_le]; norm_num at s1 ⊢; constructor <;> linarith [s1.1, s1.2])
  rw [h0]
  refine ⟨fun hn => ?_, ?_⟩
  · have := hn.2 _ h.1
    rw [abs_of_neg (by norm_num at s1 ⊢; linarith [s1.1]), abs_of_pos (by norm_num at s1 ⊢; linarith [s1.2])] at this
    norm_num at s1 this
    linarith [s1.1, s1.2]
  · convert h using 1
    norm_num

/-- C128 for `sqrt_2<double>()`: it is below the square root of 2 by less than one unit of the last place, and its square is
less than 2 also when it is rounded. -/
theorem C128_sqrt_partial : ((constSqrt2 id : ℚ) : ℝ) < √2 ∧ √2 - 2 ^ (-52 : ℤ) < ((constSqrt2 id : ℚ) : ℝ) ∧
    roundBits 53 (constSqrt2 id * constSqrt2 id : ℚ) < 2 := by
  have s1 := sqrt_two_bounds
  have h0 : ((constSqrt2 id : ℚ) : ℝ) = 6369051672525772 * 2 ^ (-52 : ℤ) := by
    rw [constSqrt2, id, sqrt2_double]; push_cast; rfl
  rw [h0]
  refine ⟨?_, ?_, by decide +kernel⟩ <;> norm_num at s1 ⊢ <;> linarith [s1.1, s1.2]

/-- The code violates C128: with a type of 64 bits, as `long double` is with GCC on x86, the constants are those of `double` and
not the nearest ones. -/
theorem C128_long_refuted : ¬ IsNearest 64 ((constPi id : ℚ) : ℝ) Real.pi ∧ ¬ IsNearest 64 ((constE id : ℚ) : ℝ) (Real.exp 1) := by
  have p1 := Real.pi_gt_d20
  have p2 := Real.pi_lt_d20
  have e1 := exp_one_bounds
  have h0 : ((constPi id : ℚ) : ℝ) = 7074237752028440 * 2 ^ (-51 : ℤ) := by
    rw [constPi, id, pi_double]; push_cast; rfl
  have h1 : ((constE id : ℚ) : ℝ) = 6121026514868073 * 2 ^ (-51 : ℤ) := by
    rw [constE, id, e_double]; push_cast; rfl
  rw [h0, h1]
  constructor <;> intro hn
  · have := hn.2 ((14488038916154245685 : ℤ) * 2 ^ (-62 : ℤ)) ⟨14488038916154245685, -62, by norm_num, rfl⟩
    rw [abs_of_neg (by norm_num at p1 ⊢; linarith)] at this
    have h3 : |((14488038916154245685 : ℤ) : ℝ) * 2 ^ (-62 : ℤ) - Real.pi| ≤ 1 / 10 ^ 18 := by
      rw [abs_le]; norm_num at p1 p2 ⊢; constructor <;> linarith
    norm_num at p1 this h3
    linarith
  · have := hn.2 ((12535862302449814171 : ℤ) * 2 ^ (-62 : ℤ)) ⟨12535862302449814171, -62, by norm_num, rfl⟩
    rw [abs_of_neg (by norm_num at e1 ⊢; linarith [e1.1])] at this
    have h3 : |((12535862302449814171 : ℤ) : ℝ) * 2 ^ (-62 : ℤ) - Real.exp 1| ≤ 1 / 10 ^ 18 := by
      rw [abs_le]; norm_num at e1 ⊢; constructor <;> linarith [e1.1, e1.2]
    norm_num at e1 this h3
    linarith [e1.1]

end Geometrix
