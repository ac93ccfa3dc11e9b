import Verif.Lemmas.FixedPoint

/-!
# C39: fixed point arithmetic
-/

set_option linter.unusedSectionVars false

namespace Geometrix

open Spec

/-- An integer whose scaled value fits its own type and the format is converted exactly, and converting
back gives the integer, to any type that has it. -/
theorem C39_roundtrip (s : Scale) (F T T' : IntTy) (v : Int) (hs : ScaleFits s F)
    (hT : F.promote.bits ≤ T.widen.bits) (h1 : T.Has (v * s.denom)) (h2 : F.Has (v * s.denom))
    (h3 : T'.Has v) :
    ∃ a, fixFromInt s F T v = .ok a ∧ fixVal s.denom a = v ∧ fixToInt s F T' a = .ok v := by
  refine ⟨v * s.denom, ?_, fixVal_scaled (denom_pos hs) v, ?_⟩
  · unfold fixFromInt
    rw [scaleUp_ok hs hT (has_widen h1), numericCast_has h1]
    exact numericCast_has h2
  · unfold fixToInt
    rw [scaleDown_mul hs, numericCast_has h3]

example : ScaleFits (.binary 8) .i32 ∧ fixFromInt (.binary 8) .i32 .i32 (-5) = .ok (-1280) ∧
    fixToInt (.binary 8) .i32 .i32 (-1280) = .ok (-5) := by
  refine ⟨?_, by decide +kernel, by decide +kernel⟩
  show 8 < _; decide

/-- Whenever the conversion of an integer succeeds with a scale that fits, the result stands for that
integer: a wrong number is never made. -/
theorem C39_from_int_sound (s : Scale) (F T : IntTy) (v a : Int) (hs : ScaleFits s F)
    (hT : F.promote.bits ≤ T.widen.bits) (hv : T.widen.Has (v * s.denom))
    (h : fixFromInt s F T v = .ok a) : fixVal s.denom a = v ∧ F.Has a := by
  unfold fixFromInt at h
  rw [scaleUp_ok hs hT hv] at h
  cases hc : numericCast T (v * s.denom) with
  | error f => rw [hc] at h; simp at h
  | ok n =>
    rw [hc] at h
    obtain ⟨-, rfl⟩ := numericCast_ok.1 hc
    obtain ⟨h1, rfl⟩ := numericCast_ok.1 h
    exact ⟨fixVal_scaled (denom_pos hs) v, h1⟩

example : fixFromInt (.generic 10 2) .i64 .i32 7 = .ok 700 := by decide +kernel

/-- The conversion of an integer throws although the number fits the format, because the scaled value is
first cast to the type of the argument. -/
theorem C39_narrow_argument_refuted : ∃ (e : Nat) (v : Int), ScaleFits (.binary e) .i64 ∧
    IntTy.i16.Has v ∧ IntTy.i64.Has (v * 2 ^ e) ∧
    fixFromInt (.binary e) .i64 .i16 v = .error .thrown := by
  refine ⟨8, 1000, ?_, by decide, by decide, by decide +kernel⟩
  show 8 < _; decide

/-- Addition, subtraction and negation are exact when the result fits. -/
theorem C39_add_sub (F : IntTy) (d : Nat) (a b : Int) :
    (F.Has (a + b) → ∃ c, fixAdd F a b = .ok c ∧ fixVal d c = fixVal d a + fixVal d b) ∧
    (F.Has (a - b) → ∃ c, fixSub F a b = .ok c ∧ fixVal d c = fixVal d a - fixVal d b) ∧
    (F.Has (-a) → ∃ c, fixNeg F a = .ok c ∧ fixVal d c = -fixVal d a) :=
  ⟨fun h => ⟨_, fixAdd_ok h, fixVal_add d a b⟩, fun h => ⟨_, fixSub_ok h, fixVal_sub d a b⟩,
    fun h => ⟨_, fixNeg_ok h, fixVal_neg d a⟩⟩

example : IntTy.i16.Has (300 + -20) ∧ fixAdd .i16 300 (-20) = .ok 280 := by decide +kernel

/-- The increment and the decrement change the number by one. -/
theorem C39_inc_dec (s : Scale) (F : IntTy) (a : Int) (hs : ScaleFits s F) (h1 : F.Has s.denom)
    (h64 : IntTy.i64.Has s.denom) :
    (F.Has (a + s.denom) → ∃ c, fixInc s F a = .ok c ∧ fixVal s.denom c = fixVal s.denom a + 1) ∧
    (F.Has (a - s.denom) → ∃ c, fixDec s F a = .ok c ∧ fixVal s.denom c = fixVal s.denom a - 1) := by
  have hup : scaleUp s F .i32 1 = .ok (s.denom : Int) := by
    rw [scaleUp_ok hs (by cases F <;> decide) (by rw [one_mul]; exact h64), one_mul, numericCast_has h1]
  have hone : fixVal s.denom (s.denom : Int) = 1 := by
    have := fixVal_scaled (denom_pos hs) 1
    rw [one_mul] at this
    rw [this]; rfl
  constructor
  · intro h
    refine ⟨_, by unfold fixInc; rw [hup]; exact fixAdd_ok h, ?_⟩
    rw [fixVal_add, hone]
  · intro h
    refine ⟨_, by unfold fixDec; rw [hup]; exact fixSub_ok h, ?_⟩
    rw [fixVal_sub, hone]

example : fixInc (.generic 10 3) .i32 2500 = .ok 3500 ∧ fixDec (.binary 4) .i16 8 = .ok (-8) := by
  decide +kernel

/-- Multiplication, when the product of the raw values fits the wide type: the exact product rounded
down to a multiple of the unit by the binary scales, and rounded toward zero by the others. It throws
when the result does not fit the format. -/
theorem C39_mul (s : Scale) (F : IntTy) (a b : Int) (hs : ScaleFits s F) (h : F.widen.Has (a * b)) :
    ∃ n, fixMul s F a b = numericCast F n ∧
      (∀ e, s = .binary e ∨ s = .binaryRun e →
        IsFloor (fixVal s.denom a * fixVal s.denom b * s.denom) n) ∧
      (∀ r e, s = .generic r e ∨ s = .genericRun r e →
        IsTrunc (fixVal s.denom a * fixVal s.denom b * s.denom) n) := by
  unfold fixMul
  rw [intArith_has h, fixVal_mul _ (denom_pos hs)]
  exact scaleDown_round (scaleFits_widen hs) (a * b)

example : fixMul (.binary 8) .i32 384 (-384) = .ok (-576) ∧ fixMul (.binary 8) .i32 1 (-1) = .ok (-1) ∧
    fixMul (.generic 10 2) .i32 1 (-1) = .ok 0 := by decide +kernel

/-- For the formats of at most 32 bits the product always fits the wide type. -/
theorem C39_mul_wide (F : IntTy) (a b : Int) (ha : F.Has a) (hb : F.Has b) (h32 : F.bits ≤ 32) :
    F.widen.Has (a * b) := by
  unfold IntTy.Has at *
  cases F <;> simp only [IntTy.widen, IntTy.lo, IntTy.hi, IntTy.bits] at * <;>
    first | (exfalso; omega) | (constructor <;> nlinarith [ha.1, ha.2, hb.1, hb.2])

/-- Division by a non zero number, when the scaled numerator fits the wide type: the exact quotient
rounded toward zero. It throws when the result does not fit the format. -/
theorem C39_div (s : Scale) (F : IntTy) (a b : Int) (hs : ScaleFits s F) (hb : b ≠ 0)
    (h : F.widen.Has (a * s.denom)) (hq : F.widen.Has ((a * s.denom).tdiv b)) :
    ∃ n, fixDiv s F a b = numericCast F n ∧
      IsTrunc (fixVal s.denom a / fixVal s.denom b * s.denom) n := by
  unfold fixDiv
  rw [scaleUp_ok hs (bits_widen F) h, numericCast_has h]
  simp only [if_neg hb]
  rw [intArith_has hq]
  refine ⟨_, rfl, ?_⟩
  rw [fixVal_div _ (denom_pos hs)]
  exact isTrunc_tdiv _ hb

example : fixDiv (.binary 8) .i32 256 768 = .ok 85 ∧ fixDiv (.generic 10 2) .i32 (-100) 300 = .ok (-33) := by
  decide +kernel

/-- Division by zero is undefined. -/
theorem C39_div_zero (s : Scale) (F : IntTy) (a : Int) (hs : ScaleFits s F)
    (h : F.widen.Has (a * s.denom)) : fixDiv s F a 0 = .error .divByZero := by
  unfold fixDiv
  rw [scaleUp_ok hs (bits_widen F) h, numericCast_has h]
  simp

/-- The product is not rounded by the rounding policy of the type: with rounding to nearest the result
is off by more than half a unit. -/
theorem C39_mul_rounding_refuted : ∃ (s : Scale) (F : IntTy) (a b c : Int), ScaleFits s F ∧
    fixMul s F a b = .ok c ∧
    roundHalfToEven (fixVal s.denom a * fixVal s.denom b * s.denom) ≠ c := by
  refine ⟨.binary 1, .i32, 1, 3, 1, ?_, by decide +kernel, ?_⟩
  · show 1 < _; decide
  · intro h
    have := (roundHalfToEven_spec (fixVal (Scale.binary 1).denom 1 * fixVal (Scale.binary 1).denom 3 *
      (Scale.binary 1).denom : ℚ)).2 2
    rw [h] at this
    have h1 := this (by decide) (by norm_num [fixVal, Scale.denom, abs_of_pos, abs_of_neg])
    exact absurd h1 (by decide)

/-- The remainder is exact: it is what the division toward zero leaves over. -/
theorem C39_fmod (F : IntTy) (d : Nat) (hd : 0 < d) (a b : Int) (hb : b ≠ 0)
    (hq : F.promote.Has (a.tdiv b)) :
    ∃ c n, fixFmod F a b = .ok c ∧ IsTrunc (fixVal d a / fixVal d b) n ∧
      fixVal d c = fixVal d a - n * fixVal d b := by
  unfold fixFmod
  rw [if_neg hb, intArith_has hq]
  refine ⟨_, a.tdiv b, rfl, ?_, ?_⟩
  · have hd' : (d : ℚ) ≠ 0 := by exact_mod_cast hd.ne'
    have : fixVal d a / fixVal d b = (a : ℚ) / b := by
      unfold fixVal
      rw [div_div_div_cancel_right₀ hd']
    rw [this]
    exact isTrunc_tdiv a hb
  · have := Int.tmod_add_mul_tdiv a b
    have h2 : (a.tmod b : ℚ) = a - b * (a.tdiv b) := by
      have h3 : ((a.tmod b + b * a.tdiv b : Int) : ℚ) = a := by exact_mod_cast this
      push_cast at h3
      linarith
    unfold fixVal
    rw [h2]; ring

example : fixFmod .i32 (-700) 300 = .ok (-100) := by decide +kernel

/-- Comparisons of numbers with the same scale agree with the numbers they stand for. -/
theorem C39_compare (d : Nat) (hd : 0 < d) (a b : Int) :
    (fixLess a b = true ↔ fixVal d a < fixVal d b) ∧ (fixEq a b = true ↔ fixVal d a = fixVal d b) := by
  unfold fixLess fixEq
  rw [fixVal_lt hd, fixVal_inj hd]
  simp

example : fixLess (-3) 2 = true ∧ fixVal 4 (-3) < fixVal 4 2 := by
  refine ⟨by decide, by norm_num [fixVal]⟩

/-- Comparison with an integer, when its scaled value fits its own type and the format. -/
theorem C39_compare_int (s : Scale) (F T : IntTy) (a v : Int) (hs : ScaleFits s F)
    (hT : F.promote.bits ≤ T.widen.bits) (h1 : T.Has (v * s.denom)) (h2 : F.Has (v * s.denom)) :
    ∃ r, fixLessInt s F T a v = .ok r ∧ (r = true ↔ fixVal s.denom a < v) := by
  have hb : fixFromInt s F T v = .ok (v * s.denom) := by
    unfold fixFromInt
    rw [scaleUp_ok hs hT (has_widen h1), numericCast_has h1]
    exact numericCast_has h2
  have hv := fixVal_scaled (denom_pos hs) v
  unfold fixLessInt
  rw [hb]
  refine ⟨_, rfl, ?_⟩
  rw [decide_eq_true_eq, ← hv, fixVal_lt (denom_pos hs)]

example : fixLessInt (.binary 4) .i32 .i32 24 2 = .ok true := by decide +kernel

/-- With run time scales the comparison is wrong for numbers with different scales. -/
theorem C39_run_time_compare_refuted : ∃ (e e' : Nat) (a b : Int),
    fixVal (Scale.binaryRun e).denom a < fixVal (Scale.binaryRun e').denom b ∧ fixLess a b = false := by
  refine ⟨4, 2, 16, 8, ?_, by decide⟩
  norm_num [fixVal, Scale.denom]

/-- The absolute value. -/
theorem C39_abs (s : Scale) (F : IntTy) (a : Int) (hs : ScaleFits s F)
    (hn : F.Has (-a)) :
    ∃ c, fixAbs s F a = .ok c ∧ fixVal s.denom c = |fixVal s.denom a| := by
  have hz : fixFromInt s F .i32 0 = .ok 0 := by
    unfold fixFromInt
    rw [scaleUp_ok (T := .i32) hs (by cases F <;> decide) (by rw [zero_mul]; decide), zero_mul, numericCast_has (by decide)]
    apply numericCast_has
    unfold IntTy.Has
    cases F <;> decide
  have hd : (0 : ℚ) < s.denom := by exact_mod_cast denom_pos hs
  unfold fixAbs
  rw [hz]
  simp only
  by_cases h : a > 0
  · rw [if_pos h]
    refine ⟨a, rfl, ?_⟩
    rw [abs_of_pos]
    exact div_pos (by exact_mod_cast h) hd
  · rw [if_neg h]
    refine ⟨_, fixNeg_ok hn, ?_⟩
    rw [fixVal_neg, abs_of_nonpos]
    exact div_nonpos_of_nonpos_of_nonneg (by exact_mod_cast not_lt.1 h) hd.le

example : fixAbs (.binary 4) .i32 (-24) = .ok 24 := by decide +kernel

section
variable {K : Type*} [Field K] [LinearOrder K] [IsStrictOrderedRing K] [FloorRing K]

/-- The four rounding policies. -/
theorem C39_rounding (v : K) : IsNearestEven v (roundHalfToEven v) ∧ IsTrunc v (roundTowardZero v) ∧
    IsCeil v (roundTowardInfinity v) ∧ IsFloor v (roundTowardNegInfinity v) :=
  ⟨roundHalfToEven_spec v, roundTowardZero_spec v,
    ⟨by unfold roundTowardInfinity; linarith [Int.ceil_lt_add_one v], Int.le_ceil v⟩,
    ⟨Int.floor_le v, Int.lt_floor_add_one v⟩⟩

/-- A floating point number is converted to the multiple of the unit that the rounding policy selects; a
result that does not fit the format throws. -/
theorem C39_from_real (s : Scale) (F : IntTy) (round : K → Int) (v : K)
    (h : match s with
      | .generic _ _ | .binary _ => IntTy.i64.Has s.denom
      | .genericRun _ _ | .binaryRun _ => IntTy.i32.Has s.denom) :
    fixFromReal s F round v = numericCast F (round (v * (s.denom : K))) := by
  unfold fixFromReal scaleUpReal
  cases s <;> simp only [Scale.denom] at * <;> push_cast at h ⊢ <;> rw [if_pos h]

end

example : fixFromReal (.binary 2) .i32 roundHalfToEven (5 / 8 : ℚ) = .ok 2 ∧
    fixFromReal (.binary 2) .i32 roundHalfToEven (7 / 8 : ℚ) = .ok 4 := by decide +kernel

/-- Converting to floating point loses the fraction: the operands of the division are integers. -/
theorem C39_to_real_refuted : ∃ (s : Scale) (a n : Int), fixToReal s a = .ok n ∧
    (n : ℚ) ≠ fixVal s.denom a := by
  refine ⟨.binary 8, 384, 1, by decide +kernel, ?_⟩
  norm_num [fixVal, Scale.denom]

/-- What it returns instead is the number without its fraction, for the compile time scales. -/
theorem C39_to_real_partial (s : Scale) (a : Int)
    (h : (∃ e, s = .binary e) ∧ IntTy.i64.Has s.denom ∨
      (∃ r e, 0 < r ∧ s = .generic r e) ∧ IntTy.i64.Has s.denom) :
    ∃ n, fixToReal s a = .ok n ∧ IsTrunc (fixVal s.denom a) n := by
  rcases h with ⟨⟨e, rfl⟩, h⟩ | ⟨⟨r, e, hr, rfl⟩, h⟩
  · simp only [Scale.denom] at h
    push_cast at h
    refine ⟨a.tdiv (2 ^ e), by simp only [fixToReal, scaleDownReal, if_pos h], ?_⟩
    have := isTrunc_tdiv a (b := (2 : Int) ^ e) (by positivity)
    simpa [fixVal, Scale.denom] using this
  · simp only [Scale.denom] at h
    push_cast at h
    have hne : r ^ e ≠ 0 := pow_ne_zero _ hr.ne'
    refine ⟨a.tdiv (r ^ e), by simp only [fixToReal, scaleDownReal, if_pos h, if_neg hne], ?_⟩
    have := isTrunc_tdiv a (b := (r : Int) ^ e) (by exact_mod_cast hne)
    simpa [fixVal, Scale.denom] using this

example : fixToReal (.generic 10 2) 250 = .ok 2 := by decide +kernel

/-- With the binary run time scale it divides by the exponent instead of the power of two. -/
theorem C39_to_real_run_time_refuted : ∃ (e : Nat) (a n : Int), fixToReal (.binaryRun e) a = .ok n ∧
    fixVal (Scale.binaryRun e).denom a = 4 ∧ n = 10 := by
  refine ⟨3, 32, 10, by decide +kernel, ?_, rfl⟩
  norm_num [fixVal, Scale.denom]

end Geometrix
