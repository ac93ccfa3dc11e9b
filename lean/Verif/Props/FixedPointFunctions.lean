import Verif.Model.FixedPointFunctions
import Verif.Spec.FixedPointFunctions
import Verif.Props.FixedPoint
import Mathlib.Data.Rat.Floor

/-!
# C138: functions and limits of fixed point numbers
-/

namespace Geometrix

open Spec

section
variable {K : Type*} [Field K] [LinearOrder K] [IsStrictOrderedRing K] [FloorRing K]

/-- With the compile time scales a function is applied to the number without its fraction, and the result is rounded by the rounding policy;
it throws if the result does not fit the format. -/
theorem C138_function (s : Scale) (F : IntTy) (round : K → Int) (f : K → K) (a : Int)
    (hs : (∃ e, s = .binary e) ∨ (∃ r e, 0 < r ∧ s = .generic r e)) (hd : IntTy.i64.Has s.denom) :
    ∃ n, IsTrunc (fixVal s.denom a) n ∧ fixFn s F round f a = numericCast F (round (f (n : K) * s.denom)) := by
  obtain ⟨n, hn, ht⟩ := C39_to_real_partial s a (hs.imp (fun h => ⟨h, hd⟩) (fun h => ⟨h, hd⟩))
  refine ⟨n, ht, ?_⟩
  rw [fixFn, hn]
  refine C39_from_real s F round (f n) ?_
  rcases hs with ⟨e, rfl⟩ | ⟨r, e, _, rfl⟩ <;> exact hd

example : (∃ e, Scale.binary 8 = .binary e) ∧ IntTy.i64.Has (Scale.binary 8).denom := ⟨⟨8, rfl⟩, by decide⟩

/-- So a function is right for numbers that are integers. -/
theorem C138_function_partial (s : Scale) (F : IntTy) (round : K → Int) (f : K → K) (v : Int)
    (hs : (∃ e, s = .binary e) ∨ (∃ r e, 0 < r ∧ s = .generic r e)) (hd : IntTy.i64.Has s.denom) :
    fixVal s.denom (v * s.denom) = v ∧
    fixFn s F round f (v * s.denom) = numericCast F (round (f (v : K) * s.denom)) := by
  have hpos : 0 < s.denom := by
    rcases hs with ⟨e, rfl⟩ | ⟨r, e, hr, rfl⟩
    · exact Nat.two_pow_pos e
    · exact Nat.pow_pos hr
  obtain ⟨n, ht, hn⟩ := C138_function s F round f (v * s.denom) hs hd
  have hv := fixVal_scaled hpos v
  rw [hv] at ht
  have e : n = v := by
    rcases le_total (0 : ℚ) v with h | h
    · obtain ⟨h1, h2⟩ := ht.1 h
      have h1' : n ≤ v := by exact_mod_cast h1
      have h2' : v < n + 1 := by exact_mod_cast h2
      omega
    · obtain ⟨h1, h2⟩ := ht.2 h
      have h1' : n - 1 < v := by exact_mod_cast h1
      have h2' : v ≤ n := by exact_mod_cast h2
      omega
  exact ⟨hv, by rw [hn, e]⟩

/-- The rounding policies keep integers. -/
theorem C138_rounding_integers (k : Int) : roundHalfToEven (k : K) = k ∧ roundTowardZero (k : K) = k ∧
    roundTowardInfinity (k : K) = k ∧ roundTowardNegInfinity (k : K) = k := by
  refine ⟨?_, ?_, ?_, ?_⟩
  · simp [roundHalfToEven]
  · simp [roundTowardZero]
  · simp [roundTowardInfinity]
  · simp [roundTowardNegInfinity]

/-- `floor` is right for numbers that are not negative, `ceil` for those that are not positive. -/
theorem C138_floor_partial (s : Scale) (F : IntTy) (round : K → Int) (hr : ∀ k : Int, round (k : K) = k) (a : Int)
    (hs : (∃ e, s = .binary e) ∨ (∃ r e, 0 < r ∧ s = .generic r e)) (hd : IntTy.i64.Has s.denom) :
    (0 ≤ fixVal s.denom a → ∃ n, IsFloor (fixVal s.denom a) n ∧
      fixFn s F round (fun x => (⌊x⌋ : K)) a = numericCast F (n * s.denom)) ∧
    (fixVal s.denom a ≤ 0 → ∃ n, IsCeil (fixVal s.denom a) n ∧
      fixFn s F round (fun x => (⌈x⌉ : K)) a = numericCast F (n * s.denom)) := by
  constructor
  · intro h
    obtain ⟨n, ht, hn⟩ := C138_function s F round (fun x => (⌊x⌋ : K)) a hs hd
    refine ⟨n, ht.1 h, ?_⟩
    rw [hn]
    have e : (⌊(n : K)⌋ : K) * s.denom = ((n * s.denom : Int) : K) := by
      rw [Int.floor_intCast]; push_cast; ring
    simp only [e, hr]
  · intro h
    obtain ⟨n, ht, hn⟩ := C138_function s F round (fun x => (⌈x⌉ : K)) a hs hd
    refine ⟨n, ht.2 h, ?_⟩
    rw [hn]
    have e : (⌈(n : K)⌉ : K) * s.denom = ((n * s.denom : Int) : K) := by
      rw [Int.ceil_intCast]; push_cast; ring
    simp only [e, hr]

end

/-- Otherwise the functions are wrong: with eight binary places `ceil(1.25)` is 1 and `floor(-1.25)` is -1,
and the square root of 0.25 is 0. -/
theorem C138_function_refuted (sq : ℚ → ℚ) (hsq : sq 0 = 0) :
    fixVal 256 320 = 5 / 4 ∧ fixFn (.binary 8) .i32 (roundHalfToEven : ℚ → Int) (fun x => (⌈x⌉ : ℚ)) 320 = .ok 256 ∧ fixVal 256 256 = 1 ∧
    fixFn (.binary 8) .i32 (roundHalfToEven : ℚ → Int) (fun x => (⌊x⌋ : ℚ)) (-320) = .ok (-256) ∧
    fixVal 256 64 = 1 / 4 ∧ fixFn (.binary 8) .i32 (roundHalfToEven : ℚ → Int) sq 64 = .ok 0 := by
  refine ⟨by norm_num [fixVal], by decide +kernel, by norm_num [fixVal], by decide +kernel, by norm_num [fixVal], ?_⟩
  have e : fixToReal (.binary 8) 64 = .ok 0 := by decide +kernel
  rw [fixFn, e]
  simp only [Int.cast_zero, hsq]
  decide +kernel

/-- `max` is the largest number of the type and `min` the least one. -/
theorem C138_limits (F : IntTy) (d : Nat) (hd : 0 < d) :
    IsLargest (fixNumbers F d) (fixVal d (fixLimitMax F)) ∧ IsLowest (fixNumbers F d) (fixVal d (fixLimitMin F)) := by
  have hb : F.lo ≤ F.hi := by cases F <;> decide
  refine ⟨⟨⟨F.hi, ⟨hb, le_refl _⟩, rfl⟩, ?_⟩, ⟨⟨F.lo, ⟨le_refl _, hb⟩, rfl⟩, ?_⟩⟩
  · rintro y ⟨a, ha, rfl⟩
    exact not_lt.mp fun h => absurd ((fixVal_lt hd).mp h) (not_lt.mpr ha.2)
  · rintro y ⟨a, ha, rfl⟩
    exact not_lt.mp fun h => absurd ((fixVal_lt hd).mp h) (not_lt.mpr ha.1)

/-- `epsilon` is the step after 1, if 1 and the number after it fit the format and the denominator also fits an `int`. -/
theorem C138_epsilon_partial (s : Scale) (F : IntTy) (hs : ScaleFits s F) (h32 : IntTy.i32.Has s.denom) (hF : F.Has (s.denom + 1)) :
    ∃ a, fixLimitEpsilon s F = .ok a ∧ IsEpsilon (fixNumbers F s.denom) (fixVal s.denom a) := by
  have hd := denom_pos hs
  have hone : fixVal s.denom (s.denom : Int) = 1 := by
    have := fixVal_scaled hd 1
    rw [one_mul] at this
    rw [this]; rfl
  have hlo : F.lo ≤ 0 := by cases F <;> decide
  have hF1 : F.Has (s.denom : Int) := ⟨by omega, by have := hF.2; omega⟩
  have hFe : F.Has 1 := ⟨by omega, by have := hF.2; omega⟩
  have hfrom : fixFromInt s F .i32 1 = .ok (s.denom : Int) := by
    have h32' : IntTy.i32.Has (1 * s.denom) := by rwa [one_mul]
    unfold fixFromInt
    rw [scaleUp_ok hs (by cases F <;> decide) (has_widen h32'), numericCast_has h32', one_mul]
    exact numericCast_has hF1
  refine ⟨1, ?_, ⟨(s.denom : Int), hF1, hone.symm⟩, ⟨(s.denom : Int) + 1, hF, ?_⟩, ?_, ?_⟩
  · rw [fixLimitEpsilon, hfrom]
    simp only
    rw [fixAdd_ok hF]
    simp only
    have := fixSub_ok (F := F) (a := (s.denom : Int) + 1) (b := s.denom) (by rwa [add_sub_cancel_left])
    rw [this, add_sub_cancel_left]
  · rw [fixVal_add, hone]
  · have : fixVal s.denom 0 < fixVal s.denom 1 := (fixVal_lt hd).mpr one_pos
    simpa [fixVal] using this
  · rintro y ⟨a, ha, rfl⟩ hy
    rw [← hone, fixVal_lt hd] at hy
    rw [← hone, ← fixVal_add]
    exact not_lt.mp fun h => by
      have := (fixVal_lt hd).mp h
      omega

example : ScaleFits (.binary 8) .i32 ∧ IntTy.i32.Has (Scale.binary 8).denom ∧ IntTy.i32.Has ((Scale.binary 8).denom + 1) := by
  refine ⟨?_, by decide, by decide⟩
  show 8 < _; decide

/-- `round_error` is one half, for even denominators. -/
theorem C138_round_error {K : Type*} [Field K] [LinearOrder K] [IsStrictOrderedRing K] [FloorRing K] (s : Scale) (F : IntTy)
    (round : K → Int) (hr : ∀ k : Int, round (k : K) = k) (hs : (∃ e, s = .binary e) ∨ (∃ r e, 0 < r ∧ s = .generic r e))
    (hd : IntTy.i64.Has s.denom) (m : Nat) (hm : 0 < m) (hdm : s.denom = 2 * m) (hF : F.Has m) :
    ∃ a, fixLimitRoundError s F round = .ok a ∧ fixVal s.denom a = 1 / 2 := by
  refine ⟨m, ?_, ?_⟩
  · rw [fixLimitRoundError, C39_from_real s F round (1 / 2) (by rcases hs with ⟨e, rfl⟩ | ⟨r, e, _, rfl⟩ <;> exact hd)]
    have e : (1 / 2 : K) * s.denom = ((m : Int) : K) := by
      rw [hdm]; push_cast; ring
    rw [e, hr]
    exact numericCast_has hF
  · have : (m : ℚ) ≠ 0 := by exact_mod_cast hm.ne'
    rw [hdm, fixVal]
    push_cast
    field_simp

example : (Scale.binary 8).denom = 2 * 128 ∧ IntTy.i32.Has 128 := by decide

/-- With 40 binary places in 64 bits `epsilon` throws, though 1 and the number after it are numbers of the type: the number 1 is converted
from an `int`. -/
theorem C138_epsilon_refuted : ScaleFits (.binary 40) .i64 ∧ IntTy.i64.Has ((Scale.binary 40).denom + 1) ∧
    fixLimitEpsilon (.binary 40) .i64 = .error .thrown := by
  refine ⟨?_, by decide, by decide +kernel⟩
  show 40 < _; decide

/-- `min` is never the smallest positive number, nor is `denorm_min`, as the standard says for types that are not integer types; `is_integer` is
false. -/
theorem C138_min_refuted (F : IntTy) (d : Nat) (hd : 0 < d) (s : Scale) (hs : ScaleFits s F) :
    ¬ IsSmallestPositive (fixNumbers F d) (fixVal d (fixLimitMin F)) ∧
    fixLimitZero s F = .ok 0 ∧ ¬ IsSmallestPositive (fixNumbers F d) (fixVal d 0) := by
  have hlo : F.lo ≤ 0 := by cases F <;> decide
  have hhi : 0 ≤ F.hi := by cases F <;> decide
  have h0 : fixVal d 0 = 0 := by simp [fixVal]
  refine ⟨fun h => ?_, ?_, fun h => ?_⟩
  · have : fixVal d 0 < fixVal d (fixLimitMin F) := by rw [h0]; exact h.2.1
    have := (fixVal_lt hd).mp this
    unfold fixLimitMin at this
    omega
  · have e32 : IntTy.i32.Has (0 * s.denom) := by rw [zero_mul]; decide
    unfold fixLimitZero fixFromInt
    rw [scaleUp_ok hs (by cases F <;> decide) (has_widen e32), numericCast_has e32, zero_mul]
    exact numericCast_has ⟨hlo, hhi⟩
  · have := h.2.1
    rw [h0] at this
    exact lt_irrefl _ this

end Geometrix
