import Verif.Lemmas.FixedPointMixed

/-!
# C145: fixed point numbers mixed with plain numbers
-/

namespace Geometrix

open Spec

/-- A floating point number that is a multiple of the unit and fits the format is compared correctly, from
either side and by every operator, with every rounding policy. -/
theorem C145_compare_partial (s : Scale) (F : IntTy) (round : ℚ → Int) (a b : Int) (v : ℚ) (hd : 0 < s.denom)
    (hp : IsPolicy round) (h : PowerFits s) (hv : v * s.denom = b) (hF : F.Has b) :
    ComparesAs a (fixFromReal s F round v) (fixVal s.denom a) v := by
  rw [fixFromReal_exact hp h hv hF]
  have := comparesAs hd a b
  rwa [fixVal_of hd hv] at this

example : 0 < (Scale.binary 4).denom ∧ PowerFits (.binary 4) ∧ (5 / 8 : ℚ) * ((Scale.binary 4).denom : ℚ) = (10 : Int) ∧
    IntTy.i16.Has 10 ∧ numGe (fixFromReal (.binary 4) .i16 roundHalfToEven (5 / 8 : ℚ)) (-3) = .ok true := by
  refine ⟨by decide, ?_, by norm_num [Scale.denom], by decide, by decide +kernel⟩
  show IntTy.i64.Has _; decide

/-- An integer whose scaled value fits its own type and the format is compared correctly. -/
theorem C145_compare_int_partial (s : Scale) (F T : IntTy) (a v : Int) (hs : ScaleFits s F)
    (hT : F.promote.bits ≤ T.widen.bits) (h1 : T.Has (v * s.denom)) (h2 : F.Has (v * s.denom)) :
    ComparesAs a (fixFromInt s F T v) (fixVal s.denom a) v := by
  rw [fixFromInt_exact hs hT h1 h2]
  have := comparesAs (denom_pos hs) a (v * s.denom)
  rwa [fixVal_scaled (denom_pos hs)] at this

example : numLe (fixFromInt (.generic 10 2) .i32 .i32 3) 300 = .ok true ∧
    mixNe 301 (fixFromInt (.generic 10 2) .i32 .i32 3) = .ok true := by decide +kernel

/-- For any floating point number that can be converted: exactly one of less, equal and greater is the answer;
"less" and "greater" are true only of numbers that are so, and numbers called equal differ by less than the
unit. -/
theorem C145_order (s : Scale) (F : IntTy) (round : ℚ → Int) (a b : Int) (v : ℚ) (hd : 0 < s.denom)
    (hp : IsPolicy round) (h : PowerFits s) (hc : fixFromReal s F round v = .ok b) :
    (mixLess a (.ok b) = .ok true → fixVal s.denom a < v) ∧ (mixGreater a (.ok b) = .ok true → v < fixVal s.denom a) ∧
    (mixEq a (.ok b) = .ok true → |fixVal s.denom a - v| < fixVal s.denom 1) ∧
    ((mixLess a (.ok b) = .ok true ∧ mixEq a (.ok b) = .ok false ∧ mixGreater a (.ok b) = .ok false) ∨
      (mixLess a (.ok b) = .ok false ∧ mixEq a (.ok b) = .ok true ∧ mixGreater a (.ok b) = .ok false) ∨
      (mixLess a (.ok b) = .ok false ∧ mixEq a (.ok b) = .ok false ∧ mixGreater a (.ok b) = .ok true)) := by
  have hb := fixFromReal_round h hc
  obtain ⟨h1, h2⟩ := hp.between (v * s.denom)
  rw [← hb] at h1 h2
  have hdq : (0 : ℚ) < s.denom := by exact_mod_cast hd
  refine ⟨fun e => ?_, fun e => ?_, fun e => ?_, ?_⟩
  · have e1 : a < b := by simpa [mixLess] using e
    have e2 : a < ⌈v * s.denom⌉ := lt_of_lt_of_le e1 h2
    have e3 : (a : ℚ) < v * s.denom := Int.lt_ceil.1 e2
    rw [fixVal, div_lt_iff₀ hdq]; exact e3
  · have e1 : b < a := by simpa [mixGreater] using e
    have e2 : ⌊v * s.denom⌋ < a := lt_of_le_of_lt h1 e1
    have e3 : v * s.denom < (a : ℚ) := Int.floor_lt.1 e2
    rw [fixVal, lt_div_iff₀ hdq]; exact e3
  · have e1 : a = b := by simpa [mixEq] using e
    have e2 : (a : ℚ) < v * s.denom + 1 := by
      have : ((⌈v * s.denom⌉ : Int) : ℚ) < v * s.denom + 1 := Int.ceil_lt_add_one _
      refine lt_of_le_of_lt ?_ this
      exact_mod_cast e1 ▸ h2
    have e3 : v * s.denom - 1 < (a : ℚ) := by
      have : v * s.denom - 1 < ((⌊v * s.denom⌋ : Int) : ℚ) := Int.sub_one_lt_floor _
      refine lt_of_lt_of_le this ?_
      exact_mod_cast e1 ▸ h1
    have hv : v = v * s.denom / s.denom := by rw [mul_div_cancel_right₀ _ hdq.ne']
    rw [fixVal, fixVal, hv, ← sub_div, abs_div, abs_of_pos hdq]
    refine (div_lt_div_iff_of_pos_right hdq).2 ?_
    rw [abs_lt]
    push_cast
    constructor <;> linarith
  · rcases lt_trichotomy a b with e | e | e
    · left; simp [mixLess, mixEq, mixGreater, e, e.ne, e.le]
    · right; left; simp [mixLess, mixEq, mixGreater, e]
    · right; right; simp [mixLess, mixEq, mixGreater, e, e.ne', e.le]

example : fixFromReal (.binary 2) .i32 roundHalfToEven (3 / 5 : ℚ) = .ok 2 ∧ mixLess 1 (.ok 2) = .ok true := by
  decide +kernel

/-- A number that is not a multiple of the unit is compared wrongly: with quarters as the unit, the fixed point
number 1/2 is called equal to 3/5 and to 2/5, not less than 3/5, and not greater than 2/5. -/
theorem C145_compare_refuted :
    fixVal (Scale.binary 2).denom 2 = 1 / 2 ∧
    mixEq 2 (fixFromReal (.binary 2) .i32 roundHalfToEven (3 / 5 : ℚ)) = .ok true ∧
    mixEq 2 (fixFromReal (.binary 2) .i32 roundHalfToEven (2 / 5 : ℚ)) = .ok true ∧
    mixLess 2 (fixFromReal (.binary 2) .i32 roundHalfToEven (3 / 5 : ℚ)) = .ok false ∧
    mixLe 2 (fixFromReal (.binary 2) .i32 roundHalfToEven (2 / 5 : ℚ)) = .ok true := by
  refine ⟨by norm_num [fixVal, Scale.denom], ?_, ?_, ?_, ?_⟩ <;> decide +kernel

/-- A comparison with a number outside the range of the format throws instead of answering. -/
theorem C145_range_refuted (a : Int) :
    mixLess a (fixFromReal (.binary 16) .i32 roundHalfToEven (40000 : ℚ)) = .error .thrown ∧
    mixLess a (fixFromInt (.binary 16) .i32 .i32 40000) = .error .thrown ∧
    (IntTy.i32.Has a → fixVal (Scale.binary 16).denom a < 40000) := by
  refine ⟨?_, ?_, fun h => ?_⟩
  · rw [show fixFromReal (.binary 16) .i32 roundHalfToEven (40000 : ℚ) = .error .thrown by decide +kernel]; rfl
  · rw [show fixFromInt (.binary 16) .i32 .i32 40000 = .error .thrown by decide +kernel]; rfl
  · have h2 : a ≤ 2147483647 := h.2
    have h3 : (a : ℚ) ≤ 2147483647 := by exact_mod_cast h2
    rw [fixVal, div_lt_iff₀ (by norm_num [Scale.denom])]
    norm_num [Scale.denom]
    linarith

/-- Adding a number that is a multiple of the unit to a fixed point number, and subtracting it, are exact when
the result fits. -/
theorem C145_add_partial (s : Scale) (F : IntTy) (round : ℚ → Int) (a b : Int) (v : ℚ) (hd : 0 < s.denom)
    (hp : IsPolicy round) (h : PowerFits s) (hv : v * s.denom = b) (hF : F.Has b) :
    (F.Has (a + b) → ∃ n, mixAdd F a (fixFromReal s F round v) = .ok n ∧ fixVal s.denom n = fixVal s.denom a + v) ∧
    (F.Has (a - b) → ∃ n, mixSub F a (fixFromReal s F round v) = .ok n ∧ fixVal s.denom n = fixVal s.denom a - v) := by
  rw [fixFromReal_exact hp h hv hF, ← fixVal_of hd hv]
  exact ⟨fun h => ⟨_, fixAdd_ok h, fixVal_add _ a b⟩, fun h => ⟨_, fixSub_ok h, fixVal_sub _ a b⟩⟩

example : mixAdd .i16 7 (fixFromReal (.binary 2) .i16 roundTowardZero (-3 / 4 : ℚ)) = .ok 4 ∧
    mixSub .i16 7 (fixFromReal (.binary 2) .i16 roundTowardZero (-3 / 4 : ℚ)) = .ok 10 := by decide +kernel

/-- Multiplying by a number that is a multiple of the unit, and dividing by it: the exact result rounded to the
unit as by the operators of two fixed point numbers. -/
theorem C145_mul_partial (s : Scale) (F : IntTy) (round : ℚ → Int) (a b : Int) (v : ℚ) (hs : ScaleFits s F)
    (hp : IsPolicy round) (h : PowerFits s) (hv : v * s.denom = b) (hF : F.Has b) :
    (F.widen.Has (a * b) → ∃ n, mixMul s F a (fixFromReal s F round v) = numericCast F n ∧
      (∀ e, s = .binary e ∨ s = .binaryRun e → IsFloor (fixVal s.denom a * v * s.denom) n) ∧
      (∀ r e, s = .generic r e ∨ s = .genericRun r e → IsTrunc (fixVal s.denom a * v * s.denom) n)) ∧
    (v ≠ 0 → F.widen.Has (a * s.denom) → F.widen.Has ((a * s.denom).tdiv b) →
      ∃ n, mixDiv s F a (fixFromReal s F round v) = numericCast F n ∧
        IsTrunc (fixVal s.denom a / v * s.denom) n) := by
  have hd := denom_pos hs
  rw [fixFromReal_exact hp h hv hF, ← fixVal_of hd hv]
  refine ⟨fun hm => C39_mul s F a b hs hm, fun hne h1 h2 => C39_div s F a b hs ?_ h1 h2⟩
  rintro rfl
  exact hne (by simp [fixVal])

example : mixMul (.binary 2) .i32 7 (fixFromReal (.binary 2) .i32 roundTowardZero (5 / 4 : ℚ)) = .ok 8 ∧
    mixDiv (.binary 2) .i32 7 (fixFromReal (.binary 2) .i32 roundTowardZero (5 / 4 : ℚ)) = .ok 5 := by decide +kernel

/-- A fixed point number with a compile time scale subtracted from a number that is a multiple of the unit, and
such a number divided by it. -/
theorem C145_left_partial (s : Scale) (F : IntTy) (round : ℚ → Int) (a b : Int) (v : ℚ) (hs : ScaleFits s F)
    (hst : (∃ e, s = .binary e) ∨ (∃ r e, s = .generic r e))
    (hp : IsPolicy round) (h : PowerFits s) (hv : v * s.denom = b) (hF : F.Has b) :
    (F.Has (b - a) → ∃ n, numSub s F (fixFromReal · F round v) a = .ok (s, n) ∧
      fixVal s.denom n = v - fixVal s.denom a) ∧
    (a ≠ 0 → F.widen.Has (b * s.denom) → F.Has ((b * s.denom).tdiv a) →
      ∃ n, numDiv s F (fixFromReal · F round v) a = .ok (s, n) ∧
        IsTrunc (v / fixVal s.denom a * s.denom) n) := by
  have hd := denom_pos hs
  have hc := fixFromReal_exact hp h hv hF
  rw [← fixVal_of hd hv]
  unfold numSub numDiv
  rw [scaleFits_default hst]
  simp only [fixVal_of hd hv, hc]
  refine ⟨fun hm => ?_, fun hne h1 h2 => ?_⟩
  · rw [fixSub_ok hm]
    exact ⟨_, rfl, by rw [fixVal_sub, fixVal_of hd hv]⟩
  · obtain ⟨n, e1, e2⟩ := C39_div s F b a hs hne h1 (has_widen h2)
    have e3 : fixDiv s F b a = .ok ((b * s.denom).tdiv a) := by
      unfold fixDiv
      rw [scaleUp_ok hs (bits_widen F) h1, numericCast_has h1]
      simp only [if_neg hne]
      rw [intArith_has (has_widen h2)]
      exact numericCast_has h2
    rw [e3] at e1
    obtain ⟨-, rfl⟩ := numericCast_ok.1 e1.symm
    rw [e3]
    exact ⟨_, rfl, by rw [← fixVal_of hd hv]; exact e2⟩

example : numSub (.binary 2) .i32 (fixFromReal · .i32 roundTowardZero (5 / 4 : ℚ)) 7 = .ok (.binary 2, -2) ∧
    numDiv (.binary 2) .i32 (fixFromReal · .i32 roundTowardZero (5 : ℚ)) 8 = .ok (.binary 2, 10) := by decide +kernel

/-- With a run time scale the number on the left is given the default scale instead of the scale of the fixed
point number, and the raw values are subtracted: 5 - 1 is 1, and 8 / 2 is 1, in sixteenths. -/
theorem C145_left_refuted :
    fixVal (Scale.binaryRun 4).denom 16 = 1 ∧
    numSub (.binaryRun 4) .i32 (fixFromReal · .i32 roundHalfToEven (5 : ℚ)) 16 = .ok (.binaryRun 2, 4) ∧
    fixVal (Scale.binaryRun 2).denom 4 = 1 ∧
    fixVal (Scale.binaryRun 4).denom 32 = 2 ∧
    numDiv (.binaryRun 4) .i32 (fixFromReal · .i32 roundHalfToEven (8 : ℚ)) 32 = .ok (.binaryRun 2, 4) := by
  refine ⟨by norm_num [fixVal, Scale.denom], ?_, by norm_num [fixVal, Scale.denom], by norm_num [fixVal, Scale.denom], ?_⟩ <;>
    decide +kernel

/-- Converting a fixed point number with a compile time scale to another fixed point type with a compile time
scale, or assigning it to one, gives the number without its fraction; it throws if that does not fit. -/
theorem C145_convert (s s' : Scale) (F' : IntTy) (round : ℚ → Int) (a : Int)
    (hs : (∃ e, s = .binary e) ∨ (∃ r e, 0 < r ∧ s = .generic r e)) (hd : IntTy.i64.Has s.denom)
    (hs' : (∃ e, s' = .binary e) ∨ (∃ r e, s' = .generic r e)) (hd' : IntTy.i64.Has s'.denom) (hp : IsPolicy round) :
    ∃ n : Int, IsTrunc (fixVal s.denom a) n ∧
      (F'.Has (n * s'.denom) → fixConvert s s' F' round a = .ok (s', n * s'.denom) ∧
        fixAssign s s' F' round a = .ok (s', n * s'.denom)) ∧
      (¬ F'.Has (n * s'.denom) → fixConvert s s' F' round a = .error .thrown ∧
        fixAssign s s' F' round a = .error .thrown) := by
  obtain ⟨n, hn, ht⟩ := C39_to_real_partial s a (hs.imp (fun h => ⟨h, hd⟩) (fun h => ⟨h, hd⟩))
  have hPF : PowerFits s' := by rcases hs' with ⟨e, rfl⟩ | ⟨r, e, rfl⟩ <;> exact hd'
  have e1 : fixFromReal s' F' round (n : ℚ) = numericCast F' (n * s'.denom) := by
    rw [C39_from_real s' F' round _ (by unfold PowerFits at hPF; cases s' <;> exact hPF)]
    rw [show (n : ℚ) * (s'.denom : ℚ) = ((n * s'.denom : Int) : ℚ) by push_cast; rfl, hp.int]
  refine ⟨n, ht, fun hF => ?_, fun hF => ?_⟩
  · unfold fixConvert fixAssign
    rw [scaleFits_default hs', hn]
    simp only [e1, numericCast_has hF, and_self]
  · unfold fixConvert fixAssign
    rw [scaleFits_default hs', hn]
    simp only [e1, numericCast, if_neg hF, and_self]

/-- Assigning to a fixed point number, also one with a run time scale, keeps the scale of the target. -/
theorem C145_assign (s s' : Scale) (F' : IntTy) (round : ℚ → Int) (a : Int)
    (hs : (∃ e, s = .binary e) ∨ (∃ r e, 0 < r ∧ s = .generic r e)) (hd : IntTy.i64.Has s.denom)
    (hPF : PowerFits s') (hp : IsPolicy round) :
    ∃ n : Int, IsTrunc (fixVal s.denom a) n ∧
      (F'.Has (n * s'.denom) → fixAssign s s' F' round a = .ok (s', n * s'.denom)) ∧
      (¬ F'.Has (n * s'.denom) → fixAssign s s' F' round a = .error .thrown) := by
  obtain ⟨n, hn, ht⟩ := C39_to_real_partial s a (hs.imp (fun h => ⟨h, hd⟩) (fun h => ⟨h, hd⟩))
  have e1 : fixFromReal s' F' round (n : ℚ) = numericCast F' (n * s'.denom) := by
    rw [C39_from_real s' F' round _ (by unfold PowerFits at hPF; cases s' <;> exact hPF)]
    rw [show (n : ℚ) * (s'.denom : ℚ) = ((n * s'.denom : Int) : ℚ) by push_cast; rfl, hp.int]
  refine ⟨n, ht, fun hF => ?_, fun hF => ?_⟩
  · unfold fixAssign
    rw [hn]
    simp only [e1, numericCast_has hF]
  · unfold fixAssign
    rw [hn]
    simp only [e1, numericCast, if_neg hF]

example : fixAssign (.binary 2) (.binaryRun 5) .i64 roundHalfToEven (K := ℚ) (-12) = .ok (.binaryRun 5, -96) := by
  decide +kernel

/-- So whole numbers are converted exactly. -/
theorem C145_convert_partial (s s' : Scale) (F' : IntTy) (round : ℚ → Int) (a k : Int)
    (hs : (∃ e, s = .binary e) ∨ (∃ r e, 0 < r ∧ s = .generic r e)) (hd : IntTy.i64.Has s.denom)
    (hs' : (∃ e, s' = .binary e) ∨ (∃ r e, 0 < r ∧ s' = .generic r e)) (hd' : IntTy.i64.Has s'.denom) (hp : IsPolicy round)
    (hk : fixVal s.denom a = k) (hF : F'.Has (k * s'.denom)) :
    ∃ b, fixConvert s s' F' round a = .ok (s', b) ∧ fixVal s'.denom b = fixVal s.denom a := by
  obtain ⟨n, h1, h2, -⟩ := C145_convert s s' F' round a hs hd
    (hs'.imp id (fun ⟨r, e, _, h⟩ => ⟨r, e, h⟩)) hd' hp
  rw [hk] at h1
  have e : n = k := by
    rcases le_total (0 : ℚ) k with h | h
    · obtain ⟨g1, g2⟩ := h1.1 h
      have g1' : n ≤ k := by exact_mod_cast g1
      have g2' : k < n + 1 := by exact_mod_cast g2
      omega
    · obtain ⟨g1, g2⟩ := h1.2 h
      have g1' : n - 1 < k := by exact_mod_cast g1
      have g2' : k ≤ n := by exact_mod_cast g2
      omega
  subst e
  have hpos : 0 < s'.denom := by
    rcases hs' with ⟨e, rfl⟩ | ⟨r, e, hr, rfl⟩
    · exact Nat.two_pow_pos e
    · exact Nat.pow_pos hr
  exact ⟨_, (h2 hF).1, by rw [fixVal_scaled hpos, hk]⟩

example : fixConvert (.binary 2) (.generic 10 3) .i64 roundHalfToEven (K := ℚ) (-12) = .ok (.generic 10 3, -3000) := by
  decide +kernel

/-- The fraction is lost although the other type has it: 3/2 in quarters becomes 1 in hundredths. -/
theorem C145_convert_refuted :
    fixVal (Scale.binary 2).denom 6 = 3 / 2 ∧ fixVal (Scale.generic 10 2).denom 150 = 3 / 2 ∧
    fixConvert (.binary 2) (.generic 10 2) .i32 roundHalfToEven (K := ℚ) 6 = .ok (.generic 10 2, 100) := by
  refine ⟨by norm_num [fixVal, Scale.denom], by norm_num [fixVal, Scale.denom], by decide +kernel⟩

end Geometrix
