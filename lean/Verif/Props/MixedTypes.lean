import Verif.Model.MixedTypes
import Verif.Spec.MixedTypes
import Verif.Lemmas.MixedTypes
import Mathlib.Data.Rat.Floor

/-!
# C139: arithmetic with numbers of two types, C140: integers in arithmetic
-/

namespace Geometrix

open Spec

/-- The comparison of types by width is the one by kind and decimal digits. -/
theorem C139_width (s t : ArithTy) : s.widthLess t = true ↔ Narrower s t := widthLess_iff s t

example : Narrower (.integral .i64) (.floating 24) ∧ Narrower (.floating 24) (.floating 53) :=
  ⟨trivial, 7, by norm_num, by norm_num⟩

/-- It is a strict weak order. -/
theorem C139_order : (∀ s, ¬ Narrower s s) ∧ (∀ s t u, Narrower s t → Narrower t u → Narrower s u) ∧
    ∀ s t u, ¬ Narrower s t → ¬ Narrower t u → ¬ Narrower s u := by
  simp only [narrower_rank, not_lt]
  exact ⟨fun _ => le_rfl, fun _ _ _ h h' => h.trans h', fun _ _ _ h h' => h'.trans h⟩

/-- From the types of a sequence a widest one is selected. -/
theorem C139_sequence (s : ArithTy) (l : List ArithTy) :
    ArithTy.selectSequence s l ∈ s :: l ∧ ∀ t ∈ s :: l, ¬ Narrower (ArithTy.selectSequence s l) t := by
  obtain ⟨h1, h2⟩ := selectSequence_spec s l
  refine ⟨h1, fun t ht => ?_⟩
  rw [narrower_rank, not_lt]
  exact h2 t ht

example : ArithTy.selectSequence (.integral .i32) [.floating 53, .floating 24] = .floating 53 := by decide +kernel

/-- The type selected from two types is one of them, and the type itself if they are the same. Missing: it is not narrower than the other
one, see `C139_two_refuted`. -/
theorem C139_two_partial (s t : ArithTy) :
    (ArithTy.selectTwo s t = s ∨ ArithTy.selectTwo s t = t) ∧ ArithTy.selectTwo s s = s := by
  unfold ArithTy.selectTwo
  refine ⟨?_, if_pos rfl⟩
  split
  · exact .inl rfl
  · split
    · exact .inl rfl
    · exact .inr rfl

/-- The narrower of two types is selected, not the wider one. -/
theorem C139_narrower (s t : ArithTy) (h : Narrower s t) : ArithTy.selectTwo s t = s ∧ ArithTy.selectTwo t s = s := by
  have h1 : s.widthLess t = true := (C139_width s t).2 h
  have h2 : ¬ t.widthLess s = true := fun h2 => by
    rw [C139_width] at h2
    exact C139_order.1 _ (C139_order.2.1 _ _ _ h h2)
  have h3 : s ≠ t := by rintro rfl; exact C139_order.1 _ h
  unfold ArithTy.selectTwo
  rw [if_neg h3, if_pos h1, if_neg (Ne.symm h3), if_neg h2]
  exact ⟨rfl, rfl⟩

example : Narrower (.integral .i32) (.floating 53) := trivial

/-- So the type selected for `int` and `double` is `int`, that for `float` and `double` is `float`. -/
theorem C139_two_refuted :
    ¬ (∀ s t, ¬ Narrower (ArithTy.selectTwo s t) s ∧ ¬ Narrower (ArithTy.selectTwo s t) t) ∧
    ArithTy.selectTwo (.floating 53) (.integral .i32) = .integral .i32 ∧
    ArithTy.selectTwo (.floating 24) (.floating 53) = .floating 24 := by
  refine ⟨fun h => (h (.integral .i32) (.floating 53)).2 ?_, by decide +kernel, by decide +kernel⟩
  rw [(C139_narrower (.integral .i32) (.floating 53) trivial).1]
  trivial

section
variable {K : Type*} [Field K] [LinearOrder K] [IsStrictOrderedRing K] [FloorRing K]

/-- `pow` and `atan2` of numbers that the selected type has are those of the standard library. Missing: other numbers of the two types, see
`C139_function_refuted`. -/
theorem C139_function_partial {α : Type*} (F : K → K → α) (s t : ArithTy) (a b : K)
    (hp : ∀ p, ArithTy.selectTwo s t = .floating p → 1 ≤ p)
    (ha : HasNum (ArithTy.selectTwo s t) a) (hb : HasNum (ArithTy.selectTwo s t) b) : mathBinary F s t a b = .ok (F a b) := by
  unfold mathBinary
  rw [convertNum_same hp ha]
  simp only
  rw [convertNum_same hp hb]

example : HasNum (ArithTy.selectTwo (.floating 53) (.integral .i32)) (3 : ℚ) := by
  rw [show ArithTy.selectTwo (.floating 53) (.integral .i32) = .integral .i32 by decide +kernel]
  exact ⟨3, by decide, by decide, by norm_num⟩

end

/-- `pow` of the `double` 1.5 and the `int` 2 is computed as `pow` of 1 and 2. -/
theorem C139_function_refuted {α : Type*} (F : ℚ → ℚ → α) :
    HasNum (.floating 53) (3 / 2 : ℚ) ∧ HasNum (.integral .i32) (2 : ℚ) ∧
    mathBinary F (.floating 53) (.integral .i32) (3 / 2) 2 = .ok (F 1 2) := by
  refine ⟨⟨3, -1, by norm_num, by norm_num⟩, ⟨2, by decide, by decide, by norm_num⟩, ?_⟩
  have h1 : convertNum (.floating 53) (ArithTy.selectTwo (.floating 53) (.integral .i32)) (3 / 2 : ℚ) = .ok 1 := by decide +kernel
  have h2 : convertNum (.integral .i32) (ArithTy.selectTwo (.floating 53) (.integral .i32)) (2 : ℚ) = .ok 2 := by decide +kernel
  unfold mathBinary
  rw [h1]
  simp only
  rw [h2]

section
variable {K : Type*} [Field K] [LinearOrder K] [IsStrictOrderedRing K] [FloorRing K]

/-- The scalar product is right if the language computes the sum without an error and the selected type has the result.
Missing: results that the selected type does not have, see `C139_dot_refuted`. -/
theorem C139_dot_partial (c s t : ArithTy) (fl : K → K) (ab : List (K × K)) (hfl : productSum fl ab = exactDot ab)
    (hp : ∀ p, ArithTy.selectTwo s t = .floating p → 1 ≤ p) (h : HasNum (ArithTy.selectTwo s t) (exactDot ab)) :
    dotMixed c s t fl ab = .ok (exactDot ab) := by
  unfold dotMixed ArithTy.selectSequences
  rw [selectSequence_replicate, selectSequence_replicate, hfl]
  exact convertNum_same hp h

example : productSum (roundBits 53) [(1 / 2, 4), (3, 5)] = exactDot [((1 / 2 : ℚ), 4), (3, 5)] ∧
    HasNum (ArithTy.selectTwo (.floating 53) (.integral .i32)) (exactDot [((1 / 2 : ℚ), 4), (3, 5)]) := by
  refine ⟨by decide +kernel, ?_⟩
  rw [show ArithTy.selectTwo (.floating 53) (.integral .i32) = .integral .i32 by decide +kernel]
  exact ⟨17, by decide, by decide, by norm_num [exactDot]⟩

/-- For two vectors of the same floating point type it is the sum as the language computes it. -/
theorem C139_dot_same (p : ℕ) (hp : 1 ≤ p) (ab : List (K × K)) :
    dotMixed (.floating p) (.floating p) (.floating p) (roundBits p) ab = .ok (productSum (roundBits p) ab) := by
  unfold dotMixed ArithTy.selectSequences
  rw [selectSequence_replicate, (C139_two_partial (.floating p) (.floating p)).2]
  refine convertNum_same (fun q hq => by cases hq; exact hp) ?_
  have hz : IsFloat p (0 : K) := ⟨0, 0, by positivity, by simp⟩
  cases ab with
  | nil => exact hz
  | cons q l =>
    simp only [productSum, HasNum]
    have h : ∀ (l : List (K × K)) (s : K), IsFloat p s →
        IsFloat p (l.foldl (fun s q => roundBits p (s + roundBits p (q.1 * q.2))) s) := by
      intro l
      induction l with
      | nil => intro s hs; exact hs
      | cons q l ih => intro s hs; exact ih _ (roundBits_isFloat hp _)
    exact h l _ (roundBits_isFloat hp _)

example : productSum (roundBits 53) [((1 : ℚ) / 2, 1), (3, 4)] = 25 / 2 := by decide +kernel

end

/-- The scalar product of the vector (1/2, 1/2) of `double` and the vector (1, 0) of `int` is 0. -/
theorem C139_dot_refuted :
    dotMixed (.floating 53) (.floating 53) (.integral .i32) (roundBits 53) [((1 / 2 : ℚ), 1), (1 / 2, 0)] = .ok 0 ∧
    exactDot [((1 / 2 : ℚ), 1), (1 / 2, 0)] = 1 / 2 ∧
    dotMixed (.floating 53) (.floating 24) (.floating 53) (roundBits 53) [((1 : ℚ), 1 + 1 / 2 ^ 30), (0, 0)] = .ok 1 := by
  refine ⟨by decide +kernel, by norm_num [exactDot], by decide +kernel⟩

section
variable {K : Type*} [Field K] [LinearOrder K] [IsStrictOrderedRing K] [FloorRing K]

/-- An integer of up to 53 bits is promoted to the same number. -/
theorem C140_promote (n : ℤ) (h : |n| ≤ 2 ^ 53) : promoteInt n = (n : K) := roundBits53_int h

example : |(123456789 : ℤ)| ≤ 2 ^ 53 := by norm_num

/-- Any integer is promoted to a nearby number. -/
theorem C140_promote_near (n : ℤ) : |promoteInt n - (n : K)| ≤ 1 / 2 ^ 53 * |(n : K)| := roundBits_near 53 _

example : (promoteInt (2 ^ 53 + 1) : ℚ) = 2 ^ 53 := by decide +kernel

/-- The quotient of integers of up to 53 bits is that of a floating point division, not that of integers. -/
theorem C140_div (n d : ℤ) (hn : |n| ≤ 2 ^ 53) (hd : |d| ≤ 2 ^ 53) :
    (d = 0 → promoteDiv (K := K) n d = .error .divByZero) ∧
    (d ≠ 0 → ∃ x : K, promoteDiv n d = .ok x ∧ |x - (n : K) / d| ≤ 1 / 2 ^ 53 * |(n : K) / d|) := by
  unfold promoteDiv
  refine ⟨fun h => if_pos h, fun h => ⟨_, if_neg h, ?_⟩⟩
  rw [C140_promote n hn, C140_promote d hd]
  exact roundBits_near 53 _

example : promoteDiv (K := ℚ) 1 2 = .ok (1 / 2) := by decide +kernel

/-- Demotion to a type of up to 32 bits drops the fraction and throws if the integer does not fit. -/
theorem C140_demote (t : IntTy) (ht : t.bits ≤ 32) (x : K) (n : ℤ) (hn : IsTrunc x n) :
    demoteInt t x = if t.Has n then .ok n else .error .thrown := by
  have e : n = towardZero x := by
    have h1 := towardZero_isTrunc x
    rcases le_total 0 x with h | h
    · obtain ⟨a1, a2⟩ := hn.1 h
      obtain ⟨b1, b2⟩ := h1.1 h
      have c1 : (n : K) < towardZero x + 1 := lt_of_le_of_lt a1 b2
      have c2 : (towardZero x : K) < n + 1 := lt_of_le_of_lt b1 a2
      have d1 : n < towardZero x + 1 := by exact_mod_cast c1
      have d2 : towardZero x < n + 1 := by exact_mod_cast c2
      omega
    · obtain ⟨a1, a2⟩ := hn.2 h
      obtain ⟨b1, b2⟩ := h1.2 h
      have c1 : (n : K) - 1 < towardZero x := by linarith
      have c2 : (towardZero x : K) - 1 < n := by linarith
      have d1 : n - 1 < towardZero x := by exact_mod_cast c1
      have d2 : towardZero x - 1 < n := by exact_mod_cast c2
      omega
  rw [e]
  exact demoteInt_small ht x

example : IsTrunc (-7 / 2 : ℚ) (-3) ∧ demoteInt .i32 (-7 / 2 : ℚ) = .ok (-3) ∧ demoteInt .u32 (-7 / 2 : ℚ) = .error .thrown := by
  refine ⟨⟨fun h => absurd h (by norm_num), fun _ => ⟨by norm_num, by norm_num⟩⟩, by decide +kernel, by decide +kernel⟩

/-- An integer of up to 53 bits is the same after promotion and demotion. Missing: longer ones, see `C140_round_trip_refuted`. -/
theorem C140_round_trip_partial (t : IntTy) (n : ℤ) (hn : t.Has n) (h : |n| ≤ 2 ^ 53) :
    demoteInt t (promoteInt n : K) = .ok n := by
  rw [C140_promote n h]
  exact demoteInt_of_le hn h

example : IntTy.i64.Has (-2 ^ 53) ∧ |(-2 ^ 53 : ℤ)| ≤ 2 ^ 53 := by decide

end

/-- Integers of 64 bits can change, and the largest and least ones throw. -/
theorem C140_round_trip_refuted :
    demoteInt .i64 (promoteInt (2 ^ 53 + 1) : ℚ) = .ok (2 ^ 53) ∧
    demoteInt .i64 (promoteInt (2 ^ 63 - 1) : ℚ) = .error .thrown ∧
    demoteInt .i64 (promoteInt (-2 ^ 63) : ℚ) = .error .thrown ∧
    demoteInt .u64 (promoteInt (2 ^ 64 - 1) : ℚ) = .error .thrown := by
  refine ⟨by decide +kernel, by decide +kernel, by decide +kernel, by decide +kernel⟩

/-- A widened integer is the same number, and numbers of the wider type are accepted as well. -/
theorem C140_widen (t : IntTy) (n : ℤ) : (t.Has n → widenCast t n = .ok n) ∧ (t.widen.Has n → widenCast t n = .ok n) := by
  have h : t.Has n → t.widen.Has n := by
    rintro ⟨h1, h2⟩
    revert h1 h2
    cases t <;> simp only [IntTy.Has, IntTy.widen, IntTy.lo, IntTy.hi] <;> omega
  have key : t.widen.Has n → widenCast t n = .ok n := fun h => by
    unfold widenCast numericCast
    exact if_pos h
  exact ⟨fun h' => key (h h'), key⟩

example : IntTy.u16.Has 65535 := by decide

/-- Products of widened integers of up to 32 bits fit the wider type. Missing: 64 bits, see `C140_product_refuted`. -/
theorem C140_product_partial (t : IntTy) (ht : t.bits ≤ 32) (a b : ℤ) (ha : t.Has a) (hb : t.Has b) : t.widen.Has (a * b) := by
  obtain ⟨a1, a2⟩ := ha
  obtain ⟨b1, b2⟩ := hb
  revert ht a1 a2 b1 b2
  cases t <;> simp only [IntTy.Has, IntTy.widen, IntTy.lo, IntTy.hi, IntTy.bits] <;> intro ht a1 a2 b1 b2 <;>
    first
    | omega
    | (constructor <;> nlinarith)

example : IntTy.i32.Has (-2 ^ 31) ∧ IntTy.i64.Has ((-2 ^ 31) * (-2 ^ 31)) := by decide

/-- There is no wider type for integers of 64 bits. -/
theorem C140_product_refuted : IntTy.i64.Has (2 ^ 32) ∧ ¬ IntTy.i64.widen.Has (2 ^ 32 * 2 ^ 32) := by decide

/-- `signed_cast` gives a number of the signed type, the same one if it has it, and a number that differs by a multiple of `2 ^ bits`
in any case; so does `unsigned_cast`. -/
theorem C140_casts (t : IntTy) (n : ℤ) (h : t.Has n) :
    t.makeSigned.Has (signedCast t n) ∧ (2 : ℤ) ^ t.bits ∣ signedCast t n - n ∧
    t.makeUnsigned.Has (unsignedCast t n) ∧ (2 : ℤ) ^ t.bits ∣ unsignedCast t n - n := by
  have key : ∀ u : IntTy, u.hi = u.lo + 2 ^ u.bits - 1 → u.Has (intConv u n) ∧ (2 : ℤ) ^ u.bits ∣ intConv u n - n := by
    intro u hu
    have hpos : (0 : ℤ) < 2 ^ u.bits := by positivity
    unfold intConv
    by_cases hh : u.Has n
    · rw [if_pos hh]; exact ⟨hh, by simp⟩
    · rw [if_neg hh]
      refine ⟨⟨?_, ?_⟩, ?_⟩
      · have := Int.emod_nonneg (n - u.lo) hpos.ne'; omega
      · have := Int.emod_lt_of_pos (n - u.lo) hpos; omega
      · have e := Int.mul_ediv_add_emod (n - u.lo) (2 ^ u.bits)
        refine ⟨-((n - u.lo) / 2 ^ u.bits), ?_⟩
        rw [mul_neg]
        omega
  have hs := key t.makeSigned (by cases t <;> decide)
  have hu := key t.makeUnsigned (by cases t <;> decide)
  have b1 : t.makeSigned.bits = t.bits := by cases t <;> rfl
  have b2 : t.makeUnsigned.bits = t.bits := by cases t <;> rfl
  rw [b1] at hs
  rw [b2] at hu
  exact ⟨hs.1, hs.2, hu.1, hu.2⟩

example : signedCast .u8 200 = -56 ∧ unsignedCast .i8 (-56) = 200 := by decide

/-- The two casts undo each other. -/
theorem C140_casts_inverse (t : IntTy) (n : ℤ) (h : t.Has n) :
    (t.signed = true → signedCast t.makeUnsigned (unsignedCast t n) = n) ∧
    (t.signed = false → unsignedCast t.makeSigned (signedCast t n) = n) := by
  obtain ⟨h1, h2⟩ := h
  constructor <;> intro hs <;> revert h1 h2 hs <;>
  cases t <;> simp only [IntTy.Has, IntTy.lo, IntTy.hi, IntTy.signed, signedCast, unsignedCast, IntTy.makeSigned, IntTy.makeUnsigned,
    intConv, IntTy.bits, reduceCtorEq, IsEmpty.forall_iff, implies_true] <;> intro h1 h2 _ <;> split_ifs <;> omega

example : IntTy.i8.Has (-56) := by decide

end Geometrix
