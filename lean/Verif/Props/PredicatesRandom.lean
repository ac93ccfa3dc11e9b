import Verif.Lemmas.PredicatesRandom

/-!
# C137: random floating point numbers
-/

namespace Geometrix

open Spec

variable {K : Type*} [Field K] [LinearOrder K] [IsStrictOrderedRing K] [FloorRing K]

/-- `uniformdoublerand` gives every integer from `-2^53` to `2^53 - 1`, each for 256 of the pairs of results of `random()`, and nothing
else. -/
theorem C137_uniform_double :
    (∀ a b, a < randomValues → b < randomValues →
      ∃ n : ℤ, -2 ^ 53 ≤ n ∧ n < 2 ^ 53 ∧ uniformDoubleRand (roundBits 53 : K → K) a b = n) ∧
    (∀ n : ℤ, -2 ^ 53 ≤ n → n < 2 ^ 53 → OccursFor2 (uniformDoubleRand (roundBits 53 : K → K)) (n : K) 256) := by
  constructor
  · intro a b ha hb
    refine ⟨_, ?_, ?_, uniformDoubleRand_eq ha hb⟩ <;> unfold randomValues at ha hb <;> norm_num <;> omega
  · intro n h1 h2
    norm_num at h1 h2
    have := occurs_double n h1 h2
    unfold OccursFor2 at this ⊢
    rw [← this]
    congr 1
    ext ⟨a, b⟩
    simp only [Set.mem_setOf_eq]
    constructor
    · rintro ⟨ha, hb, hn⟩
      rw [uniformDoubleRand_eq ha hb] at hn
      exact ⟨ha, hb, Int.cast_injective hn⟩
    · rintro ⟨ha, hb, hn⟩
      refine ⟨ha, hb, ?_⟩
      rw [uniformDoubleRand_eq ha hb, hn]

/-- `doublerand` gives the numbers `n * 2^k` with `n` from `-2^53` to `2^53 - 1` and `k` from 0 to 511; the significand depends on the first
two results of `random()`, the exponent on the third, and each of them is taken equally often. Nothing overflows. -/
theorem C137_double :
    ∃ (sig : Nat → Nat → ℤ) (expo : Nat → Nat),
      (∀ a b c, a < randomValues → b < randomValues → c < randomValues →
        doubleRand (roundBits 53 : K → K) a b c = .ok (sig a b * 2 ^ expo c) ∧ |(sig a b : K) * 2 ^ expo c| < 2 ^ 1024) ∧
      (∀ a b, a < randomValues → b < randomValues → -2 ^ 53 ≤ sig a b ∧ sig a b < 2 ^ 53) ∧ (∀ c, expo c ≤ 511) ∧
      (∀ n : ℤ, -2 ^ 53 ≤ n → n < 2 ^ 53 → OccursFor2 sig n 256) ∧
      (∀ k, k ≤ 511 → OccursFor expo k (2 ^ 22)) := by
  have hsig : ∀ a b, a < randomValues → b < randomValues → -2 ^ 53 ≤ ((a : ℤ) - 1073741824) * 8388608 + (b / 256 : Nat) ∧
      ((a : ℤ) - 1073741824) * 8388608 + (b / 256 : Nat) < 2 ^ 53 := by
    intro a b ha hb
    unfold randomValues at ha hb
    constructor <;> norm_num <;> omega
  have hexpo : ∀ c, c / 512 % 2 ^ 9 ≤ 511 := fun c => Nat.le_of_lt_succ (Nat.mod_lt _ (by norm_num))
  refine ⟨fun a b => ((a : ℤ) - 1073741824) * 8388608 + (b / 256 : Nat), fun c => c / 512 % 2 ^ 9, ?_, hsig, hexpo, ?_, ?_⟩
  · intro a b c ha hb hc
    obtain ⟨h1, h2⟩ := hsig a b ha hb
    constructor
    · have hf : IsFloat 53 (((((a : ℤ) - 1073741824) * 8388608 + (b / 256 : Nat) : ℤ)) : K) :=
        isFloat_int (by norm_num) (abs_le.mpr ⟨h1, h2.le⟩)
      have := randLoop_eq (p := 53) (by norm_num) 17 c 9 64 9 1 _ (by norm_num) (by norm_num) hf
      rw [doubleRand, uniformDoubleRand_eq ha hb]
      norm_num at this ⊢
      exact this
    · rw [abs_mul, abs_of_pos (by positivity : (0 : K) < 2 ^ (c / 512 % 2 ^ 9)), ← Int.cast_abs]
      have e1 : ((|((a : ℤ) - 1073741824) * 8388608 + (b / 256 : Nat)| : ℤ) : K) ≤ 2 ^ 53 := by
        exact_mod_cast abs_le.mpr ⟨h1, h2.le⟩
      have e2 : (2 : K) ^ (c / 512 % 2 ^ 9) ≤ 2 ^ 511 := pow_le_pow_right₀ (by norm_num) (hexpo c)
      calc _ ≤ (2 : K) ^ 53 * 2 ^ 511 := mul_le_mul e1 e2 (by positivity) (by positivity)
        _ = 2 ^ 564 := by rw [← pow_add]
        _ < 2 ^ 1024 := pow_lt_pow_right₀ (by norm_num) (by norm_num)
  · intro n h1 h2
    norm_num at h1 h2
    exact occurs_double n h1 h2
  · intro k hk
    have := occurs_expo 9 (by norm_num) k (by norm_num; omega)
    norm_num at this ⊢
    exact this

example : (5 : Nat) < randomValues := by norm_num [randomValues]

/-- `narrowdoublerand`: the same with exponents from 0 to 7. -/
theorem C137_narrow_double :
    ∃ (sig : Nat → Nat → ℤ) (expo : Nat → Nat),
      (∀ a b c, a < randomValues → b < randomValues → c < randomValues →
        narrowDoubleRand (roundBits 53 : K → K) a b c = .ok (sig a b * 2 ^ expo c)) ∧
      (∀ a b, a < randomValues → b < randomValues → -2 ^ 53 ≤ sig a b ∧ sig a b < 2 ^ 53) ∧ (∀ c, expo c ≤ 7) ∧
      (∀ n : ℤ, -2 ^ 53 ≤ n → n < 2 ^ 53 → OccursFor2 sig n 256) ∧
      (∀ k, k ≤ 7 → OccursFor expo k (2 ^ 28)) := by
  have hsig : ∀ a b, a < randomValues → b < randomValues → -2 ^ 53 ≤ ((a : ℤ) - 1073741824) * 8388608 + (b / 256 : Nat) ∧
      ((a : ℤ) - 1073741824) * 8388608 + (b / 256 : Nat) < 2 ^ 53 := by
    intro a b ha hb
    unfold randomValues at ha hb
    constructor <;> norm_num <;> omega
  refine ⟨fun a b => ((a : ℤ) - 1073741824) * 8388608 + (b / 256 : Nat), fun c => c / 512 % 2 ^ 3, ?_, hsig,
    fun c => Nat.le_of_lt_succ (Nat.mod_lt _ (by norm_num)), ?_, ?_⟩
  · intro a b c ha hb hc
    obtain ⟨h1, h2⟩ := hsig a b ha hb
    have hf : IsFloat 53 (((((a : ℤ) - 1073741824) * 8388608 + (b / 256 : Nat) : ℤ)) : K) :=
      isFloat_int (by norm_num) (abs_le.mpr ⟨h1, h2.le⟩)
    have := randLoop_eq (p := 53) (by norm_num) 11 c 3 64 9 1 _ (by norm_num) (by norm_num) hf
    rw [narrowDoubleRand, uniformDoubleRand_eq ha hb]
    norm_num at this ⊢
    exact this
  · intro n h1 h2
    norm_num at h1 h2
    exact occurs_double n h1 h2
  · intro k hk
    have := occurs_expo 3 (by norm_num) k (by norm_num; omega)
    norm_num at this ⊢
    exact this

/-- `uniformfloatrand` gives every integer from `-2^24` to `2^24 - 1`, each for 64 results of `random()`. -/
theorem C137_uniform_float :
    (∀ a, a < randomValues → ∃ n : ℤ, -2 ^ 24 ≤ n ∧ n < 2 ^ 24 ∧ uniformFloatRand (roundBits 24 : K → K) a = n) ∧
    (∀ n : ℤ, -2 ^ 24 ≤ n → n < 2 ^ 24 → OccursFor (uniformFloatRand (roundBits 24 : K → K)) (n : K) 64) := by
  constructor
  · intro a ha
    refine ⟨_, ?_, ?_, uniformFloatRand_eq ha⟩ <;> unfold randomValues at ha <;> norm_num <;> omega
  · intro n h1 h2
    norm_num at h1 h2
    have := occurs_float n h1 h2
    unfold OccursFor at this ⊢
    rw [← this]
    congr 1
    ext a
    simp only [Set.mem_setOf_eq]
    constructor
    · rintro ⟨ha, hn⟩
      rw [uniformFloatRand_eq ha] at hn
      exact ⟨ha, Int.cast_injective hn⟩
    · rintro ⟨ha, hn⟩
      refine ⟨ha, ?_⟩
      rw [uniformFloatRand_eq ha, hn]

/-- `floatrand` and `narrowfloatrand` give the numbers `n * 2^k` with `n` from `-2^24` to `2^24 - 1` and `k` from 0 to 63 or 7, with the
significand and the exponent from different results of `random()` and each equally often. Nothing overflows. -/
theorem C137_float :
    ∃ (sig : Nat → ℤ) (expo narrow : Nat → Nat),
      (∀ a c, a < randomValues → c < randomValues →
        floatRand (roundBits 24 : K → K) a c = .ok (sig a * 2 ^ expo c) ∧ |(sig a : K) * 2 ^ expo c| < 2 ^ 127 ∧
        narrowFloatRand (roundBits 24 : K → K) a c = .ok (sig a * 2 ^ narrow c)) ∧
      (∀ a, a < randomValues → -2 ^ 24 ≤ sig a ∧ sig a < 2 ^ 24) ∧ (∀ c, expo c ≤ 63) ∧ (∀ c, narrow c ≤ 7) ∧
      (∀ n : ℤ, -2 ^ 24 ≤ n → n < 2 ^ 24 → OccursFor sig n 64) ∧
      (∀ k, k ≤ 63 → OccursFor expo k (2 ^ 25)) ∧ (∀ k, k ≤ 7 → OccursFor narrow k (2 ^ 28)) := by
  have hsig : ∀ a, a < randomValues → -2 ^ 24 ≤ ((a : ℤ) - 1073741824) / 64 ∧ ((a : ℤ) - 1073741824) / 64 < 2 ^ 24 := by
    intro a ha
    unfold randomValues at ha
    constructor <;> norm_num <;> omega
  have hexpo : ∀ c, c / 512 % 2 ^ 6 ≤ 63 := fun c => Nat.le_of_lt_succ (Nat.mod_lt _ (by norm_num))
  refine ⟨fun a => ((a : ℤ) - 1073741824) / 64, fun c => c / 512 % 2 ^ 6, fun c => c / 512 % 2 ^ 3, ?_, hsig, hexpo,
    fun c => Nat.le_of_lt_succ (Nat.mod_lt _ (by norm_num)), ?_, ?_, ?_⟩
  · intro a c ha hc
    obtain ⟨h1, h2⟩ := hsig a ha
    have hf : IsFloat 24 (((((a : ℤ) - 1073741824) / 64 : ℤ)) : K) := isFloat_int (by norm_num) (abs_le.mpr ⟨h1, h2.le⟩)
    refine ⟨?_, ?_, ?_⟩
    · have := randLoop_eq (p := 24) (by norm_num) 14 c 6 64 9 1 _ (by norm_num) (by norm_num) hf
      rw [floatRand, uniformFloatRand_eq ha]
      norm_num at this ⊢
      exact this
    · rw [abs_mul, abs_of_pos (by positivity : (0 : K) < 2 ^ (c / 512 % 2 ^ 6)), ← Int.cast_abs]
      have e1 : ((|((a : ℤ) - 1073741824) / 64| : ℤ) : K) ≤ 2 ^ 24 := by
        exact_mod_cast abs_le.mpr ⟨h1, h2.le⟩
      have e2 : (2 : K) ^ (c / 512 % 2 ^ 6) ≤ 2 ^ 63 := pow_le_pow_right₀ (by norm_num) (hexpo c)
      calc _ ≤ (2 : K) ^ 24 * 2 ^ 63 := mul_le_mul e1 e2 (by positivity) (by positivity)
        _ = 2 ^ 87 := by rw [← pow_add]
        _ < 2 ^ 127 := pow_lt_pow_right₀ (by norm_num) (by norm_num)
    · have := randLoop_eq (p := 24) (by norm_num) 11 c 3 64 9 1 _ (by norm_num) (by norm_num) hf
      rw [narrowFloatRand, uniformFloatRand_eq ha]
      norm_num at this ⊢
      exact this
  · intro n h1 h2
    norm_num at h1 h2
    exact occurs_float n h1 h2
  · intro k hk
    have := occurs_expo 6 (by norm_num) k (by norm_num; omega)
    norm_num at this ⊢
    exact this
  · intro k hk
    have := occurs_expo 3 (by norm_num) k (by norm_num; omega)
    norm_num at this ⊢
    exact this

end Geometrix
