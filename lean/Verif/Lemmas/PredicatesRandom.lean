import Verif.Model.PredicatesRandom
import Verif.Spec.PredicatesRandom
import Verif.Lemmas.FloatGrid
import Mathlib.Data.Nat.Bitwise

namespace Geometrix

open Spec

variable {K : Type*} [Field K] [LinearOrder K] [IsStrictOrderedRing K] [FloorRing K]

theorem isFloat_mul_twoPow {p : Nat} {x : K} (h : IsFloat p x) (w : Nat) : IsFloat p (x * 2 ^ w) := by
  obtain ⟨m, e, hm, rfl⟩ := h
  refine ⟨m, e + w, hm, ?_⟩
  rw [zpow_add₀ two_ne_zero, zpow_natCast, mul_assoc]

theorem isFloat_two_pow' {p : Nat} (hp : 1 ≤ p) (w : Nat) : IsFloat p ((2 : K) ^ w) := by
  refine ⟨1, w, ?_, by simp⟩
  rw [abs_one]
  exact one_lt_pow₀ (by norm_num) (by omega)

theorem and_two_pow_ne_zero (c n : Nat) : c &&& 2 ^ n ≠ 0 ↔ c / 2 ^ n % 2 = 1 := by
  rw [Nat.and_two_pow, Nat.testBit_eq_decide_div_mod_eq]
  by_cases h : c / 2 ^ n % 2 = 1 <;> simp [h]

/-- The loop multiplies by a power of two whose exponent is made of bits of `c`. -/
theorem randLoop_eq {p : Nat} (hp : 1 ≤ p) (q c : Nat) : ∀ (s fuel n w : Nat) (r : K), n + s = q + 1 → s < fuel → IsFloat p r →
    randLoop (roundBits p) (2 ^ q) c fuel (2 ^ n) (2 ^ w) r = .ok (r * 2 ^ (w * (c / 2 ^ n % 2 ^ s)))
  | 0, fuel + 1, n, w, r, hn, _, _ => by
    have : ¬ 2 ^ n ≤ 2 ^ q := by
      rw [Nat.pow_le_pow_iff_right (by norm_num)]
      omega
    rw [randLoop, if_neg this, pow_zero, Nat.mod_one, mul_zero, pow_zero, mul_one]
  | s + 1, fuel + 1, n, w, r, hn, hf, hr => by
    have h1 : 2 ^ n ≤ 2 ^ q := by
      rw [Nat.pow_le_pow_iff_right (by norm_num)]
      omega
    rw [randLoop, if_pos h1]
    have e1 : roundBits p ((2 : K) ^ w * 2 ^ w) = 2 ^ (2 * w) := by
      rw [← pow_add, ← two_mul]
      exact (isFloat_two_pow' hp _).round hp
    rw [e1, ← pow_succ]
    have e2 : c / 2 ^ n % 2 ^ (s + 1) = c / 2 ^ n % 2 + 2 * (c / 2 ^ (n + 1) % 2 ^ s) := by
      rw [pow_succ' 2 s, Nat.mod_mul, Nat.div_div_eq_div_mul, ← pow_succ]
    by_cases hb : c / 2 ^ n % 2 = 1
    · rw [if_pos ((and_two_pow_ne_zero c n).mpr hb), (isFloat_mul_twoPow hr w).round hp,
        randLoop_eq hp q c s fuel (n + 1) (2 * w) _ (by omega) (by omega) (isFloat_mul_twoPow hr w), e2, hb, mul_assoc, ← pow_add]
      congr 3
      ring
    · rw [if_neg (fun h => hb ((and_two_pow_ne_zero c n).mp h)),
        randLoop_eq hp q c s fuel (n + 1) (2 * w) _ (by omega) (by omega) hr, e2, show c / 2 ^ n % 2 = 0 by omega]
      congr 3
      ring

theorem isFloat_int {p : Nat} (hp : 1 ≤ p) {n : ℤ} (h : |n| ≤ 2 ^ p) : IsFloat p (n : K) := by
  rcases lt_or_eq_of_le h with h | h
  · exact ⟨n, 0, h, by simp⟩
  · rcases abs_choice n with hn | hn
    · rw [hn] at h
      rw [h]
      push_cast
      exact isFloat_two_pow' hp p
    · rw [hn] at h
      obtain rfl : n = -2 ^ p := by omega
      obtain ⟨m, e, hm, he⟩ := isFloat_two_pow' (K := K) hp p
      refine ⟨-m, e, by rwa [abs_neg], ?_⟩
      push_cast
      rw [he]
      ring

theorem uniformDoubleRand_eq {a b : Nat} (ha : a < randomValues) (hb : b < randomValues) :
    uniformDoubleRand (roundBits 53 : K → K) a b = ((((a : ℤ) - 1073741824) * 8388608 + (b / 256 : Nat) : ℤ) : K) := by
  unfold randomValues at ha hb
  have e1 : roundBits 53 ((((a : ℤ) - 1073741824 : ℤ)) : K) = (((a : ℤ) - 1073741824 : ℤ) : K) :=
    (isFloat_int (by norm_num) (by rw [abs_le]; norm_num; omega)).round (by norm_num)
  have e2 : roundBits 53 ((((a : ℤ) - 1073741824 : ℤ) : K) * 8388608) = ((((a : ℤ) - 1073741824) * 8388608 : ℤ) : K) := by
    rw [show (((a : ℤ) - 1073741824 : ℤ) : K) * 8388608 = ((((a : ℤ) - 1073741824) * 8388608 : ℤ) : K) by push_cast; ring]
    exact (isFloat_int (by norm_num) (by rw [abs_le]; norm_num; omega)).round (by norm_num)
  have e3 : roundBits 53 (((b / 256 : Nat)) : K) = ((((b / 256 : Nat) : ℤ)) : K) := by
    rw [show (((b / 256 : Nat)) : K) = ((((b / 256 : Nat) : ℤ)) : K) from (Int.cast_natCast _).symm]
    exact (isFloat_int (by norm_num) (by rw [abs_le]; norm_num; omega)).round (by norm_num)
  rw [uniformDoubleRand, e1, e2, e3, ← Int.cast_add]
  exact (isFloat_int (by norm_num) (by rw [abs_le]; norm_num; omega)).round (by norm_num)

theorem uniformFloatRand_eq {a : Nat} (ha : a < randomValues) :
    uniformFloatRand (roundBits 24 : K → K) a = ((((a : ℤ) - 1073741824) / 64 : ℤ) : K) := by
  unfold randomValues at ha
  rw [uniformFloatRand]
  exact (isFloat_int (by norm_num) (by rw [abs_le]; norm_num; omega)).round (by norm_num)

theorem occursFor_of {α : Type*} {f : Nat → α} {y : α} {n : Nat} (g : Nat → Nat) (hg : Function.Injective g)
    (h : ∀ a, (a < randomValues ∧ f a = y) ↔ ∃ r, r < n ∧ g r = a) : OccursFor f y n := by
  have e : {a : Nat | a < randomValues ∧ f a = y} = g '' (Finset.range n : Set Nat) := by
    ext a
    simp only [Set.mem_setOf_eq, h a, Set.mem_image, Finset.coe_range, Set.mem_Iio]
  rw [OccursFor, e, Set.ncard_image_of_injective _ hg, Set.ncard_coe_finset, Finset.card_range]

theorem occursFor2_of {α : Type*} {f : Nat → Nat → α} {y : α} {n : Nat} (g : Nat → Nat × Nat) (hg : Function.Injective g)
    (h : ∀ a b, (a < randomValues ∧ b < randomValues ∧ f a b = y) ↔ ∃ r, r < n ∧ g r = (a, b)) : OccursFor2 f y n := by
  have e : {ab : Nat × Nat | ab.1 < randomValues ∧ ab.2 < randomValues ∧ f ab.1 ab.2 = y} = g '' (Finset.range n : Set Nat) := by
    ext ⟨a, b⟩
    simp only [Set.mem_setOf_eq, h a b, Set.mem_image, Finset.coe_range, Set.mem_Iio]
  rw [OccursFor2, e, Set.ncard_image_of_injective _ hg, Set.ncard_coe_finset, Finset.card_range]

/-- Every significand of the numbers of 53 bits is taken for 256 pairs. -/
theorem occurs_double (n : ℤ) (h1 : -9007199254740992 ≤ n) (h2 : n < 9007199254740992) :
    OccursFor2 (fun a b : Nat => ((a : ℤ) - 1073741824) * 8388608 + (b / 256 : Nat)) n 256 := by
  refine occursFor2_of (fun r => ((n / 8388608 + 1073741824).toNat, (n % 8388608).toNat * 256 + r)) ?_ ?_
  · intro r s hrs
    have := (Prod.mk.inj hrs).2
    omega
  · intro a b
    unfold randomValues
    constructor
    · rintro ⟨ha, hb, hn⟩
      refine ⟨b % 256, Nat.mod_lt _ (by norm_num), Prod.ext ?_ ?_⟩
      · show (n / 8388608 + 1073741824).toNat = a
        omega
      · show (n % 8388608).toNat * 256 + b % 256 = b
        omega
    · rintro ⟨r, hr, hrs⟩
      obtain ⟨e1, e2⟩ := Prod.mk.inj hrs
      refine ⟨?_, ?_, ?_⟩
      · omega
      · omega
      · show ((a : ℤ) - 1073741824) * 8388608 + (b / 256 : Nat) = n
        omega

/-- Every significand of the numbers of 24 bits is taken for 64 numbers. -/
theorem occurs_float (n : ℤ) (h1 : -16777216 ≤ n) (h2 : n < 16777216) :
    OccursFor (fun a : Nat => ((a : ℤ) - 1073741824) / 64) n 64 := by
  refine occursFor_of (fun r => (n * 64 + 1073741824).toNat + r) ?_ ?_
  · intro r s hrs
    have : (n * 64 + 1073741824).toNat + r = (n * 64 + 1073741824).toNat + s := hrs
    omega
  · intro a
    unfold randomValues
    constructor
    · rintro ⟨ha, hn⟩
      refine ⟨a - (n * 64 + 1073741824).toNat, ?_, ?_⟩
      · omega
      · show (n * 64 + 1073741824).toNat + (a - (n * 64 + 1073741824).toNat) = a
        omega
    · rintro ⟨r, hr, rfl⟩
      refine ⟨?_, ?_⟩
      · show (n * 64 + 1073741824).toNat + r < 2147483648
        omega
      · show (((((n * 64 + 1073741824).toNat + r : Nat)) : ℤ) - 1073741824) / 64 = n
        omega

/-- Every exponent of `s` bits is taken for the same number of results. -/
theorem occurs_expo (s : Nat) (hs : s ≤ 22) (k : Nat) (hk : k < 2 ^ s) :
    OccursFor (fun c : Nat => c / 512 % 2 ^ s) k (512 * 2 ^ (22 - s)) := by
  have hpos : 0 < 2 ^ s := by positivity
  have hmul : 2 ^ s * 2 ^ (22 - s) = 4194304 := by
    rw [← pow_add, show s + (22 - s) = 22 by omega]
    norm_num
  refine occursFor_of (fun r => ((r / 512) * 2 ^ s + k) * 512 + r % 512) ?_ ?_
  · intro r t hrt
    have h : ((r / 512) * 2 ^ s + k) * 512 + r % 512 = ((t / 512) * 2 ^ s + k) * 512 + t % 512 := hrt
    have h3 : (r / 512) * 2 ^ s + k = (t / 512) * 2 ^ s + k := by omega
    have h4 : r / 512 = t / 512 := Nat.eq_of_mul_eq_mul_right hpos (by omega)
    omega
  · intro c
    unfold randomValues
    constructor
    · rintro ⟨hc, hck⟩
      have hck' : c / 512 % 2 ^ s = k := hck
      have e1 := Nat.div_add_mod (c / 512) (2 ^ s)
      have hlt : c / 512 / 2 ^ s < 2 ^ (22 - s) := by
        rw [Nat.div_lt_iff_lt_mul hpos, mul_comm, hmul]
        omega
      refine ⟨c / 512 / 2 ^ s * 512 + c % 512, by omega, ?_⟩
      show ((c / 512 / 2 ^ s * 512 + c % 512) / 512 * 2 ^ s + k) * 512 + (c / 512 / 2 ^ s * 512 + c % 512) % 512 = c
      rw [show (c / 512 / 2 ^ s * 512 + c % 512) / 512 = c / 512 / 2 ^ s by omega, mul_comm (c / 512 / 2 ^ s) (2 ^ s)]
      omega
    · rintro ⟨r, hr, rfl⟩
      have h1 : r / 512 < 2 ^ (22 - s) := by omega
      have h2 : r / 512 * 2 ^ s + 2 ^ s ≤ 4194304 := by
        rw [← hmul, ← Nat.succ_mul, mul_comm]
        exact Nat.mul_le_mul_left _ h1
      refine ⟨?_, ?_⟩
      · show (r / 512 * 2 ^ s + k) * 512 + r % 512 < 2147483648
        omega
      · show ((r / 512 * 2 ^ s + k) * 512 + r % 512) / 512 % 2 ^ s = k
        rw [show ((r / 512 * 2 ^ s + k) * 512 + r % 512) / 512 = r / 512 * 2 ^ s + k by omega, Nat.add_comm,
          Nat.add_mul_mod_self_right, Nat.mod_eq_of_lt hk]

end Geometrix
