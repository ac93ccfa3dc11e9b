import Verif.Spec.Rounding
import Mathlib.Tactic.Linarith
import Mathlib.Tactic.FieldSimp
import Mathlib.Tactic.Positivity
import Mathlib.Tactic.Ring
import Mathlib.Algebra.Order.Field.Power

/-!
Lemmas about rounding.
-/

set_option linter.unusedSectionVars false

namespace Geometrix

open Spec

variable {K : Type*} [Field K] [LinearOrder K] [IsStrictOrderedRing K] [FloorRing K]

theorem roundEven_near (y : K) : |(roundEven y : K) - y| ≤ 1 / 2 := by
  have h1 := Int.fract_nonneg y
  have h2 := Int.fract_lt_one y
  have h3 := Int.floor_add_fract y
  unfold roundEven
  rw [abs_le]
  split_ifs <;> push_cast <;> constructor <;> linarith

theorem floor_le_roundEven (y : K) : ⌊y⌋ ≤ roundEven y := by
  unfold roundEven
  split_ifs <;> omega

theorem roundEven_le_floor (y : K) : roundEven y ≤ ⌊y⌋ + 1 := by
  unfold roundEven
  split_ifs <;> omega

theorem roundEven_int (n : ℤ) : roundEven (n : K) = n := by
  unfold roundEven
  simp

theorem roundEven_mono {y z : K} (h : y ≤ z) : roundEven y ≤ roundEven z := by
  rcases (Int.floor_le_floor h).lt_or_eq with hf | hf
  · have h1 := roundEven_le_floor y
    have h2 := floor_le_roundEven z
    omega
  · have hy := Int.floor_add_fract y
    have hz := Int.floor_add_fract z
    have hf' : (⌊y⌋ : K) = ⌊z⌋ := by rw [hf]
    have hfr : Int.fract y ≤ Int.fract z := by linarith
    unfold roundEven
    rw [hf]
    split_ifs <;> first | omega | (exfalso; linarith) | skip
    all_goals exfalso; rename_i a b c; first | exact absurd (le_of_lt a) (by linarith) | linarith

theorem roundEven_neg (y : K) : roundEven (-y) = -roundEven y := by
  rcases eq_or_ne (Int.fract y) 0 with h0 | h0
  · have hy : y = (⌊y⌋ : K) := by
      have := Int.floor_add_fract y
      rw [h0, add_zero] at this
      exact this.symm
    rw [hy, roundEven_int, ← Int.cast_neg, roundEven_int]
  · have hf : Int.fract (-y) = 1 - Int.fract y := Int.fract_neg h0
    have hfl : ⌊-y⌋ = -⌊y⌋ - 1 := by
      have h1 := Int.floor_add_fract y
      have h2 := Int.floor_add_fract (-y)
      rw [hf] at h2
      have : ((⌊-y⌋ : ℤ) : K) = ((-⌊y⌋ - 1 : ℤ) : K) := by push_cast; linarith
      exact_mod_cast this
    unfold roundEven
    rw [hf, hfl]
    rcases lt_trichotomy (Int.fract y) (1 / 2) with h | h | h
    · rw [if_neg (by linarith), if_pos (by linarith), if_pos h]; ring
    · have e1 : ¬ 1 - Int.fract y < 1 / 2 := by rw [h]; norm_num
      have e2 : ¬ 1 / 2 < 1 - Int.fract y := by rw [h]; norm_num
      have e3 : ¬ Int.fract y < 1 / 2 := by rw [h]; norm_num
      have e4 : ¬ 1 / 2 < Int.fract y := by rw [h]; norm_num
      rw [if_neg e1, if_neg e2, if_neg e3, if_neg e4]
      by_cases he : Even ⌊y⌋
      · rw [if_pos he, if_neg]
        · ring
        · intro h'
          rw [Int.even_sub, even_neg] at h'
          simp [he] at h'
      · rw [if_neg he, if_pos]
        · ring
        · rw [Int.even_sub, even_neg]
          simp [he]
    · rw [if_pos (by linarith), if_neg (by linarith), if_pos h]; ring

theorem roundBits_neg (p : Nat) (x : K) : roundBits p (-x) = -roundBits p x := by
  unfold roundBits
  by_cases hx : x = 0
  · simp [hx]
  · rw [if_neg (by simpa using hx), if_neg hx, abs_neg, neg_div, roundEven_neg]
    push_cast
    ring

theorem roundBits_near (p : Nat) (x : K) : |roundBits p x - x| ≤ (1 / 2 ^ p) * |x| := by
  unfold roundBits
  by_cases hx : x = 0
  · simp [hx]
  · rw [if_neg hx]
    have hpos : 0 < |x| := abs_pos.2 hx
    have hlog := Int.zpow_log_le_self (b := 2) (by norm_num) hpos
    generalize Int.log 2 |x| = k at *
    have h2 : (0 : K) < 2 ^ (k - ((p : ℤ) - 1)) := by positivity
    have h := roundEven_near (x / 2 ^ (k - ((p : ℤ) - 1)))
    have e : (roundEven (x / 2 ^ (k - ((p : ℤ) - 1))) : K) * 2 ^ (k - ((p : ℤ) - 1)) - x =
        ((roundEven (x / 2 ^ (k - ((p : ℤ) - 1))) : K) - x / 2 ^ (k - ((p : ℤ) - 1))) * 2 ^ (k - ((p : ℤ) - 1)) := by
      field_simp
    rw [e, abs_mul, abs_of_pos h2]
    have e2 : (1 / 2 : K) * 2 ^ (k - ((p : ℤ) - 1)) = 1 / 2 ^ p * 2 ^ k := by
      rw [show k - ((p : ℤ) - 1) = k + 1 - (p : ℤ) by ring, zpow_sub₀ (by norm_num), zpow_add_one₀ (by norm_num), zpow_natCast]
      field_simp
    calc _ ≤ 1 / 2 * (2 : K) ^ (k - ((p : ℤ) - 1)) := by gcongr
      _ = 1 / 2 ^ p * 2 ^ k := e2
      _ ≤ 1 / 2 ^ p * |x| := by
        have : ((2 : ℕ) : K) ^ k = (2 : K) ^ k := by norm_num
        rw [this] at hlog
        gcongr

theorem roundBits_mono_pos {p : Nat} (hp : 1 ≤ p) {x y : K} (hx : 0 < x) (h : x ≤ y) : roundBits p x ≤ roundBits p y := by
  have hy : 0 < y := lt_of_lt_of_le hx h
  unfold roundBits
  rw [if_neg hx.ne', if_neg hy.ne', abs_of_pos hx, abs_of_pos hy]
  have hlog : Int.log 2 x ≤ Int.log 2 y := Int.log_mono_right hx h
  have k1 := Int.lt_zpow_succ_log_self (b := 2) (by norm_num) x
  have k2 := Int.zpow_log_le_self (b := 2) (by norm_num) hy
  have hc : ∀ k : ℤ, ((2 : ℕ) : K) ^ k = (2 : K) ^ k := by intro k; norm_num
  rw [hc] at k1 k2
  generalize Int.log 2 x = a at *
  generalize Int.log 2 y = b at *
  have ha : (0 : K) < 2 ^ (a - ((p : ℤ) - 1)) := by positivity
  have hb : (0 : K) < 2 ^ (b - ((p : ℤ) - 1)) := by positivity
  rcases hlog.lt_or_eq with hab | rfl
  · have j1 : roundEven (x / 2 ^ (a - ((p : ℤ) - 1))) ≤ 2 ^ p := by
      rw [← roundEven_int (K := K) (2 ^ p)]
      apply roundEven_mono
      rw [div_le_iff₀ ha]
      push_cast
      rw [← zpow_natCast, ← zpow_add₀ (by norm_num)]
      rw [show (p : ℤ) + (a - ((p : ℤ) - 1)) = a + 1 by ring]
      exact k1.le
    have j2 : 2 ^ (p - 1) ≤ roundEven (y / 2 ^ (b - ((p : ℤ) - 1))) := by
      rw [← roundEven_int (K := K) (2 ^ (p - 1))]
      apply roundEven_mono
      rw [le_div_iff₀ hb]
      push_cast
      rw [← zpow_natCast, ← zpow_add₀ (by norm_num)]
      rw [show ((p - 1 : ℕ) : ℤ) + (b - ((p : ℤ) - 1)) = b by omega]
      exact k2
    have j1' : (roundEven (x / 2 ^ (a - ((p : ℤ) - 1))) : K) ≤ 2 ^ p := by exact_mod_cast j1
    have j2' : (2 : K) ^ (p - 1) ≤ (roundEven (y / 2 ^ (b - ((p : ℤ) - 1))) : K) := by exact_mod_cast j2
    calc _ ≤ (2 : K) ^ p * 2 ^ (a - ((p : ℤ) - 1)) := by gcongr
      _ = 2 ^ (a + 1) := by
        rw [← zpow_natCast, ← zpow_add₀ (by norm_num)]
        congr 1; ring
      _ ≤ 2 ^ b := by
        apply zpow_le_zpow_right₀ (by norm_num)
        omega
      _ = 2 ^ (p - 1) * 2 ^ (b - ((p : ℤ) - 1)) := by
        rw [← zpow_natCast, ← zpow_add₀ (by norm_num)]
        congr 1; omega
      _ ≤ _ := by gcongr
  · have : roundEven (x / 2 ^ (a - ((p : ℤ) - 1))) ≤ roundEven (y / 2 ^ (a - ((p : ℤ) - 1))) :=
      roundEven_mono (by gcongr)
    have : (roundEven (x / 2 ^ (a - ((p : ℤ) - 1))) : K) ≤ roundEven (y / 2 ^ (a - ((p : ℤ) - 1))) := by exact_mod_cast this
    gcongr

theorem roundBits_zero (p : Nat) : roundBits p (0 : K) = 0 := if_pos rfl

theorem roundBits_nonneg (p : Nat) {x : K} (h : 0 ≤ x) : 0 ≤ roundBits p x := by
  unfold roundBits
  split_ifs
  · rfl
  · have : (0 : ℤ) ≤ roundEven (x / 2 ^ (Int.log 2 |x| - ((p : ℤ) - 1))) := by
      rw [← roundEven_int (K := K) 0]
      apply roundEven_mono
      push_cast
      positivity
    have : (0 : K) ≤ roundEven (x / 2 ^ (Int.log 2 |x| - ((p : ℤ) - 1))) := by exact_mod_cast this
    positivity

theorem roundBits_mono {p : Nat} (hp : 1 ≤ p) : Monotone (roundBits p : K → K) := by
  intro x y h
  rcases lt_or_ge 0 x with hx | hx
  · exact roundBits_mono_pos hp hx h
  · rcases lt_or_ge y 0 with hy | hy
    · have := roundBits_mono_pos hp (neg_pos.2 hy) (neg_le_neg h)
      rw [roundBits_neg, roundBits_neg] at this
      linarith
    · have h1 := roundBits_nonneg p hy
      have h2 := roundBits_nonneg p (neg_nonneg.2 hx)
      rw [roundBits_neg] at h2
      linarith

theorem roundBits_rounds {p : Nat} (hp : 1 ≤ p) : RoundsWithin (1 / 2 ^ p : K) (roundBits p) :=
  ⟨roundBits_mono hp, roundBits_neg p, roundBits_near p⟩

/-- Integers that are not too large are kept. -/
theorem roundBits_int {p : Nat} (hp : 1 ≤ p) {n : ℤ} (h : |n| ≤ 2 ^ p) : roundBits p (n : K) = n := by
  by_cases h0 : n = 0
  · subst h0
    simp [roundBits]
  have hn : (0 : K) < |(n : K)| := abs_pos.2 (by exact_mod_cast h0)
  have hc : ∀ k : ℤ, ((2 : ℕ) : K) ^ k = (2 : K) ^ k := by intro k; norm_num
  have k1 := Int.zpow_log_le_self (b := 2) (by norm_num) hn
  have k2 := Int.lt_zpow_succ_log_self (b := 2) (by norm_num) |(n : K)|
  rw [hc] at k1 k2
  have k0 : 0 ≤ Int.log 2 |(n : K)| := by
    have : (1 : K) ≤ |(n : K)| := by exact_mod_cast Int.one_le_abs h0
    have := Int.log_mono_right (b := 2) (by norm_num) this
    simpa using this
  have h' : |(n : K)| ≤ 2 ^ p := by exact_mod_cast h
  have k3 : Int.log 2 |(n : K)| ≤ p := by
    by_contra hh
    have : (2 : K) ^ ((p : ℤ) + 1) ≤ 2 ^ Int.log 2 |(n : K)| := zpow_le_zpow_right₀ (by norm_num) (by omega)
    have h4 : (2 : K) ^ (p : ℤ) < 2 ^ ((p : ℤ) + 1) := zpow_lt_zpow_right₀ (by norm_num) (by omega)
    rw [zpow_natCast] at h4
    linarith
  unfold roundBits
  rw [if_neg (by exact_mod_cast h0)]
  generalize Int.log 2 |(n : K)| = k at *
  have key : ∃ m : ℤ, (n : K) / 2 ^ (k - ((p : ℤ) - 1)) = m := by
    rcases k3.lt_or_eq with hk | rfl
    · refine ⟨n * 2 ^ (p - 1 - k.toNat), ?_⟩
      rw [show k - ((p : ℤ) - 1) = -((p - 1 - k.toNat : ℕ) : ℤ) by omega, zpow_neg, zpow_natCast]
      push_cast
      field_simp
    · have : |(n : K)| = 2 ^ p := by
        apply le_antisymm h'
        rw [zpow_natCast] at k1
        exact k1
      have hn' : |n| = 2 ^ p := by exact_mod_cast this
      rw [show (p : ℤ) - ((p : ℤ) - 1) = 1 by ring, zpow_one]
      rcases abs_choice n with ha | ha
      · rw [ha] at hn'
        cases p with
        | zero => omega
        | succ p => exact ⟨2 ^ p, by rw [hn']; push_cast; rw [pow_succ]; field_simp⟩
      · have hn'' : n = -2 ^ p := by omega
        cases p with
        | zero => omega
        | succ p => exact ⟨-2 ^ p, by rw [hn'']; push_cast; rw [pow_succ]; field_simp⟩
  obtain ⟨m, hm⟩ := key
  rw [hm, roundEven_int, ← hm]
  have : (0 : K) < 2 ^ (k - ((p : ℤ) - 1)) := by positivity
  field_simp

end Geometrix
