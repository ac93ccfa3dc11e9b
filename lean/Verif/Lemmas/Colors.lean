import Mathlib.Tactic.Ring
import Mathlib.Tactic.Linarith
import Mathlib.Tactic.NormNum
import Mathlib.Tactic.FieldSimp
import Mathlib.Tactic.IntervalCases
import Verif.Spec.Colors
import Verif.Model.Colors

namespace Geometrix

open Spec

variable {K : Type*} [Field K] [LinearOrder K] [IsStrictOrderedRing K] [FloorRing K]

/-- The hue in sixths from the hue `n / 6`, if the sixth is known. -/
theorem fract_sixths {h n f : K} {z : ℤ} (c : K) (h1 : 6 * h = n + c + f + 6 * z) (h2 : 0 ≤ c + f) (h3 : c + f < 6) :
    6 * Int.fract (h - n / 6) = c + f := by
  have h4 : h - n / 6 = (c + f) / 6 + z := by
    field_simp
    linarith
  rw [h4, Int.fract_add_intCast, Int.fract_eq_self.mpr ⟨by positivity, by linarith⟩]
  ring

theorem toByte_ok {x : K} (h0 : 0 ≤ x) (h1 : x ≤ 1) : toByte (x * 255) = .ok ⌊255 * x⌋.toNat := by
  rw [toByte, if_pos ⟨by nlinarith, by nlinarith⟩, mul_comm]

theorem primaryOf_unit {n h s v : K} (hs : 0 ≤ s) (hs1 : s ≤ 1) (hv : 0 ≤ v) (hv1 : v ≤ 1) :
    0 ≤ primaryOf n h s v ∧ primaryOf n h s v ≤ 1 := by
  rw [primaryOf]
  have a0 : 0 ≤ max 0 (min 1 (hueDistance n h - 1)) := le_max_left _ _
  have a1 : max 0 (min 1 (hueDistance n h - 1)) ≤ 1 := max_le zero_le_one (min_le_left _ _)
  have b0 : 0 ≤ s * max 0 (min 1 (hueDistance n h - 1)) := mul_nonneg hs a0
  have b1 : s * max 0 (min 1 (hueDistance n h - 1)) ≤ 1 := mul_le_one₀ hs1 a0 a1
  constructor
  · exact mul_nonneg hv (by linarith)
  · exact mul_le_one₀ hv1 (by linarith) (by linarith)

/-- The number of a primary colour, from its distance. -/
theorem primaryOf_eq {n h s v d : K} (hd : 6 * Int.fract (h - n / 6) = d) :
    primaryOf n h s v = v * (1 - s * max 0 (min 1 (min d (6 - d) - 1))) := by
  rw [primaryOf, hueDistance, hd]

theorem ramp_full {d : K} (h : d ≤ 1 ∨ 5 ≤ d) : max 0 (min 1 (min d (6 - d) - 1)) = 0 := by
  refine max_eq_left (le_trans (min_le_right _ _) ?_)
  rcases h with h | h
  · linarith [min_le_left d (6 - d)]
  · linarith [min_le_right d (6 - d)]

theorem ramp_down {d : K} (h : 1 ≤ d) (h2 : d ≤ 2) : max 0 (min 1 (min d (6 - d) - 1)) = d - 1 := by
  rw [min_eq_left (by linarith : d ≤ 6 - d), min_eq_right (by linarith), max_eq_right (by linarith)]

theorem ramp_up {d : K} (h : 4 ≤ d) (h2 : d ≤ 5) : max 0 (min 1 (min d (6 - d) - 1)) = 5 - d := by
  rw [min_eq_right (by linarith : 6 - d ≤ d), min_eq_right (by linarith), max_eq_right (by linarith)]
  ring

theorem ramp_none {d : K} (h : 2 ≤ d) (h2 : d ≤ 4) : max 0 (min 1 (min d (6 - d) - 1)) = 1 := by
  have : 2 ≤ min d (6 - d) := le_min h (by linarith)
  rw [min_eq_left (by linarith), max_eq_right zero_le_one]

theorem hsvSwitch_primary {h s v : K} (hi : 0 ≤ h) (hb : h * 6 < 2 ^ 31) :
    hsvSwitch h s v = .ok (primaryOf 0 h s v, primaryOf 2 h s v, primaryOf 4 h s v) := by
  have f0 : 0 ≤ h * 6 - ⌊h * 6⌋ := Int.fract_nonneg (h * 6)
  have f1 : h * 6 - ⌊h * 6⌋ < 1 := Int.fract_lt_one (h * 6)
  have i0 : 0 ≤ ⌊h * 6⌋ := Int.floor_nonneg.mpr (by positivity)
  have i1 : ⌊h * 6⌋ < 2 ^ 31 := by
    rw [Int.floor_lt]; norm_num at hb ⊢; exact hb
  rw [hsvSwitch]
  obtain ⟨i, hi'⟩ : ∃ i, i = ⌊h * 6⌋ := ⟨_, rfl⟩
  obtain ⟨f, hf⟩ : ∃ f, f = h * 6 - (⌊h * 6⌋ : K) := ⟨_, rfl⟩
  rw [← hf] at f0 f1 ⊢
  rw [← hi'] at i0 i1 hf ⊢
  rw [if_neg (by omega)]
  have e1 : i.tmod 6 = i % 6 := Int.tmod_eq_emod_of_nonneg i0
  have hq : i = 6 * (i / 6) + i % 6 := by omega
  have hqK : (i : K) = 6 * ((i / 6 : ℤ) : K) + ((i % 6 : ℤ) : K) := by exact_mod_cast hq
  have r0 : 0 ≤ i % 6 := Int.emod_nonneg _ (by norm_num)
  have r1 : i % 6 < 6 := Int.emod_lt_of_pos _ (by norm_num)
  rw [e1]
  generalize i % 6 = r at *
  generalize i / 6 = z at *
  have h6 : 6 * h = r + f + 6 * z := by rw [hqK] at hf; linarith
  have D : ∀ (n c : K) (w : ℤ), (r : K) + 6 * z = n + c + 6 * w → 0 ≤ c + f → c + f < 6 → 6 * Int.fract (h - n / 6) = c + f :=
    fun n c w hw a b => fract_sixths c (by linarith) a b
  interval_cases r
  · rw [if_pos rfl, primaryOf_eq (D 0 0 z (by push_cast; ring) (by linarith) (by linarith)),
      primaryOf_eq (D 2 4 (z - 1) (by push_cast; ring) (by linarith) (by linarith)),
      primaryOf_eq (D 4 2 (z - 1) (by push_cast; ring) (by linarith) (by linarith)), ramp_full (Or.inl (by linarith)),
      ramp_up (by linarith) (by linarith), ramp_none (by linarith) (by linarith)]
    congr 2
    · ring
    · congr 1 <;> ring
  · rw [if_neg (by norm_num), if_pos rfl, primaryOf_eq (D 0 1 z (by push_cast; ring) (by linarith) (by linarith)),
      primaryOf_eq (D 2 5 (z - 1) (by push_cast; ring) (by linarith) (by linarith)),
      primaryOf_eq (D 4 3 (z - 1) (by push_cast; ring) (by linarith) (by linarith)), ramp_down (by linarith) (by linarith),
      ramp_full (Or.inr (by linarith)), ramp_none (by linarith) (by linarith)]
    congr 2
    · ring
    · congr 1 <;> ring
  · rw [if_neg (by norm_num), if_neg (by norm_num), if_pos rfl,
      primaryOf_eq (D 0 2 z (by push_cast; ring) (by linarith) (by linarith)),
      primaryOf_eq (D 2 0 z (by push_cast; ring) (by linarith) (by linarith)),
      primaryOf_eq (D 4 4 (z - 1) (by push_cast; ring) (by linarith) (by linarith)), ramp_none (by linarith) (by linarith),
      ramp_full (Or.inl (by linarith)), ramp_up (by linarith) (by linarith)]
    congr 2
    · ring
    · congr 1 <;> ring
  · rw [if_neg (by norm_num), if_neg (by norm_num), if_neg (by norm_num), if_pos rfl,
      primaryOf_eq (D 0 3 z (by push_cast; ring) (by linarith) (by linarith)),
      primaryOf_eq (D 2 1 z (by push_cast; ring) (by linarith) (by linarith)),
      primaryOf_eq (D 4 5 (z - 1) (by push_cast; ring) (by linarith) (by linarith)), ramp_none (by linarith) (by linarith),
      ramp_down (by linarith) (by linarith), ramp_full (Or.inr (by linarith))]
    congr 2
    · ring
    · congr 1 <;> ring
  · rw [if_neg (by norm_num), if_neg (by norm_num), if_neg (by norm_num), if_neg (by norm_num), if_pos rfl,
      primaryOf_eq (D 0 4 z (by push_cast; ring) (by linarith) (by linarith)),
      primaryOf_eq (D 2 2 z (by push_cast; ring) (by linarith) (by linarith)),
      primaryOf_eq (D 4 0 z (by push_cast; ring) (by linarith) (by linarith)), ramp_up (by linarith) (by linarith),
      ramp_none (by linarith) (by linarith), ramp_full (Or.inl (by linarith))]
    congr 2
    · ring
    · congr 1 <;> ring
  · rw [if_neg (by norm_num), if_neg (by norm_num), if_neg (by norm_num), if_neg (by norm_num), if_neg (by norm_num), if_pos rfl,
      primaryOf_eq (D 0 5 z (by push_cast; ring) (by linarith) (by linarith)),
      primaryOf_eq (D 2 3 z (by push_cast; ring) (by linarith) (by linarith)),
      primaryOf_eq (D 4 1 z (by push_cast; ring) (by linarith) (by linarith)), ramp_full (Or.inr (by linarith)),
      ramp_none (by linarith) (by linarith), ramp_down (by linarith) (by linarith)]
    congr 2
    · ring
    · congr 1 <;> ring

end Geometrix
