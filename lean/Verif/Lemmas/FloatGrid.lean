import Verif.Spec.Expansion
import Verif.Lemmas.Rounding

/-!
Floating point numbers as points of grids, and the rounding of sums of them.
-/

set_option linter.unusedSectionVars false

namespace Geometrix

open Spec

variable {K : Type*} [Field K] [LinearOrder K] [IsStrictOrderedRing K]

theorem two_zpow_pos (e : ℤ) : (0 : K) < 2 ^ e := by positivity

theorem two_zpow_succ (e : ℤ) : (2 : K) ^ (e + 1) = 2 * 2 ^ e := by
  rw [zpow_add_one₀ (by norm_num)]; ring

theorem two_zpow_pred (e : ℤ) : (2 : K) ^ (e - 1) = 2 ^ e / 2 := by
  rw [zpow_sub_one₀ (by norm_num)]; ring

theorem two_zpow_add (a b : ℤ) : (2 : K) ^ (a + b) = 2 ^ a * 2 ^ b := zpow_add₀ (by norm_num) a b

theorem two_zpow_le {a b : ℤ} (h : a ≤ b) : (2 : K) ^ a ≤ 2 ^ b := zpow_le_zpow_right₀ (by norm_num) h

theorem two_zpow_lt {a b : ℤ} (h : a < b) : (2 : K) ^ a < 2 ^ b := zpow_lt_zpow_right₀ (by norm_num) h

theorem two_zpow_le_iff {a b : ℤ} : (2 : K) ^ a ≤ 2 ^ b ↔ a ≤ b := zpow_le_zpow_iff_right₀ (by norm_num)

theorem two_zpow_lt_iff {a b : ℤ} : (2 : K) ^ a < 2 ^ b ↔ a < b := zpow_lt_zpow_iff_right₀ (by norm_num)

/-- A power that is twice another, and so on. -/
theorem two_zpow_le_half {a b : ℤ} (h : a < b) : 2 * (2 : K) ^ a ≤ 2 ^ b := by
  rw [← two_zpow_succ]; exact two_zpow_le (by omega)

theorem onGrid_zero (e : ℤ) : OnGrid e (0 : K) := ⟨0, by simp⟩

theorem Spec.OnGrid.add {e : ℤ} {x y : K} (hx : OnGrid e x) (hy : OnGrid e y) : OnGrid e (x + y) := by
  obtain ⟨m, rfl⟩ := hx
  obtain ⟨n, rfl⟩ := hy
  exact ⟨m + n, by push_cast; ring⟩

theorem Spec.OnGrid.neg {e : ℤ} {x : K} (hx : OnGrid e x) : OnGrid e (-x) := by
  obtain ⟨m, rfl⟩ := hx
  exact ⟨-m, by push_cast; ring⟩

theorem Spec.OnGrid.sub {e : ℤ} {x y : K} (hx : OnGrid e x) (hy : OnGrid e y) : OnGrid e (x - y) := by
  rw [sub_eq_add_neg]; exact hx.add hy.neg

theorem Spec.OnGrid.mul {a b : ℤ} {x y : K} (hx : OnGrid a x) (hy : OnGrid b y) : OnGrid (a + b) (x * y) := by
  obtain ⟨m, rfl⟩ := hx
  obtain ⟨n, rfl⟩ := hy
  exact ⟨m * n, by rw [two_zpow_add]; push_cast; ring⟩

theorem onGrid_pow {a b : ℤ} (h : a ≤ b) : OnGrid a ((2 : K) ^ b) := by
  refine ⟨2 ^ (b - a).toNat, ?_⟩
  push_cast
  rw [← zpow_natCast, ← two_zpow_add]
  congr 1
  omega

theorem Spec.OnGrid.mono {a b : ℤ} {x : K} (hx : OnGrid b x) (h : a ≤ b) : OnGrid a x := by
  obtain ⟨m, rfl⟩ := hx
  obtain ⟨n, hn⟩ := onGrid_pow (K := K) h
  exact ⟨m * n, by rw [hn]; push_cast; ring⟩

theorem Spec.OnGrid.shift {a b : ℤ} {x : K} (hx : OnGrid a x) : OnGrid (a + b) (2 ^ b * x) := by
  have := (onGrid_pow (K := K) (le_refl b)).mul hx
  rwa [add_comm] at this

theorem Spec.OnGrid.abs {e : ℤ} {x : K} (hx : OnGrid e x) : OnGrid e |x| := by
  rcases abs_choice x with h | h <;> rw [h]
  · exact hx
  · exact hx.neg

theorem onGrid_neg_iff {e : ℤ} {x : K} : OnGrid e (-x) ↔ OnGrid e x :=
  ⟨fun h => by simpa using h.neg, OnGrid.neg⟩

/-- Numbers of a grid are at least one step apart. -/
theorem Spec.OnGrid.step {e : ℤ} {x y : K} (hx : OnGrid e x) (hy : OnGrid e y) (h : x < y) : x + 2 ^ e ≤ y := by
  obtain ⟨m, rfl⟩ := hx
  obtain ⟨n, rfl⟩ := hy
  have h2 := two_zpow_pos (K := K) e
  have hmn : m < n := by
    by_contra hc
    have : (n : K) ≤ m := by exact_mod_cast not_lt.1 hc
    nlinarith
  have : (m : K) + 1 ≤ n := by exact_mod_cast hmn
  nlinarith

theorem Spec.OnGrid.le_of_lt_add {e : ℤ} {x y : K} (hx : OnGrid e x) (hy : OnGrid e y) (h : x < y + 2 ^ e) : x ≤ y := by
  by_contra hc
  exact absurd (hy.step hx (not_le.1 hc)) (not_le.2 h)

theorem Spec.OnGrid.le_abs {e : ℤ} {x : K} (hx : OnGrid e x) (h : x ≠ 0) : 2 ^ e ≤ |x| := by
  have := (onGrid_zero e).step hx.abs (abs_pos.2 h)
  simpa using this

theorem Spec.OnGrid.eq_zero {e : ℤ} {x : K} (hx : OnGrid e x) (h : |x| < 2 ^ e) : x = 0 := by
  by_contra hc
  exact absurd (hx.le_abs hc) (not_le.2 h)

theorem isFloat_zero (p : Nat) : IsFloat p (0 : K) := ⟨0, 0, by simp, by simp⟩

theorem Spec.IsFloat.neg {p : Nat} {x : K} (h : IsFloat p x) : IsFloat p (-x) := by
  obtain ⟨m, e, hm, rfl⟩ := h
  exact ⟨-m, e, by rwa [abs_neg], by push_cast; ring⟩

theorem isFloat_neg_iff {p : Nat} {x : K} : IsFloat p (-x) ↔ IsFloat p x :=
  ⟨fun h => by simpa using h.neg, IsFloat.neg⟩

theorem isFloat_of {p : Nat} (hp : 1 ≤ p) {e : ℤ} {x : K} (h : OnGrid e x) (hx : |x| ≤ 2 ^ (p + e : ℤ)) : IsFloat p x := by
  obtain ⟨m, rfl⟩ := h
  rw [abs_mul, abs_of_pos (two_zpow_pos (K := K) e), two_zpow_add] at hx
  have h1 : |(m : K)| ≤ 2 ^ (p : ℤ) := le_of_mul_le_mul_right hx (two_zpow_pos e)
  have h2 : |m| ≤ 2 ^ p := by
    rw [zpow_natCast] at h1
    exact_mod_cast h1
  rcases h2.lt_or_eq with h3 | h3
  · exact ⟨m, e, h3, rfl⟩
  · have h4 : (2 : ℤ) ^ p = 2 ^ (p - 1) * 2 := by rw [← pow_succ]; congr 1; omega
    have h5 : (0 : ℤ) < 2 ^ (p - 1) := by positivity
    rcases abs_choice m with h6 | h6
    · refine ⟨2 ^ (p - 1), e + 1, by rw [abs_of_pos h5]; omega, ?_⟩
      have : m = 2 ^ (p - 1) * 2 := by omega
      rw [this, two_zpow_succ]; push_cast; ring
    · refine ⟨-2 ^ (p - 1), e + 1, by rw [abs_neg, abs_of_pos h5]; omega, ?_⟩
      have : m = -(2 ^ (p - 1) * 2) := by omega
      rw [this, two_zpow_succ]; push_cast; ring

theorem Spec.IsFloat.grid {p : Nat} {x : K} (h : IsFloat p x) : ∃ e : ℤ, OnGrid e x ∧ |x| < 2 ^ (p + e : ℤ) := by
  obtain ⟨m, e, hm, rfl⟩ := h
  refine ⟨e, ⟨m, rfl⟩, ?_⟩
  rw [abs_mul, abs_of_pos (two_zpow_pos (K := K) e), two_zpow_add, zpow_natCast]
  have : |(m : K)| < 2 ^ p := by exact_mod_cast hm
  exact mul_lt_mul_of_pos_right this (two_zpow_pos e)

/-- A number with few bits, in the middle of the exponents. -/
theorem isFloat_pow {p : Nat} (hp : 1 ≤ p) (k : ℤ) : IsFloat p ((2 : K) ^ k) :=
  isFloat_of hp (onGrid_pow (le_refl k)) (by rw [abs_of_pos (two_zpow_pos k)]; exact two_zpow_le (by omega))

section

variable [FloorRing K]

theorem exists_log {x : K} (hx : x ≠ 0) : ∃ k : ℤ, Int.log 2 |x| = k ∧ 2 ^ k ≤ |x| ∧ |x| < 2 ^ (k + 1) := by
  have hpos : 0 < |x| := abs_pos.2 hx
  have k1 := Int.zpow_log_le_self (b := 2) (by norm_num) hpos
  have k2 := Int.lt_zpow_succ_log_self (b := 2) (by norm_num) |x|
  have hc : ∀ k : ℤ, ((2 : ℕ) : K) ^ k = (2 : K) ^ k := by intro k; norm_num
  rw [hc] at k1 k2
  exact ⟨_, rfl, k1, k2⟩

/-- A float has a grid on which it has exactly `p` bits. -/
theorem Spec.IsFloat.canon {p : Nat} {x : K} (h : IsFloat p x) (hx : x ≠ 0) :
    ∃ e : ℤ, OnGrid e x ∧ 2 ^ (p - 1 + e : ℤ) ≤ |x| ∧ |x| < 2 ^ (p + e : ℤ) := by
  obtain ⟨e', h1, h2⟩ := h.grid
  obtain ⟨k, -, k1, k2⟩ := exists_log hx
  have : (2 : K) ^ k < 2 ^ (p + e' : ℤ) := lt_of_le_of_lt k1 h2
  rw [two_zpow_lt_iff] at this
  refine ⟨k - (p - 1), h1.mono (by omega), ?_, ?_⟩
  · rwa [show (p - 1 + (k - (p - 1)) : ℤ) = k by ring]
  · rwa [show (p + (k - (p - 1)) : ℤ) = k + 1 by ring]

/-- What rounding does to a number: `e` is the exponent of the last place. -/
theorem roundBits_spec {p : Nat} (hp : 1 ≤ p) {x : K} (hx : x ≠ 0) :
    ∃ e : ℤ, 2 ^ (p - 1 + e : ℤ) ≤ |x| ∧ |x| < 2 ^ (p + e : ℤ) ∧ OnGrid e (roundBits p x) ∧
      |x - roundBits p x| ≤ 2 ^ (e - 1) ∧ (|x - roundBits p x| = 2 ^ (e - 1) → OnGrid (e + 1) (roundBits p x)) ∧
      2 ^ (p - 1 + e : ℤ) ≤ |roundBits p x| ∧ |roundBits p x| ≤ 2 ^ (p + e : ℤ) := by
  obtain ⟨k, hk, k1, k2⟩ := exists_log hx
  have e0 : (p - 1 + (k - (p - 1)) : ℤ) = k := by ring
  have e1 : (p + (k - (p - 1)) : ℤ) = k + 1 := by ring
  have hE : roundBits p x = (roundEven (x / 2 ^ (k - ((p : ℤ) - 1))) : K) * 2 ^ (k - ((p : ℤ) - 1)) := by
    unfold roundBits
    rw [if_neg hx, hk]
  have hgrid : OnGrid (k - ((p : ℤ) - 1)) (roundBits p x) := ⟨_, hE⟩
  have hw := two_zpow_pos (K := K) (k - ((p : ℤ) - 1))
  have hx' : x = x / 2 ^ (k - ((p : ℤ) - 1)) * 2 ^ (k - ((p : ℤ) - 1)) := by field_simp
  have hnear := roundEven_near (x / 2 ^ (k - ((p : ℤ) - 1)))
  have herr : |x - roundBits p x| =
      |(roundEven (x / 2 ^ (k - ((p : ℤ) - 1))) : K) - x / 2 ^ (k - ((p : ℤ) - 1))| * 2 ^ (k - ((p : ℤ) - 1)) := by
    rw [← abs_of_pos hw, ← abs_mul, abs_of_pos hw, hE, abs_sub_comm]
    congr 1
    rw [sub_mul]
    congr 1
  refine ⟨k - (p - 1), by rwa [e0], by rwa [e1], hgrid, ?_, ?_, ?_, ?_⟩
  · rw [herr, two_zpow_pred]
    nlinarith
  · intro h
    rw [herr, two_zpow_pred] at h
    have h' : |(roundEven (x / 2 ^ (k - ((p : ℤ) - 1))) : K) - x / 2 ^ (k - ((p : ℤ) - 1))| = 1 / 2 := by
      have : (|(roundEven (x / 2 ^ (k - ((p : ℤ) - 1))) : K) - x / 2 ^ (k - ((p : ℤ) - 1))| - 1 / 2) *
          2 ^ (k - ((p : ℤ) - 1)) = 0 := by rw [sub_mul, h]; ring
      rcases mul_eq_zero.1 this with h3 | h3
      · linarith
      · exact absurd h3 hw.ne'
    have heven : Even (roundEven (x / 2 ^ (k - ((p : ℤ) - 1)))) := by
      generalize x / 2 ^ (k - ((p : ℤ) - 1)) = y at h' ⊢
      have f1 := Int.fract_nonneg y
      have f2 := Int.fract_lt_one y
      have f3 := Int.floor_add_fract y
      unfold roundEven at h' ⊢
      split_ifs at h' ⊢ with g1 g2 g3
      · exfalso
        rw [abs_of_nonpos (by linarith)] at h'
        linarith
      · exfalso
        push_cast at h'
        rw [abs_of_nonneg (by linarith)] at h'
        linarith
      · exact g3
      · rw [Int.even_add_one]; exact g3
    obtain ⟨n, hn⟩ := heven
    refine ⟨n, ?_⟩
    rw [hE, hn, two_zpow_succ]
    push_cast
    ring
  · rw [e0]
    have hm := roundBits_mono (K := K) hp k1
    have hpow : roundBits p ((2 : K) ^ k) = 2 ^ k := by
      have hlog : Int.log 2 |(2 : K) ^ k| = k := by
        rw [abs_of_pos (two_zpow_pos k)]
        have := Int.log_zpow (R := K) (b := 2) (by norm_num) k
        simpa using this
      unfold roundBits
      rw [if_neg (two_zpow_pos k).ne', hlog]
      have : (2 : K) ^ k / 2 ^ (k - ((p : ℤ) - 1)) = ((2 ^ (p - 1) : ℤ) : K) := by
        rw [← zpow_sub₀ (by norm_num)]
        push_cast
        rw [← zpow_natCast]
        congr 1
        omega
      rw [this, roundEven_int, ← this]
      field_simp
    rw [hpow] at hm
    rcases abs_choice x with h | h
    · rw [h] at hm
      exact hm.trans (le_abs_self _)
    · rw [h, roundBits_neg] at hm
      exact hm.trans (neg_le_abs _)
  · rw [e1]
    have hm := roundBits_mono (K := K) hp k2.le
    have hpow : roundBits p ((2 : K) ^ (k + 1)) = 2 ^ (k + 1) := by
      have hlog : Int.log 2 |(2 : K) ^ (k + 1)| = k + 1 := by
        rw [abs_of_pos (two_zpow_pos _)]
        have := Int.log_zpow (R := K) (b := 2) (by norm_num) (k + 1)
        simpa using this
      unfold roundBits
      rw [if_neg (two_zpow_pos _).ne', hlog]
      have : (2 : K) ^ (k + 1) / 2 ^ (k + 1 - ((p : ℤ) - 1)) = ((2 ^ (p - 1) : ℤ) : K) := by
        rw [← zpow_sub₀ (by norm_num)]
        push_cast
        rw [← zpow_natCast]
        congr 1
        omega
      rw [this, roundEven_int, ← this]
      field_simp
    rw [hpow] at hm
    have habs : |roundBits p x| = roundBits p |x| := by
      rcases abs_choice x with h | h
      · have : 0 ≤ x := by rw [← h]; exact abs_nonneg x
        rw [h, abs_of_nonneg (roundBits_nonneg p this)]
      · have : 0 ≤ -x := by rw [← h]; exact abs_nonneg x
        rw [h, ← abs_neg, ← roundBits_neg, abs_of_nonneg (roundBits_nonneg p this)]
    rw [habs]
    exact hm

theorem roundBits_isFloat {p : Nat} (hp : 1 ≤ p) (x : K) : IsFloat p (roundBits p x) := by
  by_cases hx : x = 0
  · rw [hx, roundBits_zero]; exact isFloat_zero p
  · obtain ⟨e, -, -, h, -, -, -, h'⟩ := roundBits_spec hp hx
    exact isFloat_of hp h h'

/-- Floats are kept by rounding. -/
theorem Spec.IsFloat.round {p : Nat} (hp : 1 ≤ p) {x : K} (h : IsFloat p x) : roundBits p x = x := by
  by_cases hx : x = 0
  · rw [hx, roundBits_zero]
  · obtain ⟨e, h1, h2, h3, h4, -⟩ := roundBits_spec hp hx
    obtain ⟨e', g1, g2, g3⟩ := h.canon hx
    have a1 : p - 1 + e < p + e' := two_zpow_lt_iff.1 (lt_of_le_of_lt h1 g3)
    have a2 : p - 1 + e' < p + e := two_zpow_lt_iff.1 (lt_of_le_of_lt g2 h2)
    have : e = e' := by omega
    subst this
    have := (g1.sub h3).eq_zero (lt_of_le_of_lt h4 (two_zpow_lt (by omega)))
    linarith

/-- A number of a grid is rounded to a number of the grid. -/
theorem Spec.OnGrid.round {p : Nat} (hp : 1 ≤ p) {e : ℤ} {x : K} (h : OnGrid e x) : OnGrid e (roundBits p x) := by
  by_cases hx : x = 0
  · rw [hx, roundBits_zero]; exact onGrid_zero e
  · obtain ⟨e', h1, h2, h3, -⟩ := roundBits_spec hp hx
    rcases le_or_gt e e' with hle | hlt
    · exact h3.mono hle
    · rw [(isFloat_of hp h (h2.le.trans (two_zpow_le (by omega)))).round hp]
      exact h

/-- The absolute error. -/
theorem roundBits_err {p : Nat} (hp : 1 ≤ p) {k : ℤ} {x : K} (h : |x| ≤ 2 ^ k) :
    |x - roundBits p x| ≤ 2 ^ (k - p - 1) := by
  rcases h.lt_or_eq with h | h
  · by_cases hx : x = 0
    · rw [hx, roundBits_zero]; simp; positivity
    · obtain ⟨e, h1, h2, h3, h4, -⟩ := roundBits_spec hp hx
      have : (p - 1 + e : ℤ) < k := two_zpow_lt_iff.1 (lt_of_le_of_lt h1 h)
      exact h4.trans (two_zpow_le (by omega))
  · have : IsFloat p x := by
      rcases abs_choice x with h' | h'
      · rw [← h', h]; exact isFloat_pow hp k
      · rw [← isFloat_neg_iff, ← h', h]; exact isFloat_pow hp k
    rw [this.round hp]; simp; positivity

theorem roundBits_abs (p : Nat) (x : K) : |roundBits p x| = roundBits p |x| := by
  rcases abs_choice x with h | h
  · have : 0 ≤ x := by rw [← h]; exact abs_nonneg x
    rw [h, abs_of_nonneg (roundBits_nonneg p this)]
  · have : 0 ≤ -x := by rw [← h]; exact abs_nonneg x
    rw [h, ← abs_neg, ← roundBits_neg, abs_of_nonneg (roundBits_nonneg p this)]

theorem roundBits_abs_le {p : Nat} (hp : 1 ≤ p) {x y : K} (h : |x| ≤ y) (hy : IsFloat p y) : |roundBits p x| ≤ y := by
  rw [roundBits_abs, ← hy.round hp]
  exact roundBits_mono hp h

theorem le_roundBits_abs {p : Nat} (hp : 1 ≤ p) {x y : K} (h : y ≤ |x|) (hy : IsFloat p y) : y ≤ |roundBits p x| := by
  rw [roundBits_abs, ← hy.round hp]
  exact roundBits_mono hp h

/-- No float is nearer than the rounded number. -/
theorem roundBits_nearest {p : Nat} (hp : 1 ≤ p) {x y : K} (hy : IsFloat p y) : |x - roundBits p x| ≤ |x - y| := by
  by_cases hx : x = 0
  · rw [hx, roundBits_zero]; simp
  obtain ⟨e, h1, h2, h3, h4, -, h6, h7⟩ := roundBits_spec hp hx
  by_contra hc
  rw [not_le] at hc
  have hw := two_zpow_pos (K := K) e
  rw [two_zpow_pred] at h4
  -- `y` is less than one place away from the rounded number
  have hd : |roundBits p x - y| < 2 ^ e := by
    calc |roundBits p x - y| = |(x - y) - (x - roundBits p x)| := by congr 1; ring
      _ ≤ |x - y| + |x - roundBits p x| := abs_sub _ _
      _ < 2 ^ e := by linarith
  have hyg : ∀ g : ℤ, OnGrid e y → False := fun _ hg => by
    have := (h3.sub hg).eq_zero hd
    have : roundBits p x = y := by linarith
    rw [this] at hc
    exact lt_irrefl _ hc
  by_cases hy0 : y = 0
  · exact hyg 0 (hy0 ▸ onGrid_zero e)
  obtain ⟨e', g1, g2, g3⟩ := hy.canon hy0
  rcases le_or_gt e e' with hle | hlt
  · exact hyg 0 (g1.mono hle)
  · -- then `|y|` is below the binade of `x`, and the lower end of the binade is nearer
    have hy1 : |y| < 2 ^ (p - 1 + e : ℤ) := lt_of_lt_of_le g3 (two_zpow_le (by omega))
    have hpw : IsFloat p ((2 : K) ^ (p - 1 + e : ℤ)) := isFloat_pow hp _
    have hpg : OnGrid e ((2 : K) ^ (p - 1 + e : ℤ)) := onGrid_pow (by omega)
    -- the lower end with the sign of x
    have key : ∃ z : K, OnGrid e z ∧ |x - z| ≤ |x - y| := by
      rcases abs_choice x with h | h
      · refine ⟨2 ^ (p - 1 + e : ℤ), hpg, ?_⟩
        rw [h] at h1
        rw [abs_of_nonneg (by linarith)]
        have := (abs_lt.1 hy1).2
        exact le_trans (by linarith) (le_abs_self _)
      · refine ⟨-2 ^ (p - 1 + e : ℤ), hpg.neg, ?_⟩
        rw [h] at h1
        rw [abs_of_nonpos (by linarith)]
        have := (abs_lt.1 hy1).1
        exact le_trans (by linarith) (neg_le_abs _)
    obtain ⟨z, hz, hz'⟩ := key
    have hd : |roundBits p x - z| < 2 ^ e := by
      calc |roundBits p x - z| = |(x - z) - (x - roundBits p x)| := by congr 1; ring
        _ ≤ |x - z| + |x - roundBits p x| := abs_sub _ _
        _ < 2 ^ e := by linarith
    have := (h3.sub hz).eq_zero hd
    have : roundBits p x = z := by linarith
    rw [this] at hc
    linarith

/-- The error of a rounding is well below what is returned: of two numbers that are equally near the even one is taken. -/
theorem roundBits_wellBelow {p : Nat} (hp : 1 ≤ p) (x : K) : WellBelow (x - roundBits p x) (roundBits p x) := by
  by_cases hx : x = 0
  · rw [hx, roundBits_zero]
    exact ⟨0, onGrid_zero 0, by simp⟩
  · obtain ⟨e, -, -, h3, h4, h5, -⟩ := roundBits_spec hp hx
    rcases h4.lt_or_eq with h | h
    · exact ⟨e, h3, h⟩
    · refine ⟨e + 1, h5 h, ?_⟩
      rw [h]
      exact two_zpow_lt (by omega)

/-- The error compared with what is returned. -/
theorem roundBits_rel {p : Nat} (hp : 1 ≤ p) (x : K) : |x - roundBits p x| ≤ 1 / 2 ^ p * |roundBits p x| := by
  by_cases hx : x = 0
  · rw [hx, roundBits_zero]; simp
  · obtain ⟨e, -, -, -, h4, -, h6, -⟩ := roundBits_spec hp hx
    have : (2 : K) ^ (e - 1) = 1 / 2 ^ p * 2 ^ (p - 1 + e : ℤ) := by
      rw [show (p - 1 + e : ℤ) = p + (e - 1) by ring, two_zpow_add, zpow_natCast]
      field_simp
    rw [this] at h4
    exact h4.trans (by gcongr)

end

end Geometrix
