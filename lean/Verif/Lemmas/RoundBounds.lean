import Mathlib.Tactic.GCongr
import Verif.Lemmas.EstimateNear
import Verif.Lemmas.Orient2d

/-!
Bounds for rounding errors in terms of what was computed.
-/

set_option linter.unusedSectionVars false

namespace Geometrix

open Spec

variable {K : Type*} [Field K] [LinearOrder K] [IsStrictOrderedRing K] [FloorRing K]

theorem abs_round_le {p : Nat} (hp : 1 ≤ p) {x P : K} (h : |x| ≤ P) : |roundBits p x| ≤ roundBits p P := by
  rw [roundBits_abs]
  exact roundBits_mono hp h

/-- `x'` was computed for `x` with `n` roundings on top of each other, and `P` in the same way with absolute values. -/
structure Near (p n : Nat) (x' x P : K) : Prop where
  le : |x'| ≤ P
  near : |x - x'| ≤ ((1 + 1 / 2 ^ p) ^ n - 1) * P

theorem Near.nonneg {p n : Nat} {x' x P : K} (h : Near p n x' x P) : 0 ≤ P := (abs_nonneg _).trans h.le

theorem Near.diff {p : Nat} (hp : 1 ≤ p) (x : K) : Near p 1 (roundBits p x) x |roundBits p x| :=
  ⟨le_rfl, by rw [pow_one, add_sub_cancel_left]; exact roundBits_rel hp x⟩

theorem one_le_eps (p n : Nat) : (1 : K) ≤ (1 + 1 / 2 ^ p) ^ n :=
  one_le_pow₀ (by have : (0 : K) < 1 / 2 ^ p := by positivity
                  linarith)

theorem Near.mono {p m n : Nat} (hm : m ≤ n) {x' x P : K} (h : Near p m x' x P) : Near p n x' x P := by
  refine ⟨h.le, h.near.trans ?_⟩
  have h0 := h.nonneg
  have h1 : (0 : K) ≤ 1 / 2 ^ p := by positivity
  have : (1 + 1 / 2 ^ p : K) ^ m ≤ (1 + 1 / 2 ^ p) ^ n := pow_le_pow_right₀ (by linarith) hm
  gcongr

theorem Near.round {p n : Nat} (hp : 1 ≤ p) {x' x P : K} (h : Near p n x' x P) :
    Near p (n + 1) (roundBits p x') x (roundBits p P) := by
  have h1 := abs_round_le hp h.le
  refine ⟨h1, ?_⟩
  have h2 := roundBits_rel hp x'
  have h3 := round_le_of hp h.nonneg
  have h4 := abs_add_le (x - x') (x' - roundBits p x')
  rw [sub_add_sub_cancel] at h4
  have h5 := one_le_eps (K := K) p n
  have h6 := h.near
  have ε0 : (0 : K) ≤ 1 / 2 ^ p := by positivity
  generalize (1 / 2 ^ p : K) = ε at *
  have h7 : ((1 + ε) ^ n - 1) * P ≤ ((1 + ε) ^ n - 1) * ((1 + ε) * roundBits p P) :=
    mul_le_mul_of_nonneg_left h3 (by linarith)
  have h8 : ε * |roundBits p x'| ≤ ε * roundBits p P := mul_le_mul_of_nonneg_left h1 ε0
  rw [pow_succ]
  linarith

theorem Near.mulE {p m n : Nat} {x' x P y' y Q : K} (hx : Near p m x' x P) (hy : Near p n y' y Q) :
    Near p (m + n) (x' * y') (x * y) (P * Q) := by
  have hP := hx.nonneg
  have hQ := hy.nonneg
  refine ⟨by rw [abs_mul]; exact mul_le_mul hx.le hy.le (abs_nonneg _) hP, ?_⟩
  have e1 : x * y - x' * y' = (x - x') * (y - y') + (x - x') * y' + x' * (y - y') := by ring
  have a1 := abs_add_le ((x - x') * (y - y') + (x - x') * y') (x' * (y - y'))
  have a2 := abs_add_le ((x - x') * (y - y')) ((x - x') * y')
  rw [abs_mul] at a1
  rw [abs_mul, abs_mul] at a2
  have p1 := one_le_eps (K := K) p m
  have p2 := one_le_eps (K := K) p n
  have nx := hx.near
  have ny := hy.near
  have lx := hx.le
  have ly := hy.le
  rw [e1, pow_add]
  generalize (1 + 1 / 2 ^ p : K) ^ m = A at *
  generalize (1 + 1 / 2 ^ p : K) ^ n = B at *
  have b1 : |x - x'| * |y - y'| ≤ ((A - 1) * P) * ((B - 1) * Q) :=
    mul_le_mul nx ny (abs_nonneg _) (mul_nonneg (by linarith) hP)
  have b2 : |x - x'| * |y'| ≤ ((A - 1) * P) * Q := mul_le_mul nx ly (abs_nonneg _) (mul_nonneg (by linarith) hP)
  have b3 : |x'| * |y - y'| ≤ P * ((B - 1) * Q) := mul_le_mul lx ny (abs_nonneg _) hP
  linarith

theorem Near.addE {p n : Nat} {x' x P y' y Q : K} (hx : Near p n x' x P) (hy : Near p n y' y Q) :
    Near p n (x' + y') (x + y) (P + Q) := by
  refine ⟨(abs_add_le _ _).trans (add_le_add hx.le hy.le), ?_⟩
  have a1 := abs_add_le (x - x') (y - y')
  rw [show x - x' + (y - y') = x + y - (x' + y') by ring] at a1
  have := hx.near
  have := hy.near
  linarith

theorem Near.neg {p n : Nat} {x' x P : K} (hx : Near p n x' x P) : Near p n (-x') (-x) P := by
  refine ⟨by rw [abs_neg]; exact hx.le, ?_⟩
  rw [neg_sub_neg, abs_sub_comm]
  exact hx.near

theorem Near.subE {p n : Nat} {x' x P y' y Q : K} (hx : Near p n x' x P) (hy : Near p n y' y Q) :
    Near p n (x' - y') (x - y) (P + Q) := by
  rw [sub_eq_add_neg, sub_eq_add_neg]
  exact hx.addE hy.neg

theorem Near.mul {p m n : Nat} (hp : 1 ≤ p) {x' x P y' y Q : K} (hx : Near p m x' x P) (hy : Near p n y' y Q) :
    Near p (m + n + 1) (roundBits p (x' * y')) (x * y) (roundBits p (P * Q)) := (hx.mulE hy).round hp

theorem Near.add {p n : Nat} (hp : 1 ≤ p) {x' x P y' y Q : K} (hx : Near p n x' x P) (hy : Near p n y' y Q) :
    Near p (n + 1) (roundBits p (x' + y')) (x + y) (roundBits p (P + Q)) := (hx.addE hy).round hp

theorem Near.sub {p n : Nat} (hp : 1 ≤ p) {x' x P y' y Q : K} (hx : Near p n x' x P) (hy : Near p n y' y Q) :
    Near p (n + 1) (roundBits p (x' - y')) (x - y) (roundBits p (P + Q)) := (hx.subE hy).round hp

/-- A product of two differences, with the absolute value of what was computed. -/
theorem Near.prod {p : Nat} (hp : 1 ≤ p) (x y : K) :
    Near p 3 (roundBits p (roundBits p x * roundBits p y)) (x * y) |roundBits p (roundBits p x * roundBits p y)| := by
  rw [roundBits_abs, abs_mul]
  exact (Near.diff hp x).mul hp (Near.diff hp y)

theorem sign_of_rel {x d θ : K} (hθ : θ < 1) (h : |x - d| ≤ θ * |d|) : SignType.sign d = SignType.sign x := by
  by_cases hd : d = 0
  · rw [hd, abs_zero, mul_zero, sub_zero] at h
    rw [hd, abs_eq_zero.1 (le_antisymm h (abs_nonneg _))]
  · refine (sign_of_close (c := 1) le_rfl ?_).symm
    rw [one_mul]
    have := abs_pos.2 hd
    nlinarith

/-- The first test. -/
theorem sign_first {p n : Nat} (hp : 1 ≤ p) {x' x P c : K} (h : Near p n x' x P) (hc : 0 ≤ c)
    (hε : ((1 + 1 / 2 ^ p) ^ n - 1) * (1 + 1 / 2 ^ p) ^ 2 ≤ (1 - 1 / 2 ^ p) * c)
    (ht : roundBits p (c * roundBits p P) < |roundBits p x'|) :
    SignType.sign (roundBits p x') = SignType.sign x := by
  have h1 := roundBits_rel hp x'
  have h2 := round_le_of hp h.nonneg
  have hP := roundBits_nonneg p h.nonneg
  have h3 := round_le_of hp (mul_nonneg hc hP)
  have h4 := h.near
  have h5 := abs_add_le (x - x') (x' - roundBits p x')
  rw [sub_add_sub_cancel] at h5
  have ε0 : (0 : K) < 1 / 2 ^ p := by positivity
  have ε1 : (1 : K) / 2 ^ p < 1 := by
    rw [div_lt_one (by positivity)]
    exact one_lt_pow₀ (by norm_num) (by omega)
  have p1 := one_le_eps (K := K) p n
  generalize (1 / 2 ^ p : K) = ε at *
  generalize (1 + ε) ^ n = A at *
  generalize roundBits p (c * roundBits p P) = e at *
  generalize roundBits p P = Q at *
  generalize roundBits p x' = d at *
  have a1 : (A - 1) * P ≤ (A - 1) * ((1 + ε) * Q) := mul_le_mul_of_nonneg_left h2 (by linarith)
  have a2 := mul_le_mul_of_nonneg_right hε hP
  have a3 : (1 - ε) * (c * Q) ≤ (1 - ε) * ((1 + ε) * e) := mul_le_mul_of_nonneg_left h3 (by linarith)
  have a4 : (1 - ε) * ((1 + ε) * e) < (1 - ε) * ((1 + ε) * |d|) :=
    mul_lt_mul_of_pos_left (mul_lt_mul_of_pos_left ht (by linarith)) (by linarith)
  have a5 : (1 + ε) * ((A - 1) * P) < (1 + ε) * ((1 - ε) * |d|) := by
    have : (1 + ε) * ((A - 1) * P) ≤ (1 + ε) * ((A - 1) * ((1 + ε) * Q)) := mul_le_mul_of_nonneg_left a1 (by linarith)
    linarith
  have a6 := lt_of_mul_lt_mul_left a5 (by linarith)
  refine (sign_of_close (c := 1) le_rfl ?_).symm
  rw [one_mul]
  linarith

/-- `x'` is an approximation of `x`: both in terms of `W`. -/
structure Appr (δ β x x' W : K) : Prop where
  pos : 0 ≤ W
  near : |x - x'| ≤ δ * W
  le : |x'| ≤ β * W

theorem Appr.size {δ β x x' W : K} (h : Appr δ β x x' W) : |x| ≤ (δ + β) * W := by
  have a1 := abs_add_le (x - x') x'
  rw [sub_add_cancel] at a1
  have := h.near
  have := h.le
  linarith

theorem Appr.add {δ β x x' W y y' V : K} (hx : Appr δ β x x' W) (hy : Appr δ β y y' V) :
    Appr δ β (x + y) (x' + y') (W + V) := by
  refine ⟨add_nonneg hx.pos hy.pos, ?_, ?_⟩
  · have a1 := abs_add_le (x - x') (y - y')
    rw [show x - x' + (y - y') = x + y - (x' + y') by ring] at a1
    have := hx.near
    have := hy.near
    linarith
  · have := abs_add_le x' y'
    have := hx.le
    have := hy.le
    linarith

theorem Appr.neg {δ β x x' W : K} (hx : Appr δ β x x' W) : Appr δ β (-x) (-x') W :=
  ⟨hx.pos, by rw [neg_sub_neg, abs_sub_comm]; exact hx.near, by rw [abs_neg]; exact hx.le⟩

theorem Appr.sub {δ β x x' W y y' V : K} (hx : Appr δ β x x' W) (hy : Appr δ β y y' V) :
    Appr δ β (x - y) (x' - y') (W + V) := by
  rw [sub_eq_add_neg, sub_eq_add_neg]
  exact hx.add hy.neg

theorem Appr.mul {δ β γ η x x' W y y' V : K} (h1 : 0 ≤ δ) (h2 : 0 ≤ β) (hx : Appr δ β x x' W) (hy : Appr γ η y y' V) :
    Appr (δ * (γ + η) + β * γ) (β * η) (x * y) (x' * y') (W * V) := by
  have hW := hx.pos
  have hV := hy.pos
  refine ⟨mul_nonneg hW hV, ?_, ?_⟩
  · have e1 : x * y - x' * y' = (x - x') * y + x' * (y - y') := by ring
    rw [e1]
    have a1 := abs_add_le ((x - x') * y) (x' * (y - y'))
    rw [abs_mul, abs_mul] at a1
    have b1 : |x - x'| * |y| ≤ (δ * W) * ((γ + η) * V) := mul_le_mul hx.near hy.size (abs_nonneg _) (by positivity)
    have b2 : |x'| * |y - y'| ≤ (β * W) * (γ * V) := mul_le_mul hx.le hy.near (abs_nonneg _) (by positivity)
    linarith
  · rw [abs_mul]
    have b1 : |x'| * |y'| ≤ (β * W) * (η * V) := mul_le_mul hx.le hy.le (abs_nonneg _) (by positivity)
    linarith

theorem Appr.diff {p : Nat} (hp : 1 ≤ p) (x : K) : Appr (1 / 2 ^ p) 1 x (roundBits p x) |roundBits p x| :=
  ⟨abs_nonneg _, roundBits_rel hp x, by rw [one_mul]⟩

/-- A float that is not a power of two lies further away from the smaller power of two than one unit in its last place, so that
the error that rounding to it makes is smaller compared with it. -/
theorem round_rel_of_ne {p : Nat} (hp : 1 ≤ p) {x : K} (h : ∀ k : ℤ, |roundBits p x| ≠ 2 ^ k) :
    (1 + 2 / 2 ^ p) * |x - roundBits p x| ≤ 1 / 2 ^ p * |roundBits p x| := by
  by_cases hx : x = 0
  · rw [hx, roundBits_zero]; simp
  · obtain ⟨e, -, -, h3, h4, -, h6, -⟩ := roundBits_spec hp hx
    have h7 : (2 : K) ^ (p - 1 + e : ℤ) < |roundBits p x| := lt_of_le_of_ne h6 (h _).symm
    have h8 := Spec.OnGrid.step (onGrid_pow (K := K) (a := e) (b := p - 1 + e) (by omega)) h3.abs h7
    have e1 : (2 : K) ^ (e - 1) = 1 / 2 ^ p * 2 ^ (p - 1 + e : ℤ) := by
      rw [show (p - 1 + e : ℤ) = p + (e - 1) by ring, two_zpow_add, zpow_natCast]
      field_simp
    have e2 : (2 : K) ^ e = 2 / 2 ^ p * 2 ^ (p - 1 + e : ℤ) := by
      rw [show (p - 1 + e : ℤ) = p + (e - 1) by ring, two_zpow_add, zpow_natCast, show (2 : K) ^ e = 2 * 2 ^ (e - 1) by
        rw [show e = 1 + (e - 1) by ring, two_zpow_add]; simp]
      field_simp
    have h9 : (1 + 2 / 2 ^ p : K) * |x - roundBits p x| ≤ (1 + 2 / 2 ^ p) * (1 / 2 ^ p * 2 ^ (p - 1 + e : ℤ)) := by
      rw [← e1]
      exact mul_le_mul_of_nonneg_left h4 (by positivity)
    rw [e2] at h8
    have h10 : 1 / 2 ^ p * ((1 + 2 / 2 ^ p) * (2 : K) ^ (p - 1 + e : ℤ)) ≤ 1 / 2 ^ p * |roundBits p x| := by
      have : (1 + 2 / 2 ^ p) * (2 : K) ^ (p - 1 + e : ℤ) ≤ |roundBits p x| := by linarith
      gcongr
    linarith

theorem isFloat_mul_pow {p : Nat} {x y : K} (hx : IsFloat p x) {k : ℤ} (hy : |y| = 2 ^ k) : IsFloat p (x * y) := by
  rcases abs_choice y with h | h
  · rw [← h, hy]; exact isFloat_shift hx k
  · rw [show y = -|y| by rw [h, neg_neg], hy, mul_neg]
    exact (isFloat_shift hx k).neg

/-- A product of two differences. Either it is exact, or the differences have smaller errors. -/
theorem Appr.prod {p : Nat} (hp : 1 ≤ p) (x y : K) :
    Appr (2 / 2 ^ p + (1 / 2 ^ p) ^ 2) (1 + 1 / 2 ^ p) (x * y) (roundBits p x * roundBits p y)
      |roundBits p (roundBits p x * roundBits p y)| := by
  have hr := roundBits_rel hp (roundBits p x * roundBits p y)
  have hle : |roundBits p x * roundBits p y| ≤ (1 + 1 / 2 ^ p) * |roundBits p (roundBits p x * roundBits p y)| := by
    have a1 := abs_add_le (roundBits p x * roundBits p y - roundBits p (roundBits p x * roundBits p y))
      (roundBits p (roundBits p x * roundBits p y))
    rw [sub_add_cancel] at a1
    linarith
  refine ⟨abs_nonneg _, ?_, hle⟩
  have e2 : (2 / 2 ^ p : K) = 2 * (1 / 2 ^ p) := by ring
  have ε0 : (0 : K) < 1 / 2 ^ p := by positivity
  by_cases hk : ∃ k : ℤ, |roundBits p x| = 2 ^ k ∨ |roundBits p y| = 2 ^ k
  · have hf : IsFloat p (roundBits p x * roundBits p y) := by
      obtain ⟨k, hk | hk⟩ := hk
      · rw [mul_comm]; exact isFloat_mul_pow (roundBits_isFloat hp _) hk
      · exact isFloat_mul_pow (roundBits_isFloat hp _) hk
    rw [hf.round hp]
    have := prod_pert (roundBits_rel hp x) (roundBits_rel hp y)
    rw [add_sub_cancel, add_sub_cancel] at this
    rw [e2]
    exact this
  · push Not at hk
    have h1 := round_rel_of_ne hp fun k => (hk k).1
    have h2 := round_rel_of_ne hp fun k => (hk k).2
    rw [e2] at h1 h2 ⊢
    generalize (1 / 2 ^ p : K) = ε at *
    have pos : 0 < 1 + 2 * ε := by linarith
    have h1' : |x - roundBits p x| ≤ ε / (1 + 2 * ε) * |roundBits p x| := by
      rw [div_mul_eq_mul_div, le_div_iff₀ pos]
      linarith
    have h2' : |y - roundBits p y| ≤ ε / (1 + 2 * ε) * |roundBits p y| := by
      rw [div_mul_eq_mul_div, le_div_iff₀ pos]
      linarith
    have := prod_pert h1' h2'
    rw [add_sub_cancel, add_sub_cancel] at this
    refine this.trans ?_
    have c0 : 0 ≤ 2 * (ε / (1 + 2 * ε)) + (ε / (1 + 2 * ε)) ^ 2 := by positivity
    refine (mul_le_mul_of_nonneg_left hle c0).trans ?_
    rw [← mul_assoc]
    refine mul_le_mul_of_nonneg_right ?_ (abs_nonneg _)
    have e3 : (2 * (ε / (1 + 2 * ε)) + (ε / (1 + 2 * ε)) ^ 2) * (1 + ε) = ε * ((2 + 5 * ε) * (1 + ε)) / (1 + 2 * ε) ^ 2 := by
      field_simp
      ring
    rw [e3, div_le_iff₀ (by positivity)]
    have : 0 ≤ ε * (ε * (1 + 3 * ε)) := by positivity
    have : 0 ≤ ε ^ 2 * (1 + 2 * ε) ^ 2 := by positivity
    linarith

/-- What was computed in place of `W`, without cancellation. -/
structure Up (p n : Nat) (W P : K) : Prop where
  pos : 0 ≤ P
  le : W ≤ (1 + 1 / 2 ^ p) ^ n * P

theorem Up.abs {p : Nat} (x : K) : Up p 0 |x| |x| := ⟨abs_nonneg _, by simp⟩

theorem Up.mono {p m n : Nat} (h : m ≤ n) {W P : K} (hx : Up p m W P) : Up p n W P := by
  refine ⟨hx.pos, hx.le.trans ?_⟩
  have h0 := hx.pos
  have h1 : (0 : K) ≤ 1 / 2 ^ p := by positivity
  have : (1 + 1 / 2 ^ p : K) ^ m ≤ (1 + 1 / 2 ^ p) ^ n := pow_le_pow_right₀ (by linarith) h
  gcongr

theorem Up.round {p n : Nat} (hp : 1 ≤ p) {W P : K} (h : Up p n W P) : Up p (n + 1) W (roundBits p P) := by
  refine ⟨roundBits_nonneg p h.pos, h.le.trans ?_⟩
  have h1 := round_le_of hp h.pos
  have h2 := one_le_eps (K := K) p n
  rw [pow_succ, mul_assoc]
  exact mul_le_mul_of_nonneg_left h1 (by linarith)

theorem Up.add {p n : Nat} (hp : 1 ≤ p) {W P V Q : K} (h : Up p n W P) (k : Up p n V Q) :
    Up p (n + 1) (W + V) (roundBits p (P + Q)) := by
  refine Up.round hp ⟨add_nonneg h.pos k.pos, ?_⟩
  have := h.le
  have := k.le
  linarith

theorem Up.mul {p m n : Nat} (hp : 1 ≤ p) {W P V Q : K} (hV : 0 ≤ V) (h : Up p m W P) (k : Up p n V Q) :
    Up p (m + n + 1) (W * V) (roundBits p (P * Q)) := by
  refine Up.round hp ⟨mul_nonneg h.pos k.pos, ?_⟩
  have h1 := one_le_eps (K := K) p m
  have h2 := h.pos
  have := mul_le_mul h.le k.le hV (by positivity)
  rw [pow_add]
  linarith

theorem Up.nonneg_bound {p n : Nat} {W P : K} (h : Up p n W P) : 0 ≤ (1 + 1 / 2 ^ p : K) ^ n * P := by
  have := h.pos
  positivity

/-- The second test. -/
theorem sign_second {p n : Nat} (hp : 1 ≤ p) {D S det W P δ c κ : K} (hδ : 0 ≤ δ) (hc : 0 ≤ c) (hκ : 0 ≤ κ)
    (hκ1 : κ * (1 / 2 ^ p) < 1)
    (hD : |D - S| ≤ δ * W) (hW : Up p n W P) (hS : |det - S| ≤ κ * (1 / 2 ^ p) * |S|)
    (hε : δ * (1 + 1 / 2 ^ p) ^ (n + 1) * (1 + κ * (1 / 2 ^ p)) < c)
    (ht : roundBits p (c * P) ≤ |det|) : SignType.sign det = SignType.sign D := by
  have h1 := round_le_of hp (mul_nonneg hc hW.pos)
  have h2 := hW.le
  have hP := hW.pos
  have hs : SignType.sign S = SignType.sign det := sign_of_rel hκ1 hS
  rw [← hs]
  have p1 := one_le_eps (K := K) p n
  have ε0 : (0 : K) < 1 / 2 ^ p := by positivity
  rw [pow_succ] at hε
  generalize (1 / 2 ^ p : K) = ε at *
  generalize (1 + ε) ^ n = A at *
  have h3 : |det| ≤ (1 + κ * ε) * |S| := by
    have := abs_add_le (det - S) S
    rw [sub_add_cancel] at this
    linarith
  have h4 : |D - S| ≤ δ * (A * P) := hD.trans (mul_le_mul_of_nonneg_left h2 hδ)
  have k1 : 0 < 1 + κ * ε := by have := mul_nonneg hκ ε0.le; linarith
  have h5 : c * P ≤ (1 + ε) * ((1 + κ * ε) * |S|) :=
    h1.trans (mul_le_mul_of_nonneg_left (ht.trans h3) (by linarith))
  rcases hP.eq_or_lt with h0 | h0
  · rw [← h0, mul_zero, mul_zero] at h4
    rw [sub_eq_zero.1 (abs_eq_zero.1 (le_antisymm h4 (abs_nonneg _)))]
  · refine (sign_of_close (c := 1) le_rfl ?_).symm
    rw [one_mul]
    have h6 : δ * (A * (1 + ε)) * (1 + κ * ε) * P < c * P := mul_lt_mul_of_pos_right hε h0
    have h7 : (1 + ε) * (1 + κ * ε) * (δ * (A * P)) < (1 + ε) * (1 + κ * ε) * |S| := by linarith
    have h8 := lt_of_mul_lt_mul_left h7 (by positivity)
    linarith

/-- The third test. -/
theorem sign_third {p : Nat} (hp : 10 ≤ p) {D S L t det P r c ρ : K} (hc : 0 ≤ c) (hP : 0 ≤ P)
    (hD : |D - (S + L)| + |t - L| ≤ r * P) (hr : r ≤ 99 / 100 * c) (hS : |det - S| ≤ 20 / 7 * (1 / 2 ^ p) * |S|)
    (hρ : 3 * (1 / 2 ^ p) ≤ ρ)
    (ht : roundBits p (roundBits p (c * P) + roundBits p (ρ * |det|)) ≤ |roundBits p (det + t)|) :
    SignType.sign (roundBits p (det + t)) = SignType.sign D := by
  have hp1 : 1 ≤ p := by omega
  have ε0 : (0 : K) < 1 / 2 ^ p := by positivity
  have ε1 : (1 : K) / 2 ^ p ≤ 1 / 1024 := by
    apply one_div_le_one_div_of_le (by norm_num)
    have : (2 : K) ^ 10 ≤ 2 ^ p := pow_le_pow_right₀ (by norm_num) hp
    norm_num at this
    exact this
  have ρ0 : 0 ≤ ρ := by linarith
  have q1 := mul_nonneg hc hP
  have q2 := mul_nonneg ρ0 (abs_nonneg det)
  have e1 := round_le_of hp1 q1
  have e2 := round_le_of hp1 q2
  have e3 := round_le_of hp1 (add_nonneg (roundBits_nonneg p q1) (roundBits_nonneg p q2))
  have r1 := roundBits_nonneg p q1
  have r2 := roundBits_nonneg p q2
  have hr' := roundBits_rel hp1 (det + t)
  generalize roundBits p (roundBits p (c * P) + roundBits p (ρ * |det|)) = e at *
  generalize roundBits p (c * P) = x at *
  generalize roundBits p (ρ * |det|) = y at *
  generalize roundBits p (det + t) = d at *
  generalize (1 / 2 ^ p : K) = ε at *
  refine sign_of_rel (θ := 999 / 1000) (by norm_num) ?_
  have b1 : |det - S| ≤ 2 / 100 * ε * |det| + 287 / 100 * ε * |det| := by
    have a1 : |S| ≤ |det| + |det - S| := by
      have := abs_sub det (det - S)
      rwa [sub_sub_cancel] at this
    have a2 : 20 / 7 * ε * |S| ≤ 20 / 7 * (1 / 1024) * |S| := by gcongr
    have a3 : |S| ≤ 1003 / 1000 * |det| := by
      have := abs_nonneg det
      linarith
    have a4 : 20 / 7 * ε * |S| ≤ 20 / 7 * ε * (1003 / 1000 * |det|) := by gcongr
    have a5 : 0 ≤ ε * |det| := by positivity
    linarith
  have b2 : |D - d| ≤ |D - (S + L)| + |t - L| + |det - S| + |det + t - d| := by
    have a1 := abs_add_le (D - (S + L)) (det + t - d)
    have a2 := abs_add_le (t - L) (det - S)
    have a3 := abs_sub (D - (S + L) + (det + t - d)) (t - L + (det - S))
    rw [show D - (S + L) + (det + t - d) - (t - L + (det - S)) = D - d by ring] at a3
    linarith
  have b3 : ρ * |det| ≥ 3 * ε * |det| := mul_le_mul_of_nonneg_right hρ (abs_nonneg _)
  have b4 : r * P ≤ 99 / 100 * c * P := mul_le_mul_of_nonneg_right hr hP
  have b5 : (1 + ε) * x ≤ 1025 / 1024 * x := by gcongr; linarith
  have b6 : (1 + ε) * y ≤ 1025 / 1024 * y := by gcongr; linarith
  have b7 : (1 + ε) * e ≤ 1025 / 1024 * |d| := by
    have : (1 + ε) * e ≤ (1 + ε) * |d| := by gcongr
    have : (1 + ε) * |d| ≤ 1025 / 1024 * |d| := by gcongr; linarith
    linarith
  have b8 : ε * |d| ≤ 1 / 1024 * |d| := by gcongr
  have := abs_nonneg d
  linarith

end Geometrix
