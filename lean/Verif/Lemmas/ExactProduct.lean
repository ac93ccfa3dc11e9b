import Verif.Lemmas.ExactSum

/-!
The product of floating point numbers with its error.
-/

set_option linter.unusedSectionVars false

namespace Geometrix

open Spec

variable {K : Type*} [Field K] [LinearOrder K] [IsStrictOrderedRing K] [FloorRing K]

theorem roundBits_grid {p : Nat} (hp : 1 ≤ p) {e : ℤ} {x : K} (h : 2 ^ (p - 1 + e : ℤ) ≤ |x|) : OnGrid e (roundBits p x) := by
  have hx : x ≠ 0 := by
    rintro rfl
    rw [abs_zero] at h
    exact absurd h (not_le.2 (two_zpow_pos _))
  obtain ⟨e', -, h2, h3, -⟩ := roundBits_spec hp hx
  have : (p - 1 + e : ℤ) < p + e' := two_zpow_lt_iff.1 (lt_of_le_of_lt h h2)
  exact h3.mono (by omega)

theorem splitFloat_zero (p : Nat) (σ : K) : splitFloat (roundBits p) σ 0 = (0, 0) := by
  simp [splitFloat, roundBits_zero]

/-- `Split` cuts a number in two. -/
theorem splitFloat_spec {p s : Nat} (hs1 : 1 ≤ s) (hs : s + 1 ≤ p) {a : K} {e : ℤ} (hg : OnGrid e a)
    (h1 : 2 ^ (p - 1 + e : ℤ) ≤ |a|) (h2 : |a| < 2 ^ (p + e : ℤ)) :
    ∃ hi lo : K, splitFloat (roundBits p) (2 ^ s + 1) a = (hi, lo) ∧ hi + lo = a ∧ OnGrid (s + e) hi ∧ OnGrid e lo ∧
      |hi| ≤ 2 ^ (p + e : ℤ) ∧ |lo| ≤ 2 ^ (s + e - 1 : ℤ) := by
  have hp : 1 ≤ p := by omega
  have hS : (2 : K) ^ s = 2 ^ (s : ℤ) := (zpow_natCast _ _).symm
  have hS1 : (2 : K) ≤ 2 ^ (s : ℤ) := by
    calc (2 : K) = 2 ^ (1 : ℤ) := by norm_num
      _ ≤ _ := two_zpow_le (by omega)
  have hσ : (2 ^ s + 1) * a = 2 ^ (s : ℤ) * a + a := by rw [hS]; ring
  have ha : |2 ^ (s : ℤ) * a| = 2 ^ (s : ℤ) * |a| := by rw [abs_mul, abs_of_pos (two_zpow_pos _)]
  have hc1 : |(2 ^ s + 1) * a| = 2 ^ (s : ℤ) * |a| + |a| := by
    rw [hS, abs_mul, abs_of_pos (by have := two_zpow_pos (K := K) s; linarith)]; ring
  have hge : 2 ^ (p - 1 + (s + e) : ℤ) ≤ |(2 ^ s + 1) * a| := by
    rw [hc1, show (p - 1 + (s + e) : ℤ) = s + (p - 1 + e) by ring, two_zpow_add]
    have := mul_le_mul_of_nonneg_left h1 (two_zpow_pos (K := K) s).le
    have := abs_nonneg a
    linarith
  have hcg := roundBits_grid hp hge
  unfold splitFloat
  simp only
  rcases h1.eq_or_lt with h1 | h1
  · -- a power of two
    have hg' : OnGrid (p - 1 + e) a := by
      rcases abs_choice a with h | h
      · rw [h] at h1; rw [← h1]; exact onGrid_pow le_rfl
      · rw [h] at h1; rw [← onGrid_neg_iff, ← h1]; exact onGrid_pow le_rfl
    have hf1 : IsFloat p ((2 ^ s + 1) * a) := by
      refine isFloat_of hp (e := p - 1 + e) ?_ ?_
      · rw [hσ]
        refine OnGrid.add ?_ hg'
        exact (OnGrid.shift (b := s) hg').mono (by omega)
      · rw [hc1, ← h1]
        calc (2 : K) ^ (s : ℤ) * 2 ^ (p - 1 + e : ℤ) + 2 ^ (p - 1 + e : ℤ) ≤ 2 * (2 ^ (s : ℤ) * 2 ^ (p - 1 + e : ℤ)) := by
              have := two_zpow_pos (K := K) (p - 1 + e)
              nlinarith
          _ = 2 ^ (s + (p - 1 + e) + 1 : ℤ) := by rw [two_zpow_succ, two_zpow_add (s : ℤ)]
          _ ≤ _ := two_zpow_le (by omega)
    have hf2 : IsFloat p (2 ^ (s : ℤ) * a) := by
      refine isFloat_of hp (e := p - 1 + e) ((OnGrid.shift (b := s) hg').mono (by omega)) ?_
      rw [ha, ← h1, ← two_zpow_add]
      exact two_zpow_le (by omega)
    have hfa : IsFloat p a := isFloat_of hp hg h2.le
    have hab : (2 ^ s + 1) * a - a = 2 ^ (s : ℤ) * a := by rw [hσ]; ring
    have hab' : (2 ^ s + 1) * a - 2 ^ (s : ℤ) * a = a := by rw [hσ]; ring
    refine ⟨a, 0, ?_, by ring, hg'.mono (by omega), onGrid_zero e, h2.le, by simp; positivity⟩
    rw [hf1.round hp, hab, hf2.round hp, hab', hfa.round hp, sub_self, roundBits_zero]
  · have hstep := (onGrid_pow (K := K) (a := e) (b := p - 1 + e) (by omega)).step hg.abs h1
    have hstep2 := hg.abs.step (onGrid_pow (K := K) (a := e) (b := p + e) (by omega)) h2
    have hle : |(2 ^ s + 1) * a| ≤ 2 ^ (p + s + e + 1 : ℤ) := by
      rw [hc1, two_zpow_succ, show (p + s + e : ℤ) = s + (p + e) by ring, two_zpow_add]
      have := mul_le_mul_of_nonneg_left h2.le (two_zpow_pos (K := K) s).le
      have := abs_nonneg a
      nlinarith
    have hcerr := roundBits_err hp hle
    rw [show (p + s + e + 1 - p - 1 : ℤ) = s + e by ring, hσ] at hcerr
    rw [hσ] at hcg ⊢
    generalize roundBits p (2 ^ (s : ℤ) * a + a) = c at *
    have hca : c - a = 2 ^ (s : ℤ) * a - (2 ^ (s : ℤ) * a + a - c) := by ring
    have hsa : (2 : K) ^ (s : ℤ) * (2 ^ (p - 1 + e : ℤ) + 2 ^ e) ≤ 2 ^ (s : ℤ) * |a| :=
      mul_le_mul_of_nonneg_left hstep (two_zpow_pos (K := K) s).le
    have hsa2 : (2 : K) ^ (s : ℤ) * (|a| + 2 ^ e) ≤ 2 ^ (s : ℤ) * 2 ^ (p + e : ℤ) :=
      mul_le_mul_of_nonneg_left hstep2 (two_zpow_pos (K := K) s).le
    have hse : (2 : K) ^ (s + e : ℤ) = 2 ^ (s : ℤ) * 2 ^ e := two_zpow_add _ _
    have hlow : 2 ^ (p - 1 + (s + e) : ℤ) ≤ |c - a| := by
      have : |2 ^ (s : ℤ) * a| - |2 ^ (s : ℤ) * a + a - c| ≤ |c - a| := by rw [hca]; exact abs_sub_abs_le_abs_sub _ _
      rw [ha] at this
      rw [show (p - 1 + (s + e) : ℤ) = s + (p - 1 + e) by ring, two_zpow_add]
      rw [mul_add] at hsa
      linarith
    have hup : |c - a| ≤ 2 ^ (p + s + e : ℤ) := by
      have : |c - a| ≤ |2 ^ (s : ℤ) * a| + |2 ^ (s : ℤ) * a + a - c| := by rw [hca]; exact abs_sub _ _
      rw [ha] at this
      rw [show (p + s + e : ℤ) = s + (p + e) by ring, two_zpow_add]
      rw [mul_add] at hsa2
      linarith
    have hbg := roundBits_grid hp hlow
    have hberr := roundBits_err hp hup
    rw [show (p + s + e - p - 1 : ℤ) = s + e - 1 by ring] at hberr
    generalize roundBits p (c - a) = ab at *
    have hhg : OnGrid (s + e) (c - ab) := hcg.sub hbg
    have hdiff : |a - (c - ab)| ≤ 2 ^ (s + e - 1 : ℤ) := by
      rw [show a - (c - ab) = -(c - a - ab) by ring, abs_neg]; exact hberr
    have hhi : |c - ab| ≤ 2 ^ (p + e : ℤ) := by
      refine hhg.abs.le_of_lt_add (onGrid_pow (by omega)) ?_
      have : |c - ab| ≤ |a| + |a - (c - ab)| := by
        calc |c - ab| = |a - (a - (c - ab))| := by congr 1; ring
          _ ≤ _ := abs_sub _ _
      have := two_zpow_lt (K := K) (a := s + e - 1) (b := s + e) (by omega)
      linarith
    have hlog : OnGrid e (a - (c - ab)) := hg.sub (hhg.mono (by omega))
    have hf1 : IsFloat p (c - ab) := isFloat_of hp hhg (hhi.trans (two_zpow_le (by omega)))
    have hf2 : IsFloat p (a - (c - ab)) := isFloat_of hp hlog (hdiff.trans (two_zpow_le (by omega)))
    refine ⟨c - ab, a - (c - ab), ?_, by ring, hhg, hlog, hhi, hdiff⟩
    rw [hf1.round hp, hf2.round hp]

/-- What is needed of the number of bits of the two halves. -/
structure SplitBits (p s : Nat) : Prop where
  two : 2 ≤ s
  lt : s + 2 ≤ p
  large : p ≤ 2 * s
  small : 2 * s ≤ p + 1

/-- The error of a product is a float. -/
theorem prod_err_isFloat {p : Nat} (hp : 1 ≤ p) {a b : K} (ha : IsFloat p a) (hb : IsFloat p b) :
    IsFloat p (a * b - roundBits p (a * b)) := by
  obtain ⟨ea, a1, a2⟩ := ha.grid
  obtain ⟨eb, b1, b2⟩ := hb.grid
  have hg := a1.mul b1
  refine isFloat_of hp (hg.sub (hg.round hp)) ?_
  have : |a * b| ≤ 2 ^ (p + ea + (p + eb) : ℤ) := by
    rw [abs_mul, two_zpow_add]
    exact mul_le_mul a2.le b2.le (abs_nonneg b) (two_zpow_pos _).le
  exact (roundBits_err hp this).trans (two_zpow_le (by omega))

/-- The errors of `Two_Product` from the halves. -/
theorem twoProduct2Presplit_eq {p s : Nat} (h : SplitBits p s) {a b ahi alo bhi blo : K} {ea eb : ℤ}
    (a1 : 2 ^ (p - 1 + ea : ℤ) ≤ |a|) (a2 : |a| < 2 ^ (p + ea : ℤ)) (a3 : ahi + alo = a) (a4 : OnGrid (s + ea) ahi)
    (a5 : OnGrid ea alo) (a6 : |ahi| ≤ 2 ^ (p + ea : ℤ)) (a7 : |alo| ≤ 2 ^ (s + ea - 1 : ℤ))
    (b1 : 2 ^ (p - 1 + eb : ℤ) ≤ |b|) (b2 : |b| < 2 ^ (p + eb : ℤ)) (b3 : bhi + blo = b) (b4 : OnGrid (s + eb) bhi)
    (b5 : OnGrid eb blo) (b6 : |bhi| ≤ 2 ^ (p + eb : ℤ)) (b7 : |blo| ≤ 2 ^ (s + eb - 1 : ℤ)) :
    twoProduct2Presplit (roundBits p) a ahi alo b bhi blo = (roundBits p (a * b), a * b - roundBits p (a * b)) := by
  obtain ⟨h1, h2, h3, h4⟩ := h
  have hp : 1 ≤ p := by omega
  have bnd : ∀ {x y : K} {m n : ℤ}, |x| ≤ 2 ^ m → |y| ≤ 2 ^ n → |x * y| ≤ 2 ^ (m + n) := by
    intro x y m n hx hy
    rw [abs_mul, two_zpow_add]
    exact mul_le_mul hx hy (abs_nonneg _) (two_zpow_pos _).le
  have hab : |a * b| ≤ 2 ^ (p + ea + (p + eb) : ℤ) := bnd a2.le b2.le
  have habl : 2 ^ (p - 1 + (p - 1 + ea + eb) : ℤ) ≤ |a * b| := by
    rw [abs_mul, show (p - 1 + (p - 1 + ea + eb) : ℤ) = p - 1 + ea + (p - 1 + eb) by ring, two_zpow_add]
    exact mul_le_mul a1 b1 (two_zpow_pos _).le (abs_nonneg _)
  have hxg := roundBits_grid hp habl
  have hxe := roundBits_err hp hab
  -- the four products
  have g1 := a4.mul b4
  have g2 := a5.mul b4
  have g3 := a4.mul b5
  have g4 := a5.mul b5
  have f1 : IsFloat p (ahi * bhi) := isFloat_of hp g1 ((bnd a6 b6).trans (two_zpow_le (by omega)))
  have f2 : IsFloat p (alo * bhi) := isFloat_of hp g2 ((bnd a7 b6).trans (two_zpow_le (by omega)))
  have f3 : IsFloat p (ahi * blo) := isFloat_of hp g3 ((bnd a6 b7).trans (two_zpow_le (by omega)))
  have f4 : IsFloat p (alo * blo) := isFloat_of hp g4 ((bnd a7 b7).trans (two_zpow_le (by omega)))
  unfold twoProduct2Presplit
  simp only
  rw [f1.round hp, f2.round hp, f3.round hp, f4.round hp]
  generalize hx : roundBits p (a * b) = x at *
  have hxe' : |x - a * b| ≤ 2 ^ (p - 1 + ea + eb : ℤ) := by
    rw [abs_sub_comm]
    exact hxe.trans (two_zpow_le (by omega))
  have half : ∀ {u v : K} {m : ℤ}, |u| ≤ 2 ^ m → |v| ≤ 2 ^ m → |u + v| ≤ 2 ^ (m + 1) := by
    intro u v m hu hv
    rw [two_zpow_succ]
    have := abs_add_le u v
    linarith
  -- the first difference
  have e1 : IsFloat p (x - ahi * bhi) := by
    refine isFloat_of hp (e := p - 1 + ea + eb) (hxg.sub (g1.mono (by omega))) ?_
    have : x - ahi * bhi = (x - a * b) + (alo * b + ahi * blo) := by rw [← a3, ← b3]; ring
    rw [this]
    have k1 : |alo * b| ≤ 2 ^ (s + p + ea + eb - 1 : ℤ) := (bnd a7 b2.le).trans (two_zpow_le (by omega))
    have k2 : |ahi * blo| ≤ 2 ^ (s + p + ea + eb - 1 : ℤ) := (bnd a6 b7).trans (two_zpow_le (by omega))
    have k3 := half k1 k2
    have k4 : |x - a * b| ≤ 2 ^ (s + p + ea + eb - 1 + 1 : ℤ) := hxe'.trans (two_zpow_le (by omega))
    exact (half k4 k3).trans (two_zpow_le (by omega))
  rw [e1.round hp]
  have e2 : IsFloat p (x - ahi * bhi - alo * bhi) := by
    refine isFloat_of hp (e := s + ea + eb) (((hxg.mono (by omega)).sub (g1.mono (by omega))).sub (g2.mono (by omega))) ?_
    have : x - ahi * bhi - alo * bhi = (x - a * b) + a * blo := by rw [← a3, ← b3]; ring
    rw [this]
    have k1 : |a * blo| ≤ 2 ^ (s + p + ea + eb - 1 : ℤ) := (bnd a2.le b7).trans (two_zpow_le (by omega))
    have k4 : |x - a * b| ≤ 2 ^ (s + p + ea + eb - 1 : ℤ) := hxe'.trans (two_zpow_le (by omega))
    exact (half k4 k1).trans (two_zpow_le (by omega))
  rw [e2.round hp]
  have e3 : IsFloat p (x - ahi * bhi - alo * bhi - ahi * blo) := by
    refine isFloat_of hp (e := ea + eb)
      ((((hxg.mono (by omega)).sub (g1.mono (by omega))).sub (g2.mono (by omega))).sub (g3.mono (by omega))) ?_
    have : x - ahi * bhi - alo * bhi - ahi * blo = (x - a * b) + alo * blo := by rw [← a3, ← b3]; ring
    rw [this]
    have k1 : |alo * blo| ≤ 2 ^ (p - 1 + ea + eb : ℤ) := (bnd a7 b7).trans (two_zpow_le (by omega))
    exact (half hxe' k1).trans (two_zpow_le (by omega))
  rw [e3.round hp]
  have e4 : alo * blo - (x - ahi * bhi - alo * bhi - ahi * blo) = a * b - x := by rw [← a3, ← b3]; ring
  have e5 : IsFloat p (a * b - x) := by
    have ha : IsFloat p a := isFloat_of hp (e := ea) (a3 ▸ (a4.mono (by omega)).add a5) a2.le
    have hb : IsFloat p b := isFloat_of hp (e := eb) (b3 ▸ (b4.mono (by omega)).add b5) b2.le
    rw [← hx]
    exact prod_err_isFloat hp ha hb
  rw [e4, e5.round hp]

/-- `Two_Product` is exact. -/
theorem twoProduct_eq {p s : Nat} (h : SplitBits p s) {a b : K} (ha : IsFloat p a) (hb : IsFloat p b) :
    twoProduct (roundBits p) (2 ^ s + 1) a b = (roundBits p (a * b), a * b - roundBits p (a * b)) := by
  have h' := h
  obtain ⟨h1, h2, h3, h4⟩ := h'
  unfold twoProduct
  simp only
  by_cases ha0 : a = 0
  · rw [ha0, splitFloat_zero]
    simp [twoProduct2Presplit, roundBits_zero]
  by_cases hb0 : b = 0
  · rw [hb0, splitFloat_zero]
    simp [twoProduct2Presplit, roundBits_zero]
  obtain ⟨ea, a1, a2, a3⟩ := ha.canon ha0
  obtain ⟨eb, b1, b2, b3⟩ := hb.canon hb0
  obtain ⟨ahi, alo, e1, e2, e3, e4, e5, e6⟩ := splitFloat_spec (s := s) (by omega) (by omega) a1 a2 a3
  obtain ⟨bhi, blo, f1, f2, f3, f4, f5, f6⟩ := splitFloat_spec (s := s) (by omega) (by omega) b1 b2 b3
  rw [e1, f1]
  exact twoProduct2Presplit_eq h a2 a3 e2 e3 e4 e5 e6 b2 b3 f2 f3 f4 f5 f6

/-- `Square` is exact. -/
theorem squareTail_eq {p s : Nat} (h : SplitBits p s) {a : K} (ha : IsFloat p a) :
    squareTail (roundBits p) (2 ^ s + 1) a = (roundBits p (a * a), a * a - roundBits p (a * a)) := by
  obtain ⟨h1, h2, h3, h4⟩ := h
  have hp : 1 ≤ p := by omega
  by_cases ha0 : a = 0
  · unfold squareTail
    simp only
    rw [ha0, splitFloat_zero]
    simp [roundBits_zero]
  obtain ⟨ea, a1, a2, a3⟩ := ha.canon ha0
  obtain ⟨ahi, alo, e1, e2, e3, e4, e5, e6⟩ := splitFloat_spec (s := s) (by omega) (by omega) a1 a2 a3
  have bnd : ∀ {x y : K} {m n : ℤ}, |x| ≤ 2 ^ m → |y| ≤ 2 ^ n → |x * y| ≤ 2 ^ (m + n) := by
    intro x y m n hx hy
    rw [abs_mul, two_zpow_add]
    exact mul_le_mul hx hy (abs_nonneg _) (two_zpow_pos _).le
  have half : ∀ {u v : K} {m : ℤ}, |u| ≤ 2 ^ m → |v| ≤ 2 ^ m → |u + v| ≤ 2 ^ (m + 1) := by
    intro u v m hu hv
    rw [two_zpow_succ]
    have := abs_add_le u v
    linarith
  have hab : |a * a| ≤ 2 ^ (p + ea + (p + ea) : ℤ) := bnd a3.le a3.le
  have habl : 2 ^ (p - 1 + (p - 1 + ea + ea) : ℤ) ≤ |a * a| := by
    rw [abs_mul, show (p - 1 + (p - 1 + ea + ea) : ℤ) = p - 1 + ea + (p - 1 + ea) by ring, two_zpow_add]
    exact mul_le_mul a2 a2 (two_zpow_pos _).le (abs_nonneg _)
  have hxg := roundBits_grid hp habl
  have hxe := roundBits_err hp hab
  have g0 := e3.add e3
  have k0 := half e5 e5
  have g1 := e3.mul e3
  have g2 := g0.mul e4
  have g4 := e4.mul e4
  have f0 : IsFloat p (ahi + ahi) := isFloat_of hp g0 (k0.trans (two_zpow_le (by omega)))
  have f1 : IsFloat p (ahi * ahi) := isFloat_of hp g1 ((bnd e5 e5).trans (two_zpow_le (by omega)))
  have f2 : IsFloat p ((ahi + ahi) * alo) := isFloat_of hp g2 ((bnd k0 e6).trans (two_zpow_le (by omega)))
  have f4 : IsFloat p (alo * alo) := isFloat_of hp g4 ((bnd e6 e6).trans (two_zpow_le (by omega)))
  unfold squareTail
  simp only [e1]
  rw [f1.round hp, f0.round hp, f2.round hp, f4.round hp]
  have herr := prod_err_isFloat hp ha ha
  generalize hx : roundBits p (a * a) = x at *
  have hxe' : |x - a * a| ≤ 2 ^ (p - 1 + ea + ea : ℤ) := by
    rw [abs_sub_comm]
    exact hxe.trans (two_zpow_le (by omega))
  have d1 : IsFloat p (x - ahi * ahi) := by
    refine isFloat_of hp (e := p - 1 + ea + ea) (hxg.sub (g1.mono (by omega))) ?_
    rw [show x - ahi * ahi = (x - a * a) + (alo * a + ahi * alo) by rw [← e2]; ring]
    have k1 : |alo * a| ≤ 2 ^ (s + p + ea + ea - 1 : ℤ) := (bnd e6 a3.le).trans (two_zpow_le (by omega))
    have k2 : |ahi * alo| ≤ 2 ^ (s + p + ea + ea - 1 : ℤ) := (bnd e5 e6).trans (two_zpow_le (by omega))
    have k4 : |x - a * a| ≤ 2 ^ (s + p + ea + ea - 1 + 1 : ℤ) := hxe'.trans (two_zpow_le (by omega))
    exact (half k4 (half k1 k2)).trans (two_zpow_le (by omega))
  rw [d1.round hp]
  have d3 : IsFloat p (x - ahi * ahi - (ahi + ahi) * alo) := by
    refine isFloat_of hp (e := ea + ea) (((hxg.mono (by omega)).sub (g1.mono (by omega))).sub (g2.mono (by omega))) ?_
    rw [show x - ahi * ahi - (ahi + ahi) * alo = (x - a * a) + alo * alo by rw [← e2]; ring]
    have k1 : |alo * alo| ≤ 2 ^ (p - 1 + ea + ea : ℤ) := (bnd e6 e6).trans (two_zpow_le (by omega))
    exact (half hxe' k1).trans (two_zpow_le (by omega))
  rw [d3.round hp, show alo * alo - (x - ahi * ahi - (ahi + ahi) * alo) = a * a - x by rw [← e2]; ring, herr.round hp]

end Geometrix
