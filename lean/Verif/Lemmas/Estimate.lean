import Verif.Lemmas.ExpansionSum

/-!
`estimate` and `exactinit`.
-/

set_option linter.unusedSectionVars false

namespace Geometrix

open Spec

variable {K : Type*} [Field K] [LinearOrder K] [IsStrictOrderedRing K] [FloorRing K]

theorem est_step {p : Nat} (hp : 1 ≤ p) {Q S g : K} (g0 : g ≠ 0) {l : ℤ} (hl : Low l g) (hS : |S| < 2 ^ (l - 1))
    (inv : ∀ k : ℤ, |S| ≤ 2 ^ k → |Q - S| ≤ 2 ^ (k - p)) (k : ℤ) (hk : |S + g| ≤ 2 ^ k) :
    |roundBits p (Q + g) - (S + g)| ≤ 2 ^ (k - p) := by
  have hg := hl.le_abs g0
  have hlk : l ≤ k := by
    by_contra hc
    have h1 : (2 : K) ^ k ≤ 2 ^ (l - 1) := two_zpow_le (by omega)
    have h2 : |g| ≤ |S + g| + |S| := by
      have := abs_sub (S + g) S
      rwa [add_sub_cancel_left] at this
    rw [two_zpow_pred] at h1 hS
    linarith
  have h1 := inv (k - 1) (hS.le.trans (two_zpow_le (by omega)))
  have hx : |Q + g| ≤ 2 ^ k + |Q - S| := by
    have := abs_add_le (S + g) (Q - S)
    rw [show S + g + (Q - S) = Q + g by ring] at this
    linarith
  have h3 : |roundBits p (Q + g) - (S + g)| ≤ |Q + g - roundBits p (Q + g)| + |Q - S| := by
    have := abs_sub (Q - S) (Q + g - roundBits p (Q + g))
    rw [show Q - S - (Q + g - roundBits p (Q + g)) = roundBits p (Q + g) - (S + g) by ring] at this
    linarith
  have e1 : (2 : K) ^ (k - 1 - p) = 2 ^ (k - p) / 2 := by
    rw [← two_zpow_pred]; congr 1; ring
  have e2 : (2 : K) ^ (k - p - 1) = 2 ^ (k - p) / 2 := two_zpow_pred _
  have h4 : |Q + g - roundBits p (Q + g)| ≤ 2 ^ (k - p) / 2 := by
    rcases le_or_gt |Q + g| (2 ^ k) with h | h
    · rw [← e2]; exact roundBits_err hp h
    · rw [← e1]
      refine le_trans ?_ h1
      rcases le_total 0 (Q + g) with hs | hs
      · have := roundBits_nearest hp (x := Q + g) (isFloat_pow (K := K) hp k)
        rw [abs_of_nonneg hs] at h hx
        rw [abs_of_nonneg (sub_nonneg.2 h.le)] at this
        linarith
      · have := roundBits_nearest hp (x := Q + g) (isFloat_pow (K := K) hp k).neg
        rw [abs_of_nonpos hs] at h hx
        rw [sub_neg_eq_add, abs_of_nonpos (by linarith : Q + g + 2 ^ k ≤ 0)] at this
        linarith
  rw [e1] at h1
  linarith

theorem estimateLoop_spec {p : Nat} (hp : 1 ≤ p) : ∀ (l : List K) (Q S : K), IsFloat p Q → (∀ a ∈ l, IsFloat p a) →
    l.Pairwise WellBelow → (∀ y ∈ l, y ≠ 0 → ∀ e, Low e y → |S| < 2 ^ (e - 1)) →
    (∀ k : ℤ, |S| ≤ 2 ^ k → |Q - S| ≤ 2 ^ (k - p)) →
    ∀ k : ℤ, |S + l.sum| ≤ 2 ^ k → |estimateLoop (roundBits p) Q l - (S + l.sum)| ≤ 2 ^ (k - p)
  | [], Q, S, _, _, _, _, inv, k, hk => by
    rw [estimateLoop, List.sum_nil, add_zero]
    rw [List.sum_nil, add_zero] at hk
    exact inv k hk
  | g :: l, Q, S, hQ, hl, hpw, hS, inv, k, hk => by
    obtain ⟨h1, h2⟩ := List.pairwise_cons.1 hpw
    have hl' : ∀ a ∈ l, IsFloat p a := fun a ha => hl a (by simp [ha])
    rw [estimateLoop, List.sum_cons, ← add_assoc]
    rw [List.sum_cons, ← add_assoc] at hk
    refine estimateLoop_spec hp l (roundBits p (Q + g)) (S + g) (roundBits_isFloat hp _) hl' h2 ?_ ?_ k hk
    · intro y hy y0 e he
      by_cases g0 : g = 0
      · rw [g0, add_zero]
        exact hS y (by simp [hy]) y0 e he
      · obtain ⟨lg, hlg, -⟩ := (hl g (by simp)).exists_low g0
        have a1 := hS g (by simp) g0 lg hlg
        have a2 := (h1 y hy).lt he
        have a3 : lg < e - 1 := two_zpow_lt_iff.1 ((hlg.le_abs g0).trans_lt a2)
        have a4 := hlg.1.abs.step (onGrid_pow (b := e - 1) (by omega)) a2
        have := abs_add_le S g
        have := two_zpow_pos (K := K) lg
        rw [two_zpow_pred] at a1
        linarith
    · by_cases g0 : g = 0
      · rw [g0, add_zero, add_zero, hQ.round hp]
        exact inv
      · obtain ⟨lg, hlg, -⟩ := (hl g (by simp)).exists_low g0
        exact est_step hp g0 hlg (hS g (by simp) g0 lg hlg) inv

/-- `estimate` is off by at most two units in the last place. -/
theorem estimate_spec {p : Nat} (hp : 1 ≤ p) {l : List K} (l0 : l ≠ []) (hl : ∀ a ∈ l, IsFloat p a) (hn : Nonadjacent l) :
    ∃ Q, estimate (roundBits p) l = .ok Q ∧ IsFloat p Q ∧ |Q - l.sum| ≤ 2 * (1 / 2 ^ p) * |l.sum| := by
  have hpw : l.Pairwise WellBelow := (nonadjacent_iff hl).1 hn
  cases l with
  | nil => exact absurd rfl l0
  | cons x l =>
    obtain ⟨h1, h2⟩ := List.pairwise_cons.1 hpw
    have hx := hl x (by simp)
    have hl' : ∀ a ∈ l, IsFloat p a := fun a ha => hl a (by simp [ha])
    have key := estimateLoop_spec hp l x x hx hl' h2 (fun y hy _ e he => (h1 y hy).lt he) (fun k _ => by
      rw [sub_self, abs_zero]; exact (two_zpow_pos _).le)
    have hfl : ∀ (l : List K) (Q : K), IsFloat p Q → IsFloat p (estimateLoop (roundBits p) Q l) := by
      intro l
      induction l with
      | nil => intro Q h; exact h
      | cons a l ih => intro Q _; exact ih _ (roundBits_isFloat hp _)
    refine ⟨_, rfl, hfl l x hx, ?_⟩
    rw [List.sum_cons]
    by_cases hs : x + l.sum = 0
    · rw [hs] at key
      rw [hs, abs_zero, mul_zero]
      by_contra hc
      push Not at hc
      have hne : estimateLoop (roundBits p) x l - 0 ≠ 0 := abs_pos.1 hc
      obtain ⟨j, -, h3, -⟩ := exists_log hne
      have := key (j + p - 1) (by rw [abs_zero]; exact (two_zpow_pos _).le)
      have h4 := h3.trans this
      have := two_zpow_le_iff.1 h4
      omega
    · obtain ⟨j, -, h3, h4⟩ := exists_log hs
      refine (key (j + 1) h4.le).trans ?_
      have e1 : (2 : K) ^ (j + 1 - p) = 2 * (1 / 2 ^ p) * 2 ^ j := by
        rw [show j + 1 - (p : ℤ) = 1 + (-(p : ℤ)) + j by ring, two_zpow_add, two_zpow_add, zpow_neg, zpow_natCast, zpow_one,
          one_div]
      rw [e1]
      have : (0 : K) ≤ 2 * (1 / 2 ^ p) := by positivity
      gcongr

theorem isFloat_shift {p : Nat} {x : K} (h : IsFloat p x) (k : ℤ) : IsFloat p (x * 2 ^ k) := by
  obtain ⟨m, e, h1, h2⟩ := h
  exact ⟨m, e + k, h1, by rw [h2, two_zpow_add]; ring⟩

theorem round_one_half_ulp {p : Nat} (hp : 2 ≤ p) : roundBits p (1 + (2 : K) ^ (-(p : ℤ))) = 1 := by
  have hp1 : 1 ≤ p := by omega
  have hpos := two_zpow_pos (K := K) (-(p : ℤ))
  have hx0 : (1 : K) + 2 ^ (-(p : ℤ)) ≠ 0 := by positivity
  have hlt : (2 : K) ^ (-(p : ℤ)) < 1 := by
    have := two_zpow_lt (K := K) (show -(p : ℤ) < 0 by omega)
    rwa [zpow_zero] at this
  obtain ⟨e, k1, k2, k3, k4, k5, k6, k7⟩ := roundBits_spec hp1 hx0
  have habs : |(1 : K) + 2 ^ (-(p : ℤ))| = 1 + 2 ^ (-(p : ℤ)) := abs_of_pos (by positivity)
  rw [habs] at k1 k2
  have he1 : (p : ℤ) - 1 + e < 1 := by
    refine two_zpow_lt_iff (K := K).1 (k1.trans_lt ?_)
    rw [zpow_one]; linarith
  have he2 : 0 < (p : ℤ) + e := by
    refine two_zpow_lt_iff (K := K).1 (lt_trans ?_ k2)
    rw [zpow_zero]; linarith
  have he : e = 1 - p := by omega
  subst he
  have hh : (2 : K) ^ (1 - (p : ℤ)) = 2 * 2 ^ (-(p : ℤ)) := by
    rw [show 1 - (p : ℤ) = -(p : ℤ) + 1 by ring, two_zpow_succ]
  have h12 : (1 - (p : ℤ) - 1) = -(p : ℤ) := by ring
  rw [h12] at k4 k5
  obtain ⟨b1, b2⟩ := abs_le.1 k4
  have one_grid : ∀ j : ℤ, j ≤ 0 → OnGrid j (1 : K) := fun j hj => by
    have := onGrid_pow (K := K) (a := j) (b := 0) hj
    rwa [zpow_zero] at this
  have hg := k3.sub (one_grid (1 - p) (by omega))
  by_contra hne
  have h1 := hg.le_abs (sub_ne_zero.2 hne)
  rw [hh, abs_of_nonneg (by linarith)] at h1
  have heq : roundBits p (1 + (2 : K) ^ (-(p : ℤ))) = 1 + 2 * 2 ^ (-(p : ℤ)) := by linarith
  have htie : |1 + (2 : K) ^ (-(p : ℤ)) - roundBits p (1 + (2 : K) ^ (-(p : ℤ)))| = 2 ^ (-(p : ℤ)) := by
    rw [heq, show (1 : K) + 2 ^ (-(p : ℤ)) - (1 + 2 * 2 ^ (-(p : ℤ))) = -2 ^ (-(p : ℤ)) by ring, abs_neg, abs_of_pos hpos]
  have h2 := ((k5 htie).sub (one_grid (1 - p + 1) (by omega))).eq_zero (by
    rw [heq, two_zpow_succ, hh, add_sub_cancel_left, abs_of_pos (by positivity)]
    linarith)
  exact hne (sub_eq_zero.1 h2)

theorem isFloat_one_add {p : Nat} (hp : 1 ≤ p) {i : Nat} (h : i < p) : IsFloat p (1 + (2 : K) ^ (-(i : ℤ))) := by
  have h0 : OnGrid (-(i : ℤ)) (1 : K) := by
    have := onGrid_pow (K := K) (a := -(i : ℤ)) (b := 0) (by omega)
    rwa [zpow_zero] at this
  refine isFloat_of hp (h0.add (onGrid_pow le_rfl)) ?_
  have h1 : (2 : K) ^ (-(i : ℤ)) ≤ 1 := by
    have := two_zpow_le (K := K) (show -(i : ℤ) ≤ 0 by omega)
    rwa [zpow_zero] at this
  have h2 : (2 : K) ^ (1 : ℤ) ≤ 2 ^ (p + -(i : ℤ)) := two_zpow_le (by omega)
  rw [zpow_one] at h2
  have := two_zpow_pos (K := K) (-(i : ℤ))
  rw [abs_of_pos (by positivity)]
  linarith

theorem exactInitLoop_eq {p : Nat} (hp : 2 ≤ p) : ∀ (d i n : Nat) (check : K), i + d + 1 = p → d + 1 ≤ n →
    (check = 1 ∨ check = 1 + 2 ^ (-(i : ℤ))) →
    exactInitLoop (roundBits p) n (decide (i % 2 = 0)) (2 ^ (-(i : ℤ))) (2 ^ (((i + 1) / 2 : ℕ) : ℤ)) check =
      .ok (2 ^ (-(p : ℤ)), 2 ^ (((p + 1) / 2 : ℕ) : ℤ)) := by
  have hp1 : 1 ≤ p := by omega
  -- one turn of the loop
  have heps : ∀ i : Nat, roundBits p ((2 : K) ^ (-(i : ℤ)) * (1 / 2)) = 2 ^ (-((i + 1 : ℕ) : ℤ)) := by
    intro i
    have : (2 : K) ^ (-(i : ℤ)) * (1 / 2) = 2 ^ (-((i + 1 : ℕ) : ℤ)) := by
      rw [show -((i + 1 : ℕ) : ℤ) = -(i : ℤ) - 1 by push_cast; ring, two_zpow_pred]; ring
    rw [this]
    exact (isFloat_pow hp1 _).round hp1
  have hspl : ∀ i : Nat, (if decide (i % 2 = 0) then roundBits p ((2 : K) ^ (((i + 1) / 2 : ℕ) : ℤ) * 2)
      else 2 ^ (((i + 1) / 2 : ℕ) : ℤ)) = 2 ^ (((i + 1 + 1) / 2 : ℕ) : ℤ) := by
    intro i
    by_cases h : i % 2 = 0
    · rw [if_pos (by simpa using h)]
      have : (i + 1 + 1) / 2 = (i + 1) / 2 + 1 := by omega
      rw [this, mul_comm, Nat.cast_add, Nat.cast_one, ← two_zpow_succ]
      exact (isFloat_pow hp1 _).round hp1
    · rw [if_neg (by simpa using h)]
      have : (i + 1 + 1) / 2 = (i + 1) / 2 := by omega
      rw [this]
  have hoth : ∀ i : Nat, (!decide (i % 2 = 0)) = decide ((i + 1) % 2 = 0) := by
    intro i
    by_cases h : i % 2 = 0
    · have : ¬ (i + 1) % 2 = 0 := by omega
      simp [h, this]
    · have : (i + 1) % 2 = 0 := by omega
      simp [h, this]
  intro d
  induction d with
  | zero =>
    intro i n check hi hn hc
    obtain ⟨n, rfl⟩ : ∃ m, n = m + 1 := ⟨n - 1, by omega⟩
    have hip : p = i + 1 := by omega
    rw [exactInitLoop]
    rw [heps i, hspl i, ← hip, round_one_half_ulp hp, if_neg (by simp)]
  | succ d ih =>
    intro i n check hi hn hc
    obtain ⟨n, rfl⟩ : ∃ m, n = m + 1 := ⟨n - 1, by omega⟩
    rw [exactInitLoop]
    have hf := (isFloat_one_add (K := K) hp1 (show i + 1 < p by omega)).round hp1
    rw [heps i, hspl i, hf, hoth i]
    have hpos := two_zpow_pos (K := K) (-((i + 1 : ℕ) : ℤ))
    rw [if_pos]
    · exact ih (i + 1) n _ (by omega) (by omega) (Or.inr rfl)
    · refine ⟨by linarith, ?_⟩
      rcases hc with rfl | rfl
      · linarith
      · have h1 : (2 : K) ^ (-((i + 1 : ℕ) : ℤ)) < 2 ^ (-(i : ℤ)) := two_zpow_lt (by push_cast; omega)
        intro h
        linarith

/-- The numbers that `exactinit` computes. -/
def exactConsts (K : Type*) [Field K] [LinearOrder K] [IsStrictOrderedRing K] [FloorRing K] (p : Nat) : ExactConsts K :=
  { splitter := 2 ^ ((p + 1) / 2) + 1
    epsilon := 1 / 2 ^ p
    resulterrbound := (3 + 8 * (1 / 2 ^ p)) * (1 / 2 ^ p)
    ccwerrboundA := (3 + 16 * (1 / 2 ^ p)) * (1 / 2 ^ p)
    ccwerrboundB := (2 + 12 * (1 / 2 ^ p)) * (1 / 2 ^ p)
    ccwerrboundC := (9 + 64 * (1 / 2 ^ p)) * (1 / 2 ^ p) * (1 / 2 ^ p)
    o3derrboundA := (7 + 56 * (1 / 2 ^ p)) * (1 / 2 ^ p)
    o3derrboundB := (3 + 28 * (1 / 2 ^ p)) * (1 / 2 ^ p)
    o3derrboundC := (26 + 288 * (1 / 2 ^ p)) * (1 / 2 ^ p) * (1 / 2 ^ p)
    iccerrboundA := (10 + 96 * (1 / 2 ^ p)) * (1 / 2 ^ p)
    iccerrboundB := (4 + 48 * (1 / 2 ^ p)) * (1 / 2 ^ p)
    iccerrboundC := (44 + 576 * (1 / 2 ^ p)) * (1 / 2 ^ p) * (1 / 2 ^ p)
    isperrboundA := (16 + 224 * (1 / 2 ^ p)) * (1 / 2 ^ p)
    isperrboundB := (5 + 72 * (1 / 2 ^ p)) * (1 / 2 ^ p)
    isperrboundC := roundBits p (71 + 1408 * (1 / 2 ^ p)) * (1 / 2 ^ p) * (1 / 2 ^ p) }

/-- The numbers that appear in the error bounds. -/
theorem coeff_isFloat {p : Nat} (hp : 1 ≤ p) (n m : ℤ) (j : Nat) (hj : j ≤ p) (hn : 0 ≤ n) (hm : 0 ≤ m)
    (hb : (n : K) + m * 2 ^ j * 2 ^ (-(p : ℤ)) ≤ 2 ^ j) : IsFloat p ((n : K) + m * 2 ^ j * 2 ^ (-(p : ℤ))) := by
  have hn' : (0 : K) ≤ n := by exact_mod_cast hn
  have hm' : (0 : K) ≤ m := by exact_mod_cast hm
  have e1 : (m : K) * 2 ^ j * 2 ^ (-(p : ℤ)) = m * 2 ^ ((j : ℤ) - p) := by
    rw [mul_assoc, ← zpow_natCast, ← two_zpow_add]; rfl
  have hpos := two_zpow_pos (K := K) (-(p : ℤ))
  have h0 : (0 : K) ≤ n + m * 2 ^ j * 2 ^ (-(p : ℤ)) := by positivity
  have h1 : OnGrid ((j : ℤ) - p) ((m : K) * 2 ^ ((j : ℤ) - p)) := ⟨m, rfl⟩
  have h2 : OnGrid ((j : ℤ) - p) (n : K) := OnGrid.mono (b := 0) ⟨n, by simp⟩ (by omega)
  refine isFloat_of hp (e := j - p) ?_ ?_
  · rw [e1]; exact h2.add h1
  · rw [abs_of_nonneg h0, show (p : ℤ) + (j - p) = j by ring, zpow_natCast]
    exact hb

/-- The last of them needs one bit more. -/
theorem isperrboundC_eq {p : Nat} (hp : 7 ≤ p) :
    (exactConsts K p).isperrboundC = (71 + 1408 * (1 / 2 ^ p)) * (1 / 2 ^ p) * (1 / 2 ^ p) := by
  have he : (2 : K) ^ (-(p : ℤ)) = 1 / 2 ^ p := by rw [zpow_neg, zpow_natCast, one_div]
  have hle : (2 : K) ^ (-(p : ℤ)) ≤ 1 / 128 := by
    have := two_zpow_le (K := K) (show -(p : ℤ) ≤ -7 by omega)
    have h6 : (2 : K) ^ (-7 : ℤ) = 1 / 128 := by norm_num [zpow_neg]
    rwa [h6] at this
  have h1 := coeff_isFloat (K := K) (p := p) (by omega) 71 11 7 hp (by norm_num) (by norm_num) (by norm_num at hle ⊢; linarith)
  norm_num at h1
  rw [exactConsts]
  simp only
  have h2 : (71 : K) + 1408 * (1 / 2 ^ p) = 71 + 1408 * (2 ^ p)⁻¹ := by rw [one_div]
  rw [h2, h1.round (by omega)]

theorem exactInit_eq {p : Nat} (hp : 6 ≤ p) {turns : Nat} (ht : p ≤ turns) :
    exactInit (roundBits p) turns = .ok (exactConsts K p) := by
  have hp1 : 1 ≤ p := by omega
  have h0 := exactInitLoop_eq (K := K) (p := p) (by omega) (p - 1) 0 turns 1 (by omega) (by omega) (Or.inl rfl)
  simp only [Nat.cast_zero, neg_zero, zpow_zero, Nat.zero_mod, decide_true, Nat.zero_add, Nat.reduceDiv] at h0
  have he : (2 : K) ^ (-(p : ℤ)) = 1 / 2 ^ p := by rw [zpow_neg, zpow_natCast, one_div]
  -- rounding of the parts
  have hle : (2 : K) ^ (-(p : ℤ)) ≤ 1 / 64 := by
    have := two_zpow_le (K := K) (show -(p : ℤ) ≤ -6 by omega)
    have h6 : (2 : K) ^ (-6 : ℤ) = 1 / 64 := by norm_num [zpow_neg]
    rwa [h6] at this
  have hpos := two_zpow_pos (K := K) (-(p : ℤ))
  have ng : ∀ (n : ℤ) (j : ℤ), j ≤ 0 → OnGrid j (n : K) := fun n j hj => by
    have : OnGrid 0 (n : K) := ⟨n, by simp⟩
    exact this.mono hj
  -- `n + m * 2 ^ j * eps`
  have coeff : ∀ (n m : ℤ) (j : Nat), j ≤ 6 → 0 ≤ n → 0 ≤ m → (n : K) + m ≤ 2 ^ j →
      IsFloat p ((n : K) + m * 2 ^ j * 2 ^ (-(p : ℤ))) := by
    intro n m j hj hn hm hb
    have hn' : (0 : K) ≤ n := by exact_mod_cast hn
    have hm' : (0 : K) ≤ m := by exact_mod_cast hm
    have e1 : (m : K) * 2 ^ j * 2 ^ (-(p : ℤ)) = m * 2 ^ ((j : ℤ) - p) := by
      rw [mul_assoc, ← zpow_natCast, ← two_zpow_add]; rfl
    rw [e1]
    have h1 : OnGrid ((j : ℤ) - p) ((m : K) * 2 ^ ((j : ℤ) - p)) := ⟨m, rfl⟩
    refine isFloat_of hp1 ((ng n _ (by omega)).add h1) ?_
    have h2 : (2 : K) ^ ((j : ℤ) - p) ≤ 1 := by
      have := two_zpow_le (K := K) (show (j : ℤ) - p ≤ 0 by omega)
      rwa [zpow_zero] at this
    have h3 := two_zpow_pos (K := K) ((j : ℤ) - p)
    rw [abs_of_nonneg (by positivity), show (p : ℤ) + (j - p) = j by ring, zpow_natCast]
    have : (m : K) * 2 ^ ((j : ℤ) - p) ≤ m * 1 := by gcongr
    linarith
  have R : ∀ {x : K}, IsFloat p x → roundBits p x = x := fun h => h.round hp1
  have c8 : roundBits p (8 * (2 : K) ^ (-(p : ℤ))) = 8 * 2 ^ (-(p : ℤ)) := R (by
    have := coeff 0 1 3 (by omega) (by omega) (by omega) (by norm_num); norm_num at this ⊢; exact this)
  have c16 : roundBits p (16 * (2 : K) ^ (-(p : ℤ))) = 16 * 2 ^ (-(p : ℤ)) := R (by
    have := coeff 0 1 4 (by omega) (by omega) (by omega) (by norm_num); norm_num at this ⊢; exact this)
  have c12 : roundBits p (12 * (2 : K) ^ (-(p : ℤ))) = 12 * 2 ^ (-(p : ℤ)) := R (by
    have := coeff 0 3 2 (by omega) (by omega) (by omega) (by norm_num); norm_num at this ⊢; exact this)
  have c64 : roundBits p (64 * (2 : K) ^ (-(p : ℤ))) = 64 * 2 ^ (-(p : ℤ)) := R (by
    have := coeff 0 1 6 (by omega) (by omega) (by omega) (by norm_num); norm_num at this ⊢; exact this)
  have f3 : IsFloat p (3 + 8 * (2 : K) ^ (-(p : ℤ))) := by
    have := coeff 3 1 3 (by omega) (by omega) (by omega) (by norm_num); norm_num at this ⊢; exact this
  have fA : IsFloat p (3 + 16 * (2 : K) ^ (-(p : ℤ))) := by
    have := coeff 3 1 4 (by omega) (by omega) (by omega) (by norm_num); norm_num at this ⊢; exact this
  have fC : IsFloat p (9 + 64 * (2 : K) ^ (-(p : ℤ))) := by
    have := coeff 9 1 6 (by omega) (by omega) (by omega) (by norm_num); norm_num at this ⊢; exact this
  have fB : IsFloat p (2 + 12 * (2 : K) ^ (-(p : ℤ))) := by
    have e1 : (12 : K) * 2 ^ (-(p : ℤ)) = ((3 : ℤ) : K) * 2 ^ (2 - (p : ℤ)) := by
      rw [show 2 - (p : ℤ) = 2 + -(p : ℤ) by ring, two_zpow_add]; norm_num; ring
    refine isFloat_of hp1 (e := 2 - p) ?_ ?_
    · rw [e1]
      have := ng 2 (2 - (p : ℤ)) (by omega)
      push_cast at this
      exact this.add ⟨3, by push_cast; rfl⟩
    · rw [show (p : ℤ) + (2 - p) = 2 by ring, abs_of_pos (by positivity)]
      have h4 : (2 : K) ^ (2 : ℤ) = 4 := by norm_num
      rw [h4]
      linarith
  have fs : IsFloat p ((2 : K) ^ (((p + 1) / 2 : ℕ) : ℤ) + 1) := by
    refine isFloat_of hp1 (e := 0) ?_ ?_
    · have := ng 1 0 le_rfl
      push_cast at this
      exact (onGrid_pow (by omega)).add this
    · have h1 : (2 : K) ^ (((p + 1) / 2 : ℕ) : ℤ) ≤ 2 ^ ((p : ℤ) - 1) := two_zpow_le (by omega)
      have h2 : (1 : K) ≤ 2 ^ ((p : ℤ) - 1) := by
        have := two_zpow_le (K := K) (show 0 ≤ (p : ℤ) - 1 by omega)
        rwa [zpow_zero] at this
      rw [add_zero, abs_of_pos (by positivity)]
      rw [two_zpow_pred] at h1 h2
      linarith
  have C : ∀ (n m : ℤ) (j : Nat), j ≤ 6 → 0 ≤ n → 0 ≤ m → (n : K) + m * 2 ^ j * 2 ^ (-(p : ℤ)) ≤ 2 ^ j →
      IsFloat p ((n : K) + m * 2 ^ j * 2 ^ (-(p : ℤ))) := fun n m j hj => coeff_isFloat hp1 n m j (by omega)
  have x1 : IsFloat p (56 * (2 : K) ^ (-(p : ℤ))) := by
    have := C 0 7 3 (by norm_num) (by norm_num) (by norm_num) (by norm_num at hle ⊢; linarith); norm_num at this ⊢; exact this
  have x2 : IsFloat p (28 * (2 : K) ^ (-(p : ℤ))) := by
    have := C 0 7 2 (by norm_num) (by norm_num) (by norm_num) (by norm_num at hle ⊢; linarith); norm_num at this ⊢; exact this
  have x3 : IsFloat p (288 * (2 : K) ^ (-(p : ℤ))) := by
    have := C 0 9 5 (by norm_num) (by norm_num) (by norm_num) (by norm_num at hle ⊢; linarith); norm_num at this ⊢; exact this
  have x4 : IsFloat p (96 * (2 : K) ^ (-(p : ℤ))) := by
    have := C 0 6 4 (by norm_num) (by norm_num) (by norm_num) (by norm_num at hle ⊢; linarith); norm_num at this ⊢; exact this
  have x5 : IsFloat p (48 * (2 : K) ^ (-(p : ℤ))) := by
    have := C 0 6 3 (by norm_num) (by norm_num) (by norm_num) (by norm_num at hle ⊢; linarith); norm_num at this ⊢; exact this
  have x6 : IsFloat p (576 * (2 : K) ^ (-(p : ℤ))) := by
    have := C 0 9 6 (by norm_num) (by norm_num) (by norm_num) (by norm_num at hle ⊢; linarith); norm_num at this ⊢; exact this
  have x7 : IsFloat p (224 * (2 : K) ^ (-(p : ℤ))) := by
    have := C 0 7 5 (by norm_num) (by norm_num) (by norm_num) (by norm_num at hle ⊢; linarith); norm_num at this ⊢; exact this
  have x8 : IsFloat p (72 * (2 : K) ^ (-(p : ℤ))) := by
    have := C 0 9 3 (by norm_num) (by norm_num) (by norm_num) (by norm_num at hle ⊢; linarith); norm_num at this ⊢; exact this
  have x9 : IsFloat p (1408 * (2 : K) ^ (-(p : ℤ))) := by
    have := C 0 22 6 (by norm_num) (by norm_num) (by norm_num) (by norm_num at hle ⊢; linarith); norm_num at this ⊢; exact this
  have y1 : IsFloat p (7 + 56 * (2 : K) ^ (-(p : ℤ))) := by
    have := C 7 7 3 (by norm_num) (by norm_num) (by norm_num) (by norm_num at hle ⊢; linarith); norm_num at this ⊢; exact this
  have y2 : IsFloat p (3 + 28 * (2 : K) ^ (-(p : ℤ))) := by
    have := C 3 7 2 (by norm_num) (by norm_num) (by norm_num) (by norm_num at hle ⊢; linarith); norm_num at this ⊢; exact this
  have y3 : IsFloat p (26 + 288 * (2 : K) ^ (-(p : ℤ))) := by
    have := C 26 9 5 (by norm_num) (by norm_num) (by norm_num) (by norm_num at hle ⊢; linarith); norm_num at this ⊢; exact this
  have y4 : IsFloat p (10 + 96 * (2 : K) ^ (-(p : ℤ))) := by
    have := C 10 6 4 (by norm_num) (by norm_num) (by norm_num) (by norm_num at hle ⊢; linarith); norm_num at this ⊢; exact this
  have y5 : IsFloat p (4 + 48 * (2 : K) ^ (-(p : ℤ))) := by
    have := C 4 6 3 (by norm_num) (by norm_num) (by norm_num) (by norm_num at hle ⊢; linarith); norm_num at this ⊢; exact this
  have y6 : IsFloat p (44 + 576 * (2 : K) ^ (-(p : ℤ))) := by
    have := C 44 9 6 (by norm_num) (by norm_num) (by norm_num) (by norm_num at hle ⊢; linarith); norm_num at this ⊢; exact this
  have y7 : IsFloat p (16 + 224 * (2 : K) ^ (-(p : ℤ))) := by
    have := C 16 7 5 (by norm_num) (by norm_num) (by norm_num) (by norm_num at hle ⊢; linarith); norm_num at this ⊢; exact this
  have y8 : IsFloat p (5 + 72 * (2 : K) ^ (-(p : ℤ))) := by
    have := C 5 9 3 (by norm_num) (by norm_num) (by norm_num) (by norm_num at hle ⊢; linarith); norm_num at this ⊢; exact this
  have y9 : IsFloat p (roundBits p (71 + 1408 * (2 : K) ^ (-(p : ℤ)))) := roundBits_isFloat hp1 _
  rw [exactInit, h0]
  simp only [Except.ok.injEq]
  rw [R x1, R x2, R x3, R x4, R x5, R x6, R x7, R x8, R x9, R y1, R y2, R y3, R y4, R y5, R y6, R y7, R y8,
    R (isFloat_shift y1 _), R (isFloat_shift y2 _), R (isFloat_shift y3 _), R (isFloat_shift y4 _), R (isFloat_shift y5 _),
    R (isFloat_shift y6 _), R (isFloat_shift y7 _), R (isFloat_shift y8 _), R (isFloat_shift y9 _),
    R (isFloat_shift (isFloat_shift y3 _) _), R (isFloat_shift (isFloat_shift y6 _) _),
    R (isFloat_shift (isFloat_shift y9 _) _)]
  rw [c8, c16, c12, c64, R f3, R fA, R fB, R fC, R (isFloat_shift f3 _), R (isFloat_shift fA _), R (isFloat_shift fB _),
    R (isFloat_shift fC _), R (isFloat_shift (isFloat_shift fC _) _), R fs, exactConsts, he, zpow_natCast]

end Geometrix
