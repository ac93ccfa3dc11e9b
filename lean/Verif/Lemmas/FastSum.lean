import Verif.Lemmas.Expansion

/-!
Summing the components of two nearly nonadjacent expansions in the order of their size leaves rounding errors that are nearly
nonadjacent.
-/

set_option linter.unusedSectionVars false

namespace Geometrix

open Spec

variable {K : Type*} [Field K] [LinearOrder K] [IsStrictOrderedRing K] [FloorRing K]

/-- What is known of the last step that had a rounding error: `h` is this error, `H` the sum of all errors, `Q'` the sum after
the step, `pe'` and `pf'` are the components used up to it and `me` and `mf` those after it. -/
structure LastErr (p : Nat) (pe pf : List K) (Q h H : K) (u : ℤ) (Q' : K) (pe' me pf' mf : List K) : Prop where
  epe : pe = pe' ++ me
  epf : pf = pf' ++ mf
  qsum : Q = Q' + (me.sum + mf.sum)
  tot : Q' + H = pe'.sum + pf'.sum
  big : 2 ^ (p - 1 + u : ℤ) ≤ |Q'|
  grid : OnGrid u Q'
  err : |h| ≤ 2 ^ (u - 1)
  tie : |h| = 2 ^ (u - 1) → OnGrid (u + 1) Q'
  hsum : |H| ≤ 7 / 8 * 2 ^ u
  sorted : ∀ x ∈ pe' ++ pf', ∀ y ∈ me ++ mf, |x| ≤ |y|

theorem LastErr.swap {p : Nat} {pe pf : List K} {Q h H : K} {u : ℤ} {Q' : K} {pe' me pf' mf : List K}
    (d : LastErr p pe pf Q h H u Q' pe' me pf' mf) : LastErr p pf pe Q h H u Q' pf' mf pe' me :=
  ⟨d.epf, d.epe, by rw [d.qsum]; ring, by rw [d.tot]; ring, d.big, d.grid, d.err, d.tie, d.hsum, by
    intro x hx y hy
    exact d.sorted x (by simp at hx ⊢; tauto) y (by simp at hy ⊢; tauto)⟩

theorem pow_five_le {p : Nat} (hp : 6 ≤ p) : (32 : K) ≤ 2 ^ (p - 1 : ℤ) := by
  have : (2 : K) ^ (5 : ℤ) ≤ 2 ^ (p - 1 : ℤ) := two_zpow_le (by omega)
  have h5 : (2 : K) ^ (5 : ℤ) = 32 := by norm_num [zpow_ofNat]
  rwa [h5] at this

theorem LastErr.bound {p : Nat} (hp : 6 ≤ p) {pe pf : List K} {Q h H : K} {u : ℤ} {Q' : K} {pe' me pf' mf : List K}
    (d : LastErr p pe pf Q h H u Q' pe' me pf' mf) {a b : K} (ha : ∀ l, l <+: pe → |l.sum| ≤ a)
    (hb : ∀ l, l <+: pf → |l.sum| ≤ b) : 31 * 2 ^ u ≤ a + b := by
  have h1 := ha pe' ⟨me, d.epe.symm⟩
  have h2 := hb pf' ⟨mf, d.epf.symm⟩
  have h3 := d.big
  rw [two_zpow_add] at h3
  have h4 := pow_five_le (K := K) hp
  have h5 := two_zpow_pos (K := K) u
  have h6 : 32 * (2 : K) ^ u ≤ 2 ^ (p - 1 : ℤ) * 2 ^ u := by gcongr
  have h7 : |Q'| ≤ |pe'.sum| + |pf'.sum| + |H| := by
    have : Q' = pe'.sum + pf'.sum - H := by rw [← d.tot]; ring
    rw [this]
    exact (abs_sub _ _).trans (add_le_add (abs_add_le _ _) le_rfl)
  have := d.hsum
  linarith

/-- The sums of the first components before one. -/
theorem prefix_small {p : Nat} {l m : List K} {y : K} (h : RevNear (y :: (m ++ l.reverse)))
    (hf : ∀ a ∈ y :: (m ++ l.reverse), IsFloat p a ∧ a ≠ 0) {e : ℤ} (he : Low e y) (l' : List K) (hl : l' <+: l) :
    |l'.sum| ≤ 3 / 4 * 2 ^ e ∧ |l'.sum| < 3 / 4 * 2 ^ e := by
  obtain ⟨t, rfl⟩ := hl
  rw [List.reverse_append, ← List.append_assoc] at h hf
  have := RevNear.sum_drop h hf he
  rw [List.sum_reverse] at this
  exact ⟨this.le, this⟩

/-- The sum of components that are all small. -/
theorem RevNear.sum_le_of {p : Nat} {l : List K} (h : RevNear l) (hf : ∀ a ∈ l, IsFloat p a ∧ a ≠ 0) {c : K} (hc : 0 ≤ c)
    (hl : ∀ a ∈ l, |a| ≤ c) : |l.sum| ≤ 7 / 4 * c := by
  cases l with
  | nil => simp only [List.sum_nil, abs_zero]; positivity
  | cons b l =>
    have h1 := h.sum_le hf
    have h2 := hl b (by simp)
    have h3 : |(b :: l).sum| ≤ |b| + |l.sum| := by rw [List.sum_cons]; exact abs_add_le _ _
    linarith

theorem hist_bound {p : Nat} (hp : 6 ≤ p) {pe pf : List K} {Q H : K}
    (hist : H = 0 ∨ ∃ h u Q' pe' me pf' mf, LastErr p pe pf Q h H u Q' pe' me pf' mf) {a b : K}
    (ha : ∀ l, l <+: pe → |l.sum| ≤ a) (hb : ∀ l, l <+: pf → |l.sum| ≤ b) : 31 * |H| ≤ 7 / 8 * (a + b) := by
  have h1 := ha [] List.nil_prefix
  have h2 := hb [] List.nil_prefix
  simp only [List.sum_nil, abs_zero] at h1 h2
  rcases hist with rfl | ⟨h, u, Q', pe', me, pf', mf, d⟩
  · rw [abs_zero]; linarith
  · have := d.bound hp ha hb
    have := d.hsum
    linarith

theorem pre_le {p : Nat} {l : List K} (h : RevNear l.reverse) (hf : ∀ a ∈ l, IsFloat p a ∧ a ≠ 0) {c : K} (hc : 0 ≤ c)
    (hl : ∀ a ∈ l, |a| ≤ c) : ∀ l', l' <+: l → |l'.sum| ≤ 7 / 4 * c := by
  rintro l' ⟨t, rfl⟩
  rw [List.reverse_append] at h
  have := RevNear.sum_le_of (p := p) (RevNear.drop _ h) (fun a ha => hf a (by simp at ha ⊢; tauto)) hc
    (fun a ha => hl a (by simp at ha ⊢; tauto))
  rwa [List.sum_reverse] at this

/-- The rounding error of a step that takes a component of the same expansion as a later component `y`. -/
theorem key_same {p : Nat} (hp : 6 ≤ p) {pe pf m : List K} {Q H g y : K}
    (hist : H = 0 ∨ ∃ h u Q' pe' me pf' mf, LastErr p pe pf Q h H u Q' pe' me pf' mf)
    (tot : Q + H = pe.sum + pf.sum) (hy : RevNear (y :: (m ++ g :: pe.reverse)))
    (fy : ∀ a ∈ y :: (m ++ g :: pe.reverse), IsFloat p a ∧ a ≠ 0) (nf : RevNear pf.reverse)
    (ff : ∀ a ∈ pf, IsFloat p a ∧ a ≠ 0) (hpf : ∀ a ∈ pf, |a| ≤ |g|) {e : ℤ} (he : Low e y) :
    |Q + g - roundBits p (Q + g)| < 2 ^ (e - 1) := by
  have hL := two_zpow_pos (K := K) e
  have hg : |g| ≤ 2 ^ (e - 1) := RevNear.le_half _ y hy fy e he g (by simp)
  have hg' := hg
  rw [two_zpow_pred] at hg'
  have ha : ∀ l, l <+: pe → |l.sum| ≤ 3 / 4 * 2 ^ e := fun l hl => by
    have hy' : RevNear (y :: ((m ++ [g]) ++ pe.reverse)) := by simpa using hy
    exact (prefix_small hy' (by simpa using fy) he l hl).1
  have hb : ∀ l, l <+: pf → |l.sum| ≤ 7 / 4 * (2 ^ e / 2) :=
    pre_le nf ff (by positivity) fun a ha => (hpf a ha).trans hg'
  have hH := hist_bound hp hist ha hb
  have h1 := ha pe (List.prefix_refl _)
  have h2 := hb pf (List.prefix_refl _)
  have hQ : |Q| ≤ |pe.sum| + |pf.sum| + |H| := by
    rw [show Q = pe.sum + pf.sum - H by rw [← tot]; ring]
    exact (abs_sub _ _).trans (add_le_add (abs_add_le _ _) le_rfl)
  have hx : |Q + g| ≤ 2 ^ (e + 2) := by
    have h22 : (2 : K) ^ (e + 2) = 4 * 2 ^ e := by rw [two_zpow_add]; norm_num; ring
    have := abs_add_le Q g
    rw [h22]
    linarith
  exact (roundBits_err (by omega) hx).trans_lt (two_zpow_lt (by omega))

/-- If the rounding error of a step is a tie and touches the last bit of a later component, the error before it is small. -/
theorem key_tie {p : Nat} (hp : 6 ≤ p) {pe pf m : List K} {Q H g y : K} (hy : RevNear (y :: (m ++ pe.reverse)))
    (fy : ∀ a ∈ y :: (m ++ pe.reverse), IsFloat p a ∧ a ≠ 0) (nf : RevNear (g :: pf.reverse))
    (ff : ∀ a ∈ g :: pf.reverse, IsFloat p a ∧ a ≠ 0) {e : ℤ} (he : Low e y) (gg : OnGrid e g)
    (k3 : OnGrid e (roundBits p (Q + g))) (heq : |Q + g - roundBits p (Q + g)| = 2 ^ (e - 1)) {h : K} {u' : ℤ} {Q' : K}
    {pe' me pf' mf : List K} (d : LastErr p pe pf Q h H u' Q' pe' me pf' mf) : |h| < 2 ^ (e - 1 - 1) := by
  have hL := two_zpow_pos (K := K) e
  have hP := pow_five_le (K := K) hp
  have ha : ∀ l, l <+: pe → |l.sum| ≤ 3 / 4 * 2 ^ e := fun l hl => (prefix_small (l := pe) hy fy he l hl).1
  by_contra hc
  push Not at hc
  have u1 : e - 1 ≤ u' := by
    have := two_zpow_le_iff.1 (hc.trans d.err)
    omega
  have u2 : (2 : K) ^ e ≤ 2 * 2 ^ u' := by
    rw [← two_zpow_succ]; exact two_zpow_le (by omega)
  have d1 := ha pe' ⟨me, d.epe.symm⟩
  have d3 : |Q'| ≤ |pe'.sum| + |pf'.sum| + |H| := by
    have : Q' = pe'.sum + pf'.sum - H := by rw [← d.tot]; ring
    rw [this]
    exact (abs_sub _ _).trans (add_le_add (abs_add_le _ _) le_rfl)
  have d4 := d.big
  rw [two_zpow_add] at d4
  have d5 : 32 * (2 : K) ^ u' ≤ 2 ^ (p - 1 : ℤ) * 2 ^ u' := by gcongr
  have d6 := d.hsum
  have d7 : 14 * (2 : K) ^ e ≤ |pf'.sum| := by linarith
  -- the last component used before that error
  rcases List.eq_nil_or_concat pf' with rfl | ⟨w, z, rfl⟩
  · simp only [List.sum_nil, abs_zero] at d7
    linarith
  rw [List.concat_eq_append] at d d7
  have epf := d.epf
  have nz : RevNear (z :: w.reverse) := by
    have := nf.tail
    rw [epf] at this
    simp only [List.reverse_append, List.reverse_cons, List.reverse_nil, List.nil_append, List.cons_append] at this
    exact RevNear.drop _ this
  have fz : ∀ a ∈ z :: w.reverse, IsFloat p a ∧ a ≠ 0 := by
    intro a ha
    refine ff a ?_
    rw [epf]
    simp at ha ⊢
    tauto
  have z1 := nz.sum_le fz
  have z2 : |(w ++ [z]).sum| ≤ |w.reverse.sum| + |z| := by
    rw [List.sum_append, List.sum_reverse]
    simpa using abs_add_le w.sum z
  have z3 : 8 * (2 : K) ^ e ≤ |z| := by linarith
  have me0 : me = [] := by
    rcases me with _ | ⟨a, me⟩
    · rfl
    · exfalso
      have a1 := d.sorted z (by simp) a (by simp)
      have a2 := RevNear.le_half _ y hy fy e he a (by rw [d.epe]; simp)
      rw [two_zpow_pred] at a2
      linarith
  have gmf : ∀ c ∈ mf, OnGrid e c := by
    intro c hc
    obtain ⟨m1, m2, rfl⟩ := List.append_of_mem hc
    have nc : RevNear (c :: (m1.reverse ++ z :: w.reverse)) := by
      have := nf.tail
      rw [epf] at this
      simp only [List.reverse_append, List.reverse_cons, List.reverse_nil, List.nil_append, List.cons_append,
        List.append_assoc] at this
      exact RevNear.drop _ this
    have fc : ∀ a ∈ c :: (m1.reverse ++ z :: w.reverse), IsFloat p a ∧ a ≠ 0 := by
      intro a ha
      refine ff a ?_
      rw [epf]
      simp at ha ⊢
      tauto
    obtain ⟨γ, hγ, -⟩ := (fc c (by simp)).1.exists_low (fc c (by simp)).2
    have := RevNear.le_half _ c nc fc γ hγ z (by simp)
    have g1 : (2 : K) ^ e ≤ 2 ^ (γ - 1) := by linarith
    have := two_zpow_le_iff.1 g1
    exact hγ.1.mono (by omega)
  have gsum : ∀ l : List K, (∀ c ∈ l, OnGrid e c) → OnGrid e l.sum := by
    intro l
    induction l with
    | nil => intro _; simpa using onGrid_zero (K := K) e
    | cons c l ih =>
      intro hl
      rw [List.sum_cons]
      exact (hl c (by simp)).add (ih fun c hc => hl c (by simp [hc]))
  have hno : ¬ OnGrid e Q' := by
    intro hq
    have hQe : OnGrid e Q := by
      rw [d.qsum, me0, List.sum_nil, zero_add]
      exact hq.add (gsum _ gmf)
    have := ((hQe.add gg).sub k3).eq_zero (by rw [heq]; exact two_zpow_lt (by omega))
    rw [this, abs_zero] at heq
    exact absurd heq (two_zpow_pos _).ne
  rcases u1.lt_or_eq with u1 | u1
  · exact hno (d.grid.mono (by omega))
  · have := d.tie (le_antisymm d.err (by rw [← u1]; exact hc))
    rw [← u1, sub_add_cancel] at this
    exact hno this

/-- The rounding error of a step that takes a component of the other expansion than that of a later component `y`. -/
theorem key_other {p : Nat} (hp : 6 ≤ p) {pe pf m : List K} {Q H g y : K}
    (hist : H = 0 ∨ ∃ h u Q' pe' me pf' mf, LastErr p pe pf Q h H u Q' pe' me pf' mf) (fQ : IsFloat p Q)
    (tot : Q + H = pe.sum + pf.sum) (hy : RevNear (y :: (m ++ pe.reverse)))
    (fy : ∀ a ∈ y :: (m ++ pe.reverse), IsFloat p a ∧ a ≠ 0) (nf : RevNear (g :: pf.reverse))
    (ff : ∀ a ∈ g :: pf.reverse, IsFloat p a ∧ a ≠ 0) (hgy : |g| ≤ |y|) {e : ℤ} (he : Low e y) :
    |Q + g - roundBits p (Q + g)| ≤ 2 ^ (e - 1) ∧ (|Q + g - roundBits p (Q + g)| = 2 ^ (e - 1) →
      ∀ h u Q' pe' me pf' mf, LastErr p pe pf Q h H u Q' pe' me pf' mf → |h| < 2 ^ (e - 1 - 1)) := by
  have hp1 : 1 ≤ p := by omega
  have hL := two_zpow_pos (K := K) e
  obtain ⟨fg, g0⟩ := ff g (by simp)
  obtain ⟨fy1, y0⟩ := fy y (by simp)
  have hy2 : |y| < 2 ^ (p + e : ℤ) := by
    obtain ⟨e', h1, h2⟩ := fy1.grid
    exact h2.trans_le (two_zpow_le (by have := he.2 e' h1; omega))
  obtain ⟨μ, hμ, hgM⟩ := fg.exists_low g0
  have hM := two_zpow_pos (K := K) μ
  have hMg := hμ.le_abs g0
  have ha' := prefix_small (l := pe) hy fy he
  have hb' := prefix_small (l := pf) (m := []) (by simpa using nf) (by simpa using ff) hμ
  have ha : ∀ l, l <+: pe → |l.sum| ≤ 3 / 4 * 2 ^ e := fun l hl => (ha' l hl).1
  have hb : ∀ l, l <+: pf → |l.sum| ≤ 3 / 4 * 2 ^ μ := fun l hl => (hb' l hl).1
  have hH := hist_bound hp hist ha hb
  have h1 := (ha' pe (List.prefix_refl _)).2
  have h2 := (hb' pf (List.prefix_refl _)).2
  have hQ : |Q| ≤ |pe.sum| + |pf.sum| + |H| := by
    rw [show Q = pe.sum + pf.sum - H by rw [← tot]; ring]
    exact (abs_sub _ _).trans (add_le_add (abs_add_le _ _) le_rfl)
  have htri := abs_add_le Q g
  have hbd : ∀ h u Q' pe' me pf' mf, LastErr p pe pf Q h H u Q' pe' me pf' mf →
      31 * (2 : K) ^ u ≤ 3 / 4 * 2 ^ e + 3 / 4 * 2 ^ μ := fun h u Q' pe' me pf' mf d => d.bound hp ha hb
  -- if the component does not reach below `y` all errors before are small
  have small : μ ≤ e → ∀ h u Q' pe' me pf' mf, LastErr p pe pf Q h H u Q' pe' me pf' mf → |h| < 2 ^ (e - 1 - 1) := by
    intro hμe h u Q' pe' me pf' mf d
    have k1 := hbd _ _ _ _ _ _ _ d
    have k2 := d.err
    have k3 := two_zpow_le (K := K) hμe
    rw [two_zpow_pred] at k2 ⊢
    rw [two_zpow_pred]
    linarith
  by_cases hx0 : Q + g = 0
  · have hr : roundBits p (0 : K) = 0 := (isFloat_zero p).round hp1
    rw [hx0, hr, sub_zero, abs_zero]
    exact ⟨(two_zpow_pos _).le, fun h => absurd h (two_zpow_pos _).ne⟩
  obtain ⟨u, k1, k2, k3, k4, k5, k6, k7⟩ := roundBits_spec hp1 hx0
  rcases lt_or_ge u e with hue | hue
  · have := k4.trans_lt (two_zpow_lt (K := K) (show u - 1 < e - 1 by omega))
    exact ⟨this.le, fun h => absurd h this.ne⟩
  have hP := pow_five_le (K := K) hp
  have hPp : (2 : K) ^ (p : ℤ) = 2 * 2 ^ (p - 1 : ℤ) := by rw [two_zpow_pred]; ring
  have hyg : |g| < 2 ^ (p : ℤ) * 2 ^ e := by rw [← two_zpow_add]; exact hgy.trans_lt hy2
  -- a component with a last bit much smaller than that of `y` is too small
  have hμe : e - 1 ≤ μ := by
    by_contra hc
    have c1 : (2 : K) ^ μ ≤ 2 ^ (e - 1 - 1) := two_zpow_le (by omega)
    rw [two_zpow_pred, two_zpow_pred] at c1
    have c2 : (2 : K) ^ (p - 1 + e : ℤ) ≤ 2 ^ (p - 1 + u : ℤ) := two_zpow_le (by omega)
    rw [two_zpow_add] at c2
    rw [two_zpow_add] at hgM
    have c3 : (2 : K) ^ (p : ℤ) * 2 ^ μ ≤ 2 ^ (p : ℤ) * (2 ^ e / 2 / 2) := by gcongr
    rw [hPp] at c3 hgM
    have c4 : 32 * (2 : K) ^ e ≤ 2 ^ (p - 1 : ℤ) * 2 ^ e := by gcongr
    linarith
  rcases lt_trichotomy μ e with hlt | heq | hgt
  · -- half the last bit of `y`
    have hme : μ = e - 1 := by omega
    have hm2 : (2 : K) ^ μ = 2 ^ e / 2 := by rw [hme, two_zpow_pred]
    have : u = e := by
      refine le_antisymm ?_ hue
      by_contra hc
      have c2 : (2 : K) ^ (p - 1 + (e + 1) : ℤ) ≤ 2 ^ (p - 1 + u : ℤ) := two_zpow_le (by omega)
      rw [two_zpow_add, two_zpow_succ] at c2
      rw [two_zpow_add] at hgM
      rw [hPp, hm2] at hgM
      have c4 : 32 * (2 : K) ^ e ≤ 2 ^ (p - 1 : ℤ) * 2 ^ e := by gcongr
      rw [hm2] at h2 hH
      linarith
    subst this
    exact ⟨k4, fun _ => small hlt.le⟩
  · -- the last bit of `y`
    subst heq
    refine ⟨?_, fun _ => small le_rfl⟩
    rcases hue.lt_or_eq with hue | rfl
    swap
    · exact k4
    have c2 : (2 : K) ^ (p - 1 + (μ + 1) : ℤ) ≤ 2 ^ (p - 1 + u : ℤ) := two_zpow_le (by omega)
    have c3 : (2 : K) ^ (p - 1 + (μ + 1) : ℤ) = 2 ^ (p + μ : ℤ) := by congr 1; ring
    rw [c3] at c2
    have c4 : |g| + 2 ^ μ ≤ 2 ^ (p + μ : ℤ) := hμ.1.abs.step (onGrid_pow (by omega)) hgM
    -- the sum so far is not more than three halves of the last bit
    have c5 : |Q| ≤ 3 / 2 * 2 ^ μ := by
      by_contra hc
      push Not at hc
      have hQ0 : Q ≠ 0 := by
        rintro rfl
        rw [abs_zero] at hc
        linarith
      obtain ⟨q, q1, q2, q3⟩ := fQ.canon hQ0
      have hq : μ + 1 - p ≤ q := by
        have : (2 : K) ^ μ < 2 ^ (p + q : ℤ) := by linarith
        have := two_zpow_lt_iff.1 this
        omega
      have hg3 : OnGrid (μ + 1 - p) ((3 / 2 : K) * 2 ^ μ) := by
        have : (3 / 2 : K) * 2 ^ μ = 2 ^ μ + 2 ^ (μ - 1) := by rw [two_zpow_pred]; ring
        rw [this]
        exact (onGrid_pow (by omega)).add (onGrid_pow (by omega))
      have c6 := hg3.step (q1.abs.mono hq) hc
      rcases hist with h0 | ⟨h, v, Q', pe', me, pf', mf, d⟩
      · rw [h0, abs_zero] at hQ
        linarith
      · have d1 := ha pe' ⟨me, d.epe.symm⟩
        have d2 := hb pf' ⟨mf, d.epf.symm⟩
        have d3 : |Q'| ≤ |pe'.sum| + |pf'.sum| + |H| := by
          have : Q' = pe'.sum + pf'.sum - H := by rw [← d.tot]; ring
          rw [this]
          exact (abs_sub _ _).trans (add_le_add (abs_add_le _ _) le_rfl)
        have d4 : (2 : K) ^ (p - 1 + v : ℤ) < 2 ^ (μ + 1) := by
          rw [two_zpow_succ]
          have := d.big
          linarith
        have d5 := two_zpow_lt_iff.1 d4
        have d6 : (2 : K) ^ v ≤ 2 ^ (μ + 1 - p) := two_zpow_le (by omega)
        have := d.hsum
        have := two_zpow_pos (K := K) v
        linarith
    have c7 : 2 ^ (p + μ : ℤ) ≤ |Q + g| := c2.trans k1
    rw [two_zpow_pred]
    rcases le_total 0 (Q + g) with hs | hs
    · have := roundBits_nearest hp1 (x := Q + g) (isFloat_pow (K := K) hp1 (p + μ : ℤ))
      rw [abs_of_nonneg hs] at c7 htri
      rw [abs_of_nonneg (sub_nonneg.2 c7)] at this
      linarith
    · have := roundBits_nearest hp1 (x := Q + g) (isFloat_pow (K := K) hp1 (p + μ : ℤ)).neg
      rw [abs_of_nonpos hs] at c7 htri
      rw [sub_neg_eq_add, abs_of_nonpos (by linarith : Q + g + 2 ^ (p + μ : ℤ) ≤ 0)] at this
      linarith
  · -- above the last bit of `y`
    have hm2 : 2 * (2 : K) ^ e ≤ 2 ^ μ := two_zpow_le_half hgt
    rcases hue.lt_or_eq with hue | rfl
    · have c2 : (2 : K) ^ (p - 1 + (e + 1) : ℤ) ≤ 2 ^ (p - 1 + u : ℤ) := two_zpow_le (by omega)
      have c3 : (2 : K) ^ (p - 1 + (e + 1) : ℤ) = 2 ^ (p + e : ℤ) := by congr 1; ring
      rw [c3] at c2
      rw [← two_zpow_add] at hyg
      have c0 : μ < p + e := two_zpow_lt_iff.1 (hMg.trans_lt hyg)
      have c4 : |g| + 2 ^ μ ≤ 2 ^ (p + e : ℤ) := hμ.1.abs.step (onGrid_pow (by omega)) hyg
      have c7 : 2 ^ (p + e : ℤ) ≤ |Q + g| := c2.trans k1
      have hres : |Q + g - roundBits p (Q + g)| < 2 ^ (e - 1) := by
        rw [two_zpow_pred]
        rcases le_total 0 (Q + g) with hs | hs
        · have := roundBits_nearest hp1 (x := Q + g) (isFloat_pow (K := K) hp1 (p + e : ℤ))
          rw [abs_of_nonneg hs] at c7 htri
          rw [abs_of_nonneg (sub_nonneg.2 c7)] at this
          linarith
        · have := roundBits_nearest hp1 (x := Q + g) (isFloat_pow (K := K) hp1 (p + e : ℤ)).neg
          rw [abs_of_nonpos hs] at c7 htri
          rw [sub_neg_eq_add, abs_of_nonpos (by linarith : Q + g + 2 ^ (p + e : ℤ) ≤ 0)] at this
          linarith
      exact ⟨hres.le, fun h => absurd h hres.ne⟩
    · exact ⟨k4, fun heq h u' Q' pe' me pf' mf d => key_tie hp hy fy nf ff he (hμ.1.mono hgt.le) k3 heq d⟩

end Geometrix
