import Verif.Lemmas.Estimate
import Verif.Lemmas.LinearSum

/-!
`estimate` on the expansions that `fast_expansion_sum_zeroelim` makes, in which two neighbouring components may touch.
-/

set_option linter.unusedSectionVars false

namespace Geometrix

open Spec

variable {K : Type*} [Field K] [LinearOrder K] [IsStrictOrderedRing K] [FloorRing K]

theorem estimateLoop_append (fl : K → K) (g : K) : ∀ (l : List K) (Q : K),
    estimateLoop fl Q (l ++ [g]) = fl (estimateLoop fl Q l + g)
  | [], _ => rfl
  | _ :: l, _ => estimateLoop_append fl g l _

theorem estimateLoop_isFloat {p : Nat} (hp : 1 ≤ p) : ∀ (l : List K) (Q : K), IsFloat p Q →
    IsFloat p (estimateLoop (roundBits p) Q l)
  | [], _, h => h
  | _ :: l, _, _ => estimateLoop_isFloat hp l _ (roundBits_isFloat hp _)

theorem estimateLoop_filter {p : Nat} (hp : 1 ≤ p) : ∀ (l : List K) (Q : K), IsFloat p Q →
    estimateLoop (roundBits p) Q (l.filter (· ≠ 0)) = estimateLoop (roundBits p) Q l
  | [], _, _ => rfl
  | a :: l, Q, h => by
    by_cases ha : a = 0
    · rw [List.filter_cons_of_neg (by simp [ha]), estimateLoop, ha, add_zero, h.round hp]
      exact estimateLoop_filter hp l Q h
    · rw [List.filter_cons_of_pos (by simp [ha]), estimateLoop, estimateLoop]
      exact estimateLoop_filter hp l _ (roundBits_isFloat hp _)

theorem est_total {p : Nat} (Q S g : K) :
    |roundBits p (Q + g) - (S + g)| ≤ |Q + g - roundBits p (Q + g)| + |Q - S| := by
  have := abs_sub (Q - S) (Q + g - roundBits p (Q + g))
  rw [show Q - S - (Q + g - roundBits p (Q + g)) = roundBits p (Q + g) - (S + g) by ring] at this
  linarith

/-- The rounding error of one addition. -/
theorem est_round {p : Nat} (hp : 1 ≤ p) {Q S g : K} {k : ℤ} (hk : |S + g| ≤ 2 ^ k) :
    |Q + g - roundBits p (Q + g)| ≤ max (2 ^ (k - p - 1)) |Q - S| := by
  have hx : |Q + g| ≤ 2 ^ k + |Q - S| := by
    have := abs_add_le (S + g) (Q - S)
    rw [show S + g + (Q - S) = Q + g by ring] at this
    linarith
  rcases le_or_gt |Q + g| (2 ^ k) with h | h
  · exact le_max_of_le_left (roundBits_err hp h)
  · refine le_max_of_le_right ?_
    rcases le_total 0 (Q + g) with hs | hs
    · have := roundBits_nearest hp (x := Q + g) (isFloat_pow (K := K) hp k)
      rw [abs_of_nonneg hs] at h hx
      rw [abs_of_nonneg (sub_nonneg.2 h.le)] at this
      linarith
    · have := roundBits_nearest hp (x := Q + g) (isFloat_pow (K := K) hp k).neg
      rw [abs_of_nonpos hs] at h hx
      rw [sub_neg_eq_add, abs_of_nonpos (by linarith : Q + g + 2 ^ k ≤ 0)] at this
      linarith

theorem zpow_sub_nat (p : Nat) (k : ℤ) : (2 : K) ^ (k - p) = 2 ^ k * (1 / 2 ^ p) := by
  rw [sub_eq_add_neg, two_zpow_add, zpow_neg, zpow_natCast, one_div]

/-- Components without zeros. -/
structure Comps (p : Nat) (l : List K) : Prop where
  fl : ∀ a ∈ l, IsFloat p a ∧ a ≠ 0
  half : l.Pairwise HalfBelow
  lonely : ∀ a b c, [a, b, c].Sublist l → WellBelow a b ∨ WellBelow b c

theorem Comps.init {p : Nat} {l : List K} {g : K} (h : Comps p (l ++ [g])) : Comps p l :=
  ⟨fun a ha => h.fl a (by simp [ha]), (List.pairwise_append.1 h.half).1,
    fun a b c hs => h.lonely a b c (hs.trans (List.sublist_append_left _ _))⟩

theorem Comps.sum_lt {p : Nat} {l : List K} (h : Comps p l) {k : ℤ} (hk : ∀ a ∈ l, |a| < 2 ^ k) : |l.sum| < 2 ^ k := by
  refine asc_sum_lt (fun a ha => (h.fl a ha).1) (h.half.imp ?_) hk
  intro a b hab
  obtain ⟨e, h1, h2⟩ := hab.below
  exact ⟨e, h1, by simpa using h2⟩

/-- The two ways in which the last component can lie above the others. -/
theorem Comps.last {p : Nat} {l : List K} {g : K} (h : Comps p (l ++ [g])) : (∀ a ∈ l, WellBelow a g) ∨
    ∃ m b, l = m ++ [b] ∧ (∀ a ∈ m, WellBelow a b) ∧ HalfBelow b g ∧ ¬ WellBelow b g := by
  rcases List.eq_nil_or_concat l with rfl | ⟨m, b, rfl⟩
  · left; simp
  · rw [List.concat_eq_append] at h ⊢
    have hb : HalfBelow b g := (List.pairwise_append.1 h.half).2.2 b (by simp) g (by simp)
    by_cases hw : WellBelow b g
    · left
      intro a ha
      rw [List.mem_append, List.mem_singleton] at ha
      rcases ha with ha | rfl
      · have hab : HalfBelow a b := (List.pairwise_append.1 h.init.half).2.2 a ha b (by simp)
        have := hab.two_abs_le (h.fl b (by simp)).2
        exact hw.of_le (by have := abs_nonneg a; linarith)
      · exact hw
    · right
      refine ⟨m, b, rfl, fun a ha => ?_, hb, hw⟩
      refine (h.lonely a b g ?_).resolve_right hw
      have h1 : [a].Sublist m := List.singleton_sublist.2 ha
      simpa using h1.append (List.Sublist.refl [b, g])

/-- The error of `estimate` beside the size of the components: six sevenths, and five sevenths if the last component does not
touch the one before. -/
theorem est_size {p : Nat} (hp : 1 ≤ p) (l : List K) (h : Comps p l) :
    (∀ k : ℤ, (∀ a ∈ l, |a| < 2 ^ k) → |estimateLoop (roundBits p) 0 l - l.sum| ≤ 6 / 7 * 2 ^ (k - p)) ∧
    (∀ m g, l = m ++ [g] → (∀ a ∈ m, WellBelow a g) → ∀ k : ℤ, (∀ a ∈ l, |a| < 2 ^ k) →
      |estimateLoop (roundBits p) 0 l - l.sum| ≤ 5 / 7 * 2 ^ (k - p)) := by
  induction l using List.reverseRecOn with
  | nil =>
    refine ⟨fun k _ => ?_, fun m g hm => by simp at hm⟩
    have := two_zpow_pos (K := K) (k - p)
    rw [estimateLoop, List.sum_nil, sub_self, abs_zero]
    positivity
  | append_singleton l g ih =>
    obtain ⟨ih1, ih2⟩ := ih h.init
    obtain ⟨fg, g0⟩ := h.fl g (by simp)
    obtain ⟨e, hlow, -⟩ := fg.exists_low g0
    have hge := hlow.le_abs g0
    rw [estimateLoop_append, List.sum_append, List.sum_singleton]
    have hlev : ∀ k : ℤ, (∀ a ∈ l ++ [g], |a| < 2 ^ k) → e + 1 ≤ k ∧ |l.sum + g| ≤ 2 ^ k := by
      intro k hk
      have h1 : e < k := two_zpow_lt_iff.1 (hge.trans_lt (hk g (by simp)))
      refine ⟨by omega, ?_⟩
      have := h.sum_lt hk
      rw [List.sum_append, List.sum_singleton] at this
      exact this.le
    have well : (∀ a ∈ l, WellBelow a g) → ∀ k : ℤ, (∀ a ∈ l ++ [g], |a| < 2 ^ k) →
        |roundBits p (estimateLoop (roundBits p) 0 l + g) - (l.sum + g)| ≤ 5 / 7 * 2 ^ (k - p) := by
      intro hw k hk
      obtain ⟨k1, k2⟩ := hlev k hk
      have a1 := ih1 (e - 1) fun a ha => (hw a ha).lt hlow
      have a2 := est_total (p := p) (estimateLoop (roundBits p) 0 l) l.sum g
      have a3 := est_round hp (Q := estimateLoop (roundBits p) 0 l) k2
      have b1 : (2 : K) ^ (e - 1 - p) ≤ 2 ^ (k - p) / 4 := by
        have := two_zpow_le (K := K) (show e - 1 - (p : ℤ) ≤ k - p - 1 - 1 by omega)
        rw [two_zpow_pred, two_zpow_pred] at this
        linarith
      rw [two_zpow_pred (k - p)] at a3
      have b0 := two_zpow_pos (K := K) (k - p)
      rw [max_eq_left (by linarith)] at a3
      linarith
    refine ⟨fun k hk => ?_, fun m g' hm hw k hk => ?_⟩
    · rcases h.last with hw | ⟨m, b, rfl, hw, hb, hnb⟩
      · have := well hw k hk
        have := two_zpow_pos (K := K) (k - p)
        linarith
      · obtain ⟨k1, k2⟩ := hlev k hk
        have hbl := hb.le hlow
        have a1 := ih2 m b rfl hw e fun a ha => by
          rw [List.mem_append, List.mem_singleton] at ha
          rw [two_zpow_pred] at hbl
          have := two_zpow_pos (K := K) e
          rcases ha with ha | rfl
          · have := ((List.pairwise_append.1 h.init.half).2.2 a ha b (by simp)).two_abs_le (h.fl b (by simp)).2
            have := abs_nonneg a
            linarith
          · linarith
        have a2 := est_total (p := p) (estimateLoop (roundBits p) 0 (m ++ [b])) (m ++ [b]).sum g
        have a3 := est_round hp (Q := estimateLoop (roundBits p) 0 (m ++ [b])) k2
        have b1 : (2 : K) ^ (e - p) ≤ 2 ^ (k - p) / 2 := by
          have := two_zpow_le (K := K) (show e - (p : ℤ) ≤ k - p - 1 by omega)
          rwa [two_zpow_pred] at this
        rw [two_zpow_pred (k - p)] at a3
        have b0 := two_zpow_pos (K := K) (k - p)
        rw [max_eq_left (by linarith)] at a3
        linarith
    · obtain ⟨rfl, e2⟩ := List.append_inj' hm rfl
      rw [← List.singleton_inj.1 e2] at hw
      exact well hw k hk

/-- The error of `estimate` beside the value of the expansion. -/
theorem est_value {p : Nat} (hp : 4 ≤ p) (l : List K) (h : Comps p l) :
    |estimateLoop (roundBits p) 0 l - l.sum| ≤ 20 / 7 * (1 / 2 ^ p) * |l.sum| := by
  have hp1 : 1 ≤ p := by omega
  have hE : (0 : K) < 1 / 2 ^ p := by positivity
  have hE16 : (1 : K) / 2 ^ p ≤ 1 / 16 := by
    have : (2 : K) ^ 4 ≤ 2 ^ p := pow_le_pow_right₀ (by norm_num) hp
    rw [div_le_div_iff₀ (by positivity) (by norm_num)]
    linarith
  rcases List.eq_nil_or_concat l with rfl | ⟨m, g, rfl⟩
  · rw [estimateLoop, List.sum_nil, sub_self, abs_zero, mul_zero]
  rw [List.concat_eq_append] at h ⊢
  obtain ⟨s1, s2⟩ := est_size hp1 m h.init
  obtain ⟨fg, g0⟩ := h.fl g (by simp)
  obtain ⟨e, hlow, -⟩ := fg.exists_low g0
  have hge := hlow.le_abs g0
  have he0 := two_zpow_pos (K := K) e
  rw [estimateLoop_append, List.sum_append, List.sum_singleton]
  have fQ := estimateLoop_isFloat hp1 m (0 : K) (isFloat_zero p)
  have hsub : |g| - |m.sum| ≤ |m.sum + g| := by
    have := abs_sub (m.sum + g) m.sum
    rw [add_sub_cancel_left] at this
    linarith
  have a2 := est_total (p := p) (estimateLoop (roundBits p) 0 m) m.sum g
  rcases h.last with hw | ⟨m', b, rfl, hw, hb, hnb⟩
  · have b1 : ∀ a ∈ m, |a| < 2 ^ (e - 1) := fun a ha => (hw a ha).lt hlow
    have b2 := h.init.sum_lt b1
    have a1 := s1 _ b1
    rw [two_zpow_pred] at b2
    have hne : m.sum + g ≠ 0 := abs_pos.1 (by linarith)
    obtain ⟨j, -, j1, j2⟩ := exists_log hne
    have hj : e ≤ j + 1 := by
      have h1 : (2 : K) ^ (e - 1) < 2 ^ (j + 1) := by rw [two_zpow_pred]; linarith
      have := two_zpow_lt_iff.1 h1
      omega
    have a3 := est_round hp1 (Q := estimateLoop (roundBits p) 0 m) j2.le
    have c1 : (2 : K) ^ (e - 1 - p) ≤ 2 ^ (j - p) := two_zpow_le (by omega)
    rw [show j + 1 - (p : ℤ) - 1 = j - p by ring] at a3
    have c0 := two_zpow_pos (K := K) (j - p)
    rw [max_eq_left (by linarith)] at a3
    rw [zpow_sub_nat p j] at *
    nlinarith
  · have hbl := hb.le hlow
    have b1 : ∀ a ∈ m' ++ [b], |a| < 2 ^ e := fun a ha => by
      rw [List.mem_append, List.mem_singleton] at ha
      rw [two_zpow_pred] at hbl
      rcases ha with ha | rfl
      · have := ((List.pairwise_append.1 h.init.half).2.2 a ha b (by simp)).two_abs_le (h.fl b (by simp)).2
        have := abs_nonneg a
        linarith
      · linarith
    have a1 := s2 m' b rfl hw e b1
    set S := (m' ++ [b]).sum with hS
    set Q := estimateLoop (roundBits p) 0 (m' ++ [b]) with hQ
    have hSb : |S| ≤ 3 / 4 * 2 ^ e := by
      obtain ⟨fb, b0⟩ := h.fl b (by simp)
      obtain ⟨eb, hlb, -⟩ := fb.exists_low b0
      have h1 : eb ≤ e - 1 := by
        have := (hlb.le_abs b0).trans hbl
        exact two_zpow_le_iff.1 this
      have h2 := h.init.init.sum_lt fun a ha => (hw a ha).lt hlb
      have h3 := two_zpow_le (K := K) (show eb - 1 ≤ e - 1 - 1 by omega)
      rw [two_zpow_pred (e - 1)] at h3
      have h4 := abs_add_le m'.sum b
      rw [hS, List.sum_append, List.sum_singleton]
      rw [two_zpow_pred e] at h3 hbl
      linarith
    have hne : S + g ≠ 0 := abs_pos.1 (by linarith)
    rcases le_or_gt (2 ^ (e - 1)) |S + g| with hbig | hsmall
    · obtain ⟨j, -, j1, j2⟩ := exists_log hne
      have hj : e ≤ j + 1 := by
        have := two_zpow_lt_iff.1 (hbig.trans_lt j2)
        omega
      have a3 := est_round hp1 (Q := Q) j2.le
      have c1 := two_zpow_le (K := K) (show e - (p : ℤ) ≤ (j - p) + 1 by omega)
      rw [two_zpow_succ] at c1
      rw [show j + 1 - (p : ℤ) - 1 = j - p by ring] at a3
      have c0 := two_zpow_pos (K := K) (j - p)
      have a4 : |Q + g - roundBits p (Q + g)| ≤ 10 / 7 * 2 ^ (j - p : ℤ) := a3.trans (max_le (by linarith) (by linarith))
      rw [zpow_sub_nat p j] at *
      nlinarith
    · rw [zpow_sub_nat] at a1
      rw [two_zpow_pred] at hsmall
      rcases le_or_gt |Q + g| (2 ^ (e - 1)) with hq | hq
      · have hQg : |g| ≤ |Q + g| + |Q| := by
          have := abs_sub (Q + g) Q
          rwa [add_sub_cancel_left] at this
        have hQ1 : 2 ^ (e - 1) ≤ |Q| := by
          rw [two_zpow_pred] at hq ⊢
          linarith
        have q0 : Q ≠ 0 := abs_pos.1 ((two_zpow_pos _).trans_le hQ1)
        obtain ⟨eq, q1, q2, q3⟩ := fQ.canon q0
        have hqe : e - 1 - p ≤ eq := by
          have := two_zpow_lt_iff.1 (hQ1.trans_lt q3)
          omega
        have hfl : IsFloat p (Q + g) := isFloat_of hp1 (e := e - 1 - p) ((q1.mono hqe).add (hlow.1.mono (by omega)))
          (hq.trans (two_zpow_le (by omega)))
        rw [hfl.round hp1, show Q + g - (S + g) = Q - S by ring]
        nlinarith
      · have hq2 : |Q + g| ≤ |S + g| + |Q - S| := by
          have := abs_add_le (S + g) (Q - S)
          rwa [show S + g + (Q - S) = Q + g by ring] at this
        have hq3 : |Q + g| ≤ 2 ^ e := by nlinarith
        have a3 := roundBits_err hp1 hq3
        rw [two_zpow_pred, zpow_sub_nat] at a3
        rw [two_zpow_pred] at hq
        have c1 : 2 ^ e / 2 - 5 / 7 * (2 ^ e * (1 / 2 ^ p)) ≤ |S + g| := by linarith
        have c2 : |roundBits p (Q + g) - (S + g)| ≤ 17 / 14 * (2 ^ e * (1 / 2 ^ p)) := by linarith
        refine c2.trans ?_
        have c3 : 17 / 14 * (2 : K) ^ e ≤ 20 / 7 * |S + g| := by nlinarith
        calc 17 / 14 * ((2 : K) ^ e * (1 / 2 ^ p)) = 17 / 14 * 2 ^ e * (1 / 2 ^ p) := by ring
          _ ≤ 20 / 7 * |S + g| * (1 / 2 ^ p) := by gcongr
          _ = _ := by ring

/-- `estimate` is off by less than three units in the last place. -/
theorem estimate_near {p : Nat} (hp : 4 ≤ p) {l : List K} (l0 : l ≠ []) (hl : ∀ a ∈ l, IsFloat p a)
    (hn : NearlyNonadjacent l) :
    ∃ Q, estimate (roundBits p) l = .ok Q ∧ IsFloat p Q ∧ |Q - l.sum| ≤ 20 / 7 * (1 / 2 ^ p) * |l.sum| := by
  have hp1 : 1 ≤ p := by omega
  cases l with
  | nil => exact absurd rfl l0
  | cons x l =>
    have hx := hl x (by simp)
    have e1 : estimateLoop (roundBits p) x l = estimateLoop (roundBits p) 0 ((x :: l).filter (· ≠ 0)) := by
      rw [estimateLoop_filter hp1 _ _ (isFloat_zero p), estimateLoop, zero_add, hx.round hp1]
    refine ⟨_, rfl, estimateLoop_isFloat hp1 l x hx, ?_⟩
    have := est_value hp ((x :: l).filter (· ≠ 0)) ⟨fun a ha => ?_, hn.halfBelow, hn.lonely⟩
    · rwa [← e1, sum_filter] at this
    · rw [List.mem_filter] at ha
      exact ⟨hl a ha.1, by simpa using ha.2⟩

end Geometrix
