import Verif.Lemmas.Estimate

/-!
`scale_expansion`.
-/

set_option linter.unusedSectionVars false

namespace Geometrix

open Spec

variable {K : Type*} [Field K] [LinearOrder K] [IsStrictOrderedRing K] [FloorRing K]

/-- A number that is not much larger than a float is rounded to at most this float. -/
theorem round_edge {p : Nat} (hp : 1 ≤ p) {M x : K} {g : ℤ} (hg : OnGrid g M) (h1 : 2 ^ (p - 1 + g : ℤ) ≤ M)
    (h2 : M ≤ 2 ^ (p + g : ℤ)) (h : |x| ≤ M + 2 ^ (g - 2)) : |roundBits p x| ≤ M ∧ |x - roundBits p x| ≤ 2 ^ (g - 1) := by
  have hM0 : 0 < M := (two_zpow_pos _).trans_le h1
  have hMf : IsFloat p M := isFloat_of hp hg (by rwa [abs_of_pos hM0])
  rcases le_or_gt |x| M with hx | hx
  · refine ⟨roundBits_abs_le hp hx hMf, ?_⟩
    have := roundBits_err hp (hx.trans h2)
    rwa [show (p + g - p - 1 : ℤ) = g - 1 by ring] at this
  · obtain ⟨y, hy⟩ : ∃ y, y = |x| := ⟨_, rfl⟩
    have hya : |y| = y := by rw [hy, abs_abs]
    rw [← hy] at hx h
    have hn : |y - roundBits p y| ≤ |y - M| := roundBits_nearest hp hMf
    have h3 : |y - M| ≤ 2 ^ (g - 2) := by
      rw [abs_of_pos (by linarith)]
      linarith
    have hgr : OnGrid g (roundBits p y) := roundBits_grid hp (by rw [hya]; exact h1.trans hx.le)
    have q : (2 : K) ^ (g - 2) + 2 ^ (g - 2) = 2 ^ (g - 1) := by
      rw [← two_mul, ← two_zpow_succ]; congr 1; ring
    constructor
    · rw [roundBits_abs, ← hy]
      refine hgr.le_of_lt_add hg ?_
      have := (abs_le.1 (hn.trans h3)).1
      have := two_zpow_lt (K := K) (a := g - 1) (b := g) (by omega)
      linarith
    · have he : |x - roundBits p x| = |y - roundBits p y| := by
        rcases abs_choice x with hc | hc
        · rw [hy, hc]
        · rw [hy, hc, roundBits_neg, ← abs_neg]
          congr 1
          ring
      rw [he]
      exact (hn.trans h3).trans (two_zpow_le (by omega))

/-- The components that `scale_expansion` stores. -/
def scaleErr (p : Nat) (b : K) : K → List K → List K
  | Q, [] => [Q]
  | Q, x :: e =>
    let T := roundBits p (x * b)
    let s := roundBits p (Q + (x * b - T))
    (Q + (x * b - T) - s) :: (T + s - roundBits p (T + s)) :: scaleErr p b (roundBits p (T + s)) e

theorem scaleErr_sum (p : Nat) (b : K) : ∀ (e : List K) (Q : K), (scaleErr p b Q e).sum = Q + e.sum * b
  | [], Q => by simp [scaleErr]
  | x :: e, Q => by
    simp only [scaleErr, List.sum_cons, scaleErr_sum p b e]
    ring

theorem scaleErr_length (p : Nat) (b : K) : ∀ (e : List K) (Q : K), (scaleErr p b Q e).length = 2 * e.length + 1
  | [], Q => by simp [scaleErr]
  | x :: e, Q => by
    simp only [scaleErr, List.length_cons, scaleErr_length p b e]
    omega

theorem scaleErr_isFloat {p : Nat} (hp : 1 ≤ p) {b : K} (hb : IsFloat p b) : ∀ (e : List K) (Q : K), IsFloat p Q →
    (∀ a ∈ e, IsFloat p a) → ∀ a ∈ scaleErr p b Q e, IsFloat p a
  | [], Q, hQ, _, a, ha => by
    simp only [scaleErr, List.mem_singleton] at ha
    rw [ha]; exact hQ
  | x :: e, Q, hQ, he, a, ha => by
    have ft := prod_err_isFloat hp (he x (by simp)) hb
    simp only [scaleErr, List.mem_cons] at ha
    rcases ha with rfl | rfl | ha
    · exact sum_err_isFloat hp hQ ft
    · exact sum_err_isFloat hp (roundBits_isFloat hp _) (roundBits_isFloat hp _)
    · exact scaleErr_isFloat hp hb e _ (roundBits_isFloat hp _) (fun y hy => he y (by simp [hy])) a ha

theorem scaleErr_grid {p : Nat} (hp : 1 ≤ p) {b : K} {g : ℤ} : ∀ (e : List K) (Q : K), OnGrid g Q →
    (∀ a ∈ e, OnGrid g (a * b)) → ∀ a ∈ scaleErr p b Q e, OnGrid g a
  | [], Q, hQ, _, a, ha => by
    simp only [scaleErr, List.mem_singleton] at ha
    rw [ha]; exact hQ
  | x :: e, Q, hQ, he, a, ha => by
    have hx := he x (by simp)
    have hT := hx.round hp
    have h1 := hQ.add (hx.sub hT)
    have h2 := hT.add (h1.round hp)
    simp only [scaleErr, List.mem_cons] at ha
    rcases ha with rfl | rfl | ha
    · exact h1.sub (h1.round hp)
    · exact h2.sub (h2.round hp)
    · exact scaleErr_grid hp e _ (h2.round hp) (fun y hy => he y (by simp [hy])) a ha

/-- One turn of the loop. -/
theorem scale_step {p : Nat} (hp : 1 ≤ p) {b x Q : K} {β κ κ' : ℤ} (hbg : OnGrid β b)
    (b1 : 2 ^ (p - 1 + β : ℤ) ≤ |b|) (b2 : |b| < 2 ^ (p + β : ℤ)) (fQ : IsFloat p Q) (hx : OnGrid κ x) (hx0 : x ≠ 0)
    (x1 : 2 ^ (κ' - 1) ≤ |x|) (x2 : |x| < 2 ^ κ') (hQ : |Q| ≤ 2 ^ κ * |b|) :
    |x * b - roundBits p (x * b)| ≤ 2 ^ (κ' + β - 1) ∧
    |Q + (x * b - roundBits p (x * b)) - roundBits p (Q + (x * b - roundBits p (x * b)))| ≤ 2 ^ (κ' + β - 2) ∧
    |roundBits p (roundBits p (x * b) + roundBits p (Q + (x * b - roundBits p (x * b))))| ≤ 2 ^ κ' * |b| ∧
    |roundBits p (x * b) + roundBits p (Q + (x * b - roundBits p (x * b))) -
      roundBits p (roundBits p (x * b) + roundBits p (Q + (x * b - roundBits p (x * b))))| ≤ 2 ^ (κ' + β - 1) ∧
    |roundBits p (Q + (x * b - roundBits p (x * b)))| ≤ |roundBits p (x * b)| := by
  have hκ : κ < κ' := by
    have := (hx.le_abs hx0).trans_lt x2
    rwa [two_zpow_lt_iff] at this
  have hb0 : 0 < |b| := (two_zpow_pos _).trans_le b1
  have hb3 : |b| + 2 ^ β ≤ 2 ^ (p + β : ℤ) := hbg.abs.step (onGrid_pow (by omega)) b2
  have hx3 : |x| + 2 ^ κ ≤ 2 ^ κ' := hx.abs.step (onGrid_pow (by omega)) x2
  have hxb : |x * b| ≤ 2 ^ (κ' + (p + β) : ℤ) := by
    rw [abs_mul, two_zpow_add]
    exact mul_le_mul x2.le b2.le (abs_nonneg _) (two_zpow_pos _).le
  have ht := roundBits_err hp hxb
  rw [show (κ' + (p + β) - p - 1 : ℤ) = κ' + β - 1 by ring] at ht
  have hrel := roundBits_rel hp (x * b)
  have hTf : IsFloat p |roundBits p (x * b)| := by rw [roundBits_abs]; exact roundBits_isFloat hp _
  -- the sum with the tail
  have hQt : |Q + (x * b - roundBits p (x * b))| ≤ 2 ^ (κ' - 1 + (p + β) : ℤ) := by
    have a1 := abs_add_le Q (x * b - roundBits p (x * b))
    have a2 : (2 : K) ^ κ * |b| ≤ 2 ^ (κ' - 1) * |b| := by
      have := two_zpow_le (K := K) (a := κ) (b := κ' - 1) (by omega)
      gcongr
    have a3 : (2 : K) ^ (κ' - 1) * (|b| + 2 ^ β) ≤ 2 ^ (κ' - 1) * 2 ^ (p + β : ℤ) :=
      mul_le_mul_of_nonneg_left hb3 (two_zpow_pos _).le
    rw [two_zpow_add (κ' - 1) (p + β)]
    rw [show κ' + β - 1 = κ' - 1 + β by ring, two_zpow_add] at ht
    linarith
  have hh1 := roundBits_err hp hQt
  rw [show (κ' - 1 + (p + β) - p - 1 : ℤ) = κ' + β - 2 by ring] at hh1
  -- the last sum
  have hsum : |roundBits p (x * b) + roundBits p (Q + (x * b - roundBits p (x * b)))| ≤ 2 ^ κ' * |b| + 2 ^ (κ' + β - 2) := by
    have e1 : roundBits p (x * b) + roundBits p (Q + (x * b - roundBits p (x * b))) =
        (x * b + Q) - (Q + (x * b - roundBits p (x * b)) - roundBits p (Q + (x * b - roundBits p (x * b)))) := by ring
    rw [e1]
    have a1 := abs_sub (x * b + Q) (Q + (x * b - roundBits p (x * b)) - roundBits p (Q + (x * b - roundBits p (x * b))))
    have a2 := abs_add_le (x * b) Q
    rw [abs_mul] at a2
    have a3 : (|x| + 2 ^ κ) * |b| ≤ 2 ^ κ' * |b| := mul_le_mul_of_nonneg_right hx3 hb0.le
    linarith
  have hedge := round_edge hp (g := κ' + β) (by rw [add_comm]; exact hbg.abs.shift)
    (by
      rw [show (p - 1 + (κ' + β) : ℤ) = κ' + (p - 1 + β) by ring, two_zpow_add]
      exact mul_le_mul_of_nonneg_left b1 (two_zpow_pos _).le)
    (by
      rw [show (p + (κ' + β) : ℤ) = κ' + (p + β) by ring, two_zpow_add]
      exact mul_le_mul_of_nonneg_left b2.le (two_zpow_pos _).le) hsum
  refine ⟨ht, hh1, hedge.1, hedge.2, ?_⟩
  rcases (hx.le_abs hx0).eq_or_lt with heq | hlt
  · -- one bit
    have hf : IsFloat p (x * b) := by
      refine isFloat_of hp (e := κ + β) (hx.mul hbg) ?_
      rw [abs_mul, ← heq, show (p + (κ + β) : ℤ) = κ + (p + β) by ring, two_zpow_add]
      exact mul_le_mul_of_nonneg_left b2.le (two_zpow_pos _).le
    rw [hf.round hp, sub_self, add_zero, fQ.round hp, abs_mul, ← heq]
    exact hQ
  · have hx4 : (2 : K) ^ κ + 2 ^ κ ≤ |x| := (onGrid_pow le_rfl).step hx.abs hlt
    have hlow : 2 ^ (κ + 1) * |b| ≤ |roundBits p (x * b)| := by
      refine le_roundBits_abs hp ?_ ?_
      · rw [abs_mul, two_zpow_succ, two_mul]
        exact mul_le_mul_of_nonneg_right hx4 hb0.le
      · refine isFloat_of hp (e := β + (κ + 1)) hbg.abs.shift ?_
        rw [abs_mul, abs_abs, abs_of_pos (two_zpow_pos _), show (p + (β + (κ + 1)) : ℤ) = κ + 1 + (p + β) by ring, two_zpow_add (κ + 1)]
        exact mul_le_mul_of_nonneg_left b2.le (two_zpow_pos _).le
    refine roundBits_abs_le hp ?_ hTf
    have a1 := abs_add_le Q (x * b - roundBits p (x * b))
    have a2 : (1 : K) / 2 ^ p ≤ 1 / 2 := by
      apply one_div_le_one_div_of_le (by norm_num)
      calc (2 : K) = 2 ^ 1 := by norm_num
        _ ≤ 2 ^ p := pow_le_pow_right₀ (by norm_num) hp
    have a3 : 1 / 2 ^ p * |roundBits p (x * b)| ≤ 1 / 2 * |roundBits p (x * b)| :=
      mul_le_mul_of_nonneg_right a2 (abs_nonneg _)
    rw [two_zpow_succ] at hlow
    linarith

theorem scaleErr_cons_zero {p : Nat} (hp : 1 ≤ p) {b Q : K} (fQ : IsFloat p Q) (e : List K) :
    scaleErr p b Q (0 :: e) = 0 :: 0 :: scaleErr p b Q e := by
  simp only [scaleErr, zero_mul, roundBits_zero, sub_self, add_zero, zero_add, fQ.round hp]

/-- Components do not overlap. -/
theorem scaleErr_belowBy {p : Nat} (hp : 1 ≤ p) {k : ℤ} (hk0 : 0 ≤ k) (hk : k ≤ 1) {b : K} {β : ℤ} (hbg : OnGrid β b)
    (b1 : 2 ^ (p - 1 + β : ℤ) ≤ |b|) (b2 : |b| < 2 ^ (p + β : ℤ)) : ∀ (e : List K) (Q : K) (κ : ℤ), IsFloat p Q →
    (∀ a ∈ e, IsFloat p a) → (∀ a ∈ e, OnGrid κ a) → |Q| ≤ 2 ^ κ * |b| → e.Pairwise (BelowBy k) →
    (scaleErr p b Q e).Pairwise (BelowBy k)
  | [], Q, κ, _, _, _, _, _ => by simp [scaleErr]
  | x :: e, Q, κ, fQ, fe, ge, hQ, hpw => by
    have hb : IsFloat p b := isFloat_of hp hbg b2.le
    have fe' : ∀ a ∈ e, IsFloat p a := fun y hy => fe y (by simp [hy])
    have ge' : ∀ a ∈ e, OnGrid κ a := fun y hy => ge y (by simp [hy])
    obtain ⟨w1, w2⟩ := List.pairwise_cons.1 hpw
    by_cases hx0 : x = 0
    · subst hx0
      rw [scaleErr_cons_zero hp fQ]
      have ih := scaleErr_belowBy hp hk0 hk hbg b1 b2 e Q κ fQ fe' ge' hQ w2
      have ff := scaleErr_isFloat hp hb e Q fQ fe'
      refine List.pairwise_cons.2 ⟨fun y hy => ?_, List.pairwise_cons.2 ⟨fun y hy => belowBy_zero_left (ff y hy), ih⟩⟩
      rcases List.mem_cons.1 hy with rfl | hy
      · exact belowBy_zero_right 0
      · exact belowBy_zero_left (ff y hy)
    obtain ⟨j, -, j1, j2⟩ := exists_log hx0
    obtain ⟨s1, s0, s2, s3, -⟩ := scale_step hp (κ' := j + 1) hbg b1 b2 fQ (ge x (by simp)) hx0
      (by rwa [add_sub_cancel_right]) j2 hQ
    have hle := sum_err_le_right hp (a := Q) (b := x * b - roundBits p (x * b)) fQ
    have hfs := roundBits_isFloat hp (Q + (x * b - roundBits p (x * b)))
    have hE1 := err_belowBy hp hk (Q + (x * b - roundBits p (x * b)))
    have hE2 := err_belowBy hp hk (x * b)
    have hE3 := err_belowBy hp hk (roundBits p (x * b) + roundBits p (Q + (x * b - roundBits p (x * b))))
    simp only [scaleErr]
    generalize roundBits p (x * b) = T at *
    generalize roundBits p (Q + (x * b - T)) = s at *
    generalize hQ' : roundBits p (T + s) = Q' at *
    -- a small number is below the later products
    have later : ∀ z : K, |z| ≤ 2 ^ (j + 1 + β - 1) → ∀ y ∈ e, BelowBy k z (y * b) := by
      intro z hz y hy
      obtain ⟨g, g1, g2⟩ := w1 y hy
      have : j < g - k := by
        have := j1.trans_lt g2
        rwa [two_zpow_lt_iff] at this
      exact ⟨g + β, g1.mul hbg, hz.trans_lt (two_zpow_lt (by omega))⟩
    have hgQ : ∀ a ∈ e, OnGrid (j + 1) a := by
      intro y hy
      obtain ⟨g, g1, g2⟩ := w1 y hy
      have : j < g - k := by
        have := j1.trans_lt g2
        rwa [two_zpow_lt_iff] at this
      exact g1.mono (by omega)
    have ih := scaleErr_belowBy hp hk0 hk hbg b1 b2 e Q' (j + 1) (hQ' ▸ roundBits_isFloat hp _) fe' hgQ s2 w2
    refine List.pairwise_cons.2 ⟨?_, List.pairwise_cons.2 ⟨?_, ih⟩⟩
    · obtain ⟨g, g1, g2, g3⟩ := common_grid (k := k) (a := Q + (x * b - T) - s) (T :: e.map (· * b)) s hE1 (by
        intro y hy
        rcases List.mem_cons.1 hy with rfl | hy
        · exact hE2.of_le hle
        · obtain ⟨z, hz, rfl⟩ := List.mem_map.1 hy
          exact later _ (hle.trans s1) z hz)
      have gT := g3 T (by simp)
      have hsum := gT.add g2
      intro y hy
      refine ⟨g, ?_, g1⟩
      rcases List.mem_cons.1 hy with rfl | hy
      · rw [← hQ']; exact hsum.sub (hsum.round hp)
      · refine scaleErr_grid hp e Q' (hQ' ▸ hsum.round hp) (fun z hz => ?_) y hy
        exact g3 _ (by simp only [List.mem_cons, List.mem_map]; exact Or.inr ⟨z, hz, rfl⟩)
    · obtain ⟨g, g1, g2, g3⟩ := common_grid (k := k) (a := T + s - Q') (e.map (· * b)) Q' hE3 (by
        intro y hy
        obtain ⟨z, hz, rfl⟩ := List.mem_map.1 hy
        exact later _ s3 z hz)
      intro y hy
      refine ⟨g, ?_, g1⟩
      refine scaleErr_grid hp e Q' g2 (fun z hz => ?_) y hy
      exact g3 _ (List.mem_map.2 ⟨z, hz, rfl⟩)

/-- Nearly nonadjacent, with zeros. -/
theorem Spec.NearlyNonadjacent.withZeros {p : Nat} {l : List K} (h : NearlyNonadjacent l) (hl : ∀ a ∈ l, IsFloat p a) :
    l.Pairwise HalfBelow ∧ ∀ a b c, [a, b, c].Sublist l → WellBelow a b ∨ WellBelow b c := by
  constructor
  · have h1 := h.halfBelow
    clear h
    induction l with
    | nil => exact List.Pairwise.nil
    | cons a l ih =>
      have hl' : ∀ b ∈ l, IsFloat p b := fun b hb => hl b (by simp [hb])
      by_cases ha : a = 0
      · rw [List.filter_cons_of_neg (by simpa using ha)] at h1
        refine List.pairwise_cons.2 ⟨fun y hy => ?_, ih hl' h1⟩
        rw [ha]
        exact (wellBelow_iff.2 (belowBy_zero_left (hl' y hy))).halfBelow
      · rw [List.filter_cons_of_pos (by simpa using ha)] at h1
        obtain ⟨h1, h2⟩ := List.pairwise_cons.1 h1
        refine List.pairwise_cons.2 ⟨fun y hy => ?_, ih hl' h2⟩
        by_cases hy0 : y = 0
        · rw [hy0]; exact (wellBelow_iff.2 (belowBy_zero_right a)).halfBelow
        · exact h1 y (by simp [hy, hy0])
  · intro a b c hs
    have hc := hl c (hs.subset (by simp))
    by_cases hb : b = 0
    · exact Or.inl (hb ▸ wellBelow_iff.2 (belowBy_zero_right a))
    by_cases ha : a = 0
    · exact Or.inl (ha ▸ wellBelow_iff.2 (belowBy_zero_left (hl b (hs.subset (by simp)))))
    by_cases hc0 : c = 0
    · exact Or.inr (hc0 ▸ wellBelow_iff.2 (belowBy_zero_right b))
    refine h.lonely a b c ?_
    have := hs.filter (· ≠ 0)
    rwa [List.filter_eq_self.2 (by simp [ha, hb, hc0])] at this

theorem pair_sublist_cons {a b c : K} {l : List K} (h : [b, c].Sublist (a :: l)) :
    [b, c].Sublist l ∨ b = a ∧ c ∈ l := by
  rcases List.sublist_cons_iff.1 h with h | ⟨r, h1, h2⟩
  · exact Or.inl h
  · simp only [List.cons.injEq] at h1
    obtain ⟨rfl, rfl⟩ := h1
    exact Or.inr ⟨rfl, List.singleton_sublist.1 h2⟩

theorem triple_sublist_cons {a b c d : K} {l : List K} (h : [b, c, d].Sublist (a :: l)) :
    [b, c, d].Sublist l ∨ b = a ∧ [c, d].Sublist l := by
  rcases List.sublist_cons_iff.1 h with h | ⟨r, h1, h2⟩
  · exact Or.inl h
  · simp only [List.cons.injEq] at h1
    obtain ⟨rfl, rfl⟩ := h1
    exact Or.inr ⟨rfl, h2⟩

/-- A component of the product that is adjacent to a later one comes from two components that are adjacent. -/
def ScalePair (β : ℤ) (e : List K) (b c : K) : Prop :=
  WellBelow b c ∨ ∃ (y z : K) (j : ℤ), [y, z].Sublist e ∧ ¬ WellBelow y z ∧ 2 ^ (j - 1) ≤ |y| ∧ |y| < 2 ^ j ∧
    |b| = 2 ^ (j + β - 1)

theorem ScalePair.cons {β : ℤ} {e : List K} {b c : K} (h : ScalePair β e b c) (x : K) : ScalePair β (x :: e) b c := by
  rcases h with h | ⟨y, z, j, h1, h2⟩
  · exact Or.inl h
  · exact Or.inr ⟨y, z, j, h1.cons x, h2⟩

/-- Scaling keeps expansions nearly nonadjacent. -/
theorem scaleErr_near {p : Nat} (hp : 1 ≤ p) {b : K} {β : ℤ} (hbg : OnGrid β b)
    (b1 : 2 ^ (p - 1 + β : ℤ) ≤ |b|) (b2 : |b| < 2 ^ (p + β : ℤ)) : ∀ (e : List K) (Q : K) (κ : ℤ), IsFloat p Q →
    (∀ a ∈ e, IsFloat p a) → (∀ a ∈ e, OnGrid κ a) → |Q| ≤ 2 ^ κ * |b| → e.Pairwise HalfBelow →
    (∀ a b c, [a, b, c].Sublist e → WellBelow a b ∨ WellBelow b c) →
    (scaleErr p b Q e).Pairwise HalfBelow ∧
    (∀ c d, [c, d].Sublist (scaleErr p b Q e) → ScalePair β e c d) ∧
    (∀ a c d, [a, c, d].Sublist (scaleErr p b Q e) → WellBelow a c ∨ WellBelow c d)
  | [], Q, κ, _, _, _, _, _, _ => by
    refine ⟨by simp [scaleErr], fun c d h => ?_, fun a c d h => ?_⟩ <;>
    · have := h.length_le
      simp [scaleErr] at this
  | x :: e, Q, κ, fQ, fe, ge, hQ, hpw, hlo => by
    have hb : IsFloat p b := isFloat_of hp hbg b2.le
    have fe' : ∀ a ∈ e, IsFloat p a := fun y hy => fe y (by simp [hy])
    have ge' : ∀ a ∈ e, OnGrid κ a := fun y hy => ge y (by simp [hy])
    have hlo' : ∀ a b c, [a, b, c].Sublist e → WellBelow a b ∨ WellBelow b c := fun a b c h => hlo a b c (h.cons x)
    obtain ⟨w1, w2⟩ := List.pairwise_cons.1 hpw
    by_cases hx0 : x = 0
    · subst hx0
      rw [scaleErr_cons_zero hp fQ]
      obtain ⟨i1, i2, i3⟩ := scaleErr_near hp hbg b1 b2 e Q κ fQ fe' ge' hQ w2 hlo'
      have ff := scaleErr_isFloat hp hb e Q fQ fe'
      have ff' : ∀ y ∈ 0 :: scaleErr p b Q e, WellBelow 0 y := by
        intro y hy
        rcases List.mem_cons.1 hy with rfl | hy
        · exact belowBy_zero_right 0
        · exact belowBy_zero_left (ff y hy)
      refine ⟨List.pairwise_cons.2 ⟨fun y hy => (ff' y hy).halfBelow, List.pairwise_cons.2
        ⟨fun y hy => (ff' y (by simp [hy])).halfBelow, i1⟩⟩, fun c d h => ?_, fun a c d h => ?_⟩
      · rcases pair_sublist_cons h with h | ⟨rfl, hm⟩
        · rcases pair_sublist_cons h with h | ⟨rfl, hm⟩
          · exact (i2 c d h).cons 0
          · exact Or.inl (ff' d (List.mem_cons_of_mem _ hm))
        · exact Or.inl (ff' d hm)
      · rcases triple_sublist_cons h with h | ⟨rfl, hm⟩
        · rcases triple_sublist_cons h with h | ⟨rfl, hm⟩
          · exact i3 a c d h
          · exact Or.inl (ff' c (List.mem_cons_of_mem _ (hm.subset (by simp))))
        · exact Or.inl (ff' c (hm.subset (by simp)))
    obtain ⟨j, -, j1, j2⟩ := exists_log hx0
    obtain ⟨s1, s0, s2, s3, -⟩ := scale_step hp (κ' := j + 1) hbg b1 b2 fQ (ge x (by simp)) hx0
      (by rwa [add_sub_cancel_right]) j2 hQ
    have hle := sum_err_le_right hp (a := Q) (b := x * b - roundBits p (x * b)) fQ
    have hE1 := err_belowBy hp le_rfl (Q + (x * b - roundBits p (x * b)))
    have hE2 := err_belowBy hp le_rfl (x * b)
    have hE3 := err_belowBy hp le_rfl (roundBits p (x * b) + roundBits p (Q + (x * b - roundBits p (x * b))))
    simp only [scaleErr]
    generalize roundBits p (x * b) = T at *
    generalize roundBits p (Q + (x * b - T)) = s at *
    generalize hQ' : roundBits p (T + s) = Q' at *
    have hgQ : ∀ a ∈ e, OnGrid (j + 1) a := by
      intro y hy
      obtain ⟨g, g1, g2⟩ := w1 y hy
      have : j ≤ g - 1 := by
        have := j1.trans g2
        rwa [two_zpow_le_iff] at this
      exact g1.mono (by omega)
    have hgb : ∀ a ∈ e, OnGrid (j + 1 + β) (a * b) := fun a ha => (hgQ a ha).mul hbg
    obtain ⟨i1, i2, i3⟩ := scaleErr_near hp hbg b1 b2 e Q' (j + 1) (hQ' ▸ roundBits_isFloat hp _) fe' hgQ s2 w2 hlo'
    -- the first error is well below everything
    have hh1 : ∀ y ∈ (T + s - Q') :: scaleErr p b Q' e, WellBelow (Q + (x * b - T) - s) y := by
      obtain ⟨g, g1, g2, g3⟩ := common_grid (k := 1) (a := Q + (x * b - T) - s) (T :: e.map (· * b)) s hE1 (by
        intro y hy
        rcases List.mem_cons.1 hy with rfl | hy
        · exact hE2.of_le hle
        · obtain ⟨z, hz, rfl⟩ := List.mem_map.1 hy
          exact ⟨j + 1 + β, hgb z hz, s0.trans_lt (two_zpow_lt (by omega))⟩)
      have gT := g3 T (by simp)
      have hsum := gT.add g2
      intro y hy
      refine ⟨g, ?_, g1⟩
      rcases List.mem_cons.1 hy with rfl | hy
      · rw [← hQ']; exact hsum.sub (hsum.round hp)
      · refine scaleErr_grid hp e Q' (hQ' ▸ hsum.round hp) (fun z hz => ?_) y hy
        exact g3 _ (by simp only [List.mem_cons, List.mem_map]; exact Or.inr ⟨z, hz, rfl⟩)
    -- the second error
    have hh2 : ∀ y ∈ scaleErr p b Q' e, HalfBelow (T + s - Q') y := by
      obtain ⟨g, g1, g2⟩ := hE3
      intro y hy
      rcases le_total g (j + 1 + β) with hg | hg
      · exact ⟨g, scaleErr_grid hp e Q' g1 (fun z hz => (hgb z hz).mono hg) y hy, g2.le⟩
      · exact ⟨j + 1 + β, scaleErr_grid hp e Q' (g1.mono hg) hgb y hy, s3⟩
    have hh3 : (∀ w ∈ e, BelowBy 1 (T + s - Q') (w * b)) → ∀ y ∈ scaleErr p b Q' e, WellBelow (T + s - Q') y := by
      intro hw y hy
      obtain ⟨g, g1, g2, g3⟩ := common_grid (k := 1) (a := T + s - Q') (e.map (· * b)) Q' hE3 (by
        intro y hy
        obtain ⟨z, hz, rfl⟩ := List.mem_map.1 hy
        exact hw z hz)
      exact ⟨g, scaleErr_grid hp e Q' g2 (fun z hz => g3 _ (List.mem_map.2 ⟨z, hz, rfl⟩)) y hy, g1⟩
    have hh4 : ∀ y ∈ scaleErr p b Q' e, ScalePair β (x :: e) (T + s - Q') y := by
      intro y hy
      by_cases hw : ∀ w ∈ e, WellBelow x w
      · refine Or.inl (hh3 (fun w hw' => ?_) y hy)
        obtain ⟨g, g1, g2⟩ := hw w hw'
        have : j < g - 1 := by
          have := j1.trans_lt g2
          rwa [two_zpow_lt_iff] at this
        exact ⟨g + β, g1.mul hbg, s3.trans_lt (two_zpow_lt (by omega))⟩
      · push Not at hw
        obtain ⟨w, hw1, hw2⟩ := hw
        rcases s3.eq_or_lt with heq | hlt
        · refine Or.inr ⟨x, w, j + 1, ?_, hw2, by rwa [add_sub_cancel_right], j2, heq⟩
          exact List.Sublist.cons_cons x (List.singleton_sublist.2 hw1)
        · exact Or.inl (hh3 (fun w hw' => ⟨j + 1 + β, hgb w hw', hlt⟩) y hy)
    refine ⟨List.pairwise_cons.2 ⟨fun y hy => (hh1 y hy).halfBelow, List.pairwise_cons.2 ⟨hh2, i1⟩⟩,
      fun c d h => ?_, fun a c d h => ?_⟩
    · rcases pair_sublist_cons h with h | ⟨rfl, hm⟩
      · rcases pair_sublist_cons h with h | ⟨rfl, hm⟩
        · exact (i2 c d h).cons x
        · exact hh4 d hm
      · exact Or.inl (hh1 d hm)
    · rcases triple_sublist_cons h with h | ⟨rfl, hm⟩
      · rcases triple_sublist_cons h with h | ⟨rfl, hm⟩
        · exact i3 a c d h
        · rcases i2 c d hm with hw | ⟨y, z, i, y1, y2, y3, y4, y5⟩
          · exact Or.inr hw
          · left
            obtain ⟨g, g1, g2⟩ := (hlo x y z (List.Sublist.cons_cons x y1)).resolve_right y2
            have hy0 : y ≠ 0 := by
              rintro rfl
              rw [abs_zero] at y3
              exact absurd y3 (not_le.2 (two_zpow_pos _))
            have k1 : j < g - 1 := by
              have := j1.trans_lt g2
              rwa [two_zpow_lt_iff] at this
            have k2 : g < i := by
              have := (g1.le_abs hy0).trans_lt y4
              rwa [two_zpow_lt_iff] at this
            refine ⟨i + β - 1, ?_, s3.trans_lt (two_zpow_lt (by omega))⟩
            rcases abs_choice c with hc | hc
            · rw [← hc, y5]; exact onGrid_pow le_rfl
            · rw [← neg_neg c, ← hc, y5]; exact (onGrid_pow le_rfl).neg
      · exact Or.inl (hh1 c (hm.subset (by simp)))

theorem scaleErr_zero (p : Nat) : ∀ (e : List K), ∀ a ∈ scaleErr p 0 0 e, a = 0
  | [], a, ha => by simpa [scaleErr] using ha
  | x :: e, a, ha => by
    simp only [scaleErr, mul_zero, roundBits_zero, sub_self, add_zero, List.mem_cons] at ha
    rcases ha with rfl | rfl | ha
    · rfl
    · rfl
    · exact scaleErr_zero p e a ha

theorem scaleErr_start {p : Nat} (hp : 1 ≤ p) {b x : K} (hx : IsFloat p x) (hb : IsFloat p b) (e : List K) :
    scaleErr p b 0 (x :: e) = 0 :: (x * b - roundBits p (x * b)) :: scaleErr p b (roundBits p (x * b)) e := by
  have ht := prod_err_isFloat hp hx hb
  simp only [scaleErr, zero_add, ht.round hp, sub_self]
  rw [show roundBits p (x * b) + (x * b - roundBits p (x * b)) = x * b by ring]

theorem twoProductPresplit_eq {p s : Nat} (h : SplitBits p s) {a b : K} (ha : IsFloat p a) (hb : IsFloat p b) :
    twoProductPresplit (roundBits p) (2 ^ s + 1) a b (splitFloat (roundBits p) (2 ^ s + 1) b).1
      (splitFloat (roundBits p) (2 ^ s + 1) b).2 = (roundBits p (a * b), a * b - roundBits p (a * b)) :=
  twoProduct_eq h ha hb

theorem scaleLoop_eq {p s : Nat} (h : SplitBits p s) (hp : 3 ≤ p) {b : K} (hb : IsFloat p b) : ∀ (e : List K) (Q : K),
    IsFloat p Q → (∀ a ∈ e, IsFloat p a) →
    scaleLoop (roundBits p) (2 ^ s + 1) b (splitFloat (roundBits p) (2 ^ s + 1) b).1
      (splitFloat (roundBits p) (2 ^ s + 1) b).2 Q e = scaleErr p b Q e
  | [], Q, _, _ => rfl
  | x :: e, Q, hQ, he => by
    have hp1 : 1 ≤ p := by omega
    have hx := he x (by simp)
    have ht := prod_err_isFloat hp1 hx hb
    rw [scaleLoop, scaleErr]
    simp only [twoProductPresplit_eq h hx hb, twoSum_eq hp hQ ht,
      twoSum_eq hp (roundBits_isFloat hp1 (x * b)) (roundBits_isFloat hp1 (Q + (x * b - roundBits p (x * b))))]
    rw [scaleLoop_eq h hp hb e _ (roundBits_isFloat hp1 _) fun a ha => he a (by simp [ha])]

/-- Storing a component unless it is zero. -/
theorem store_filter (h : List K) (hh : h.filter (· ≠ 0) = h) (x : K) :
    (if x ≠ 0 then h ++ [x] else h) = (h ++ [x]).filter (· ≠ 0) := by
  rw [List.filter_append, hh]
  by_cases hx : x = 0
  · simp [hx]
  · simp [hx]

theorem filter_filter_ne (l : List K) : (l.filter (· ≠ 0)).filter (· ≠ 0) = l.filter (· ≠ 0) := by
  rw [List.filter_filter]
  simp

theorem dropZeros_congr {l m : List K} (h : l.filter (· ≠ 0) = m.filter (· ≠ 0)) : dropZeros l = dropZeros m := by
  unfold dropZeros
  rw [h]

/-- The loop that leaves zeros out. It needs components that do not overlap. -/
theorem scaleLoopZ_eq {p s : Nat} (h : SplitBits p s) (hp : 3 ≤ p) {b : K} {β : ℤ} (hbg : OnGrid β b)
    (b1 : 2 ^ (p - 1 + β : ℤ) ≤ |b|) (b2 : |b| < 2 ^ (p + β : ℤ)) : ∀ (e : List K) (Q : K) (κ : ℤ) (m : List K),
    IsFloat p Q → (∀ a ∈ e, IsFloat p a) → (∀ a ∈ e, OnGrid κ a) → |Q| ≤ 2 ^ κ * |b| → e.Pairwise (BelowBy 0) →
    m.filter (· ≠ 0) = m →
    scaleLoopZ (roundBits p) (2 ^ s + 1) b (splitFloat (roundBits p) (2 ^ s + 1) b).1
      (splitFloat (roundBits p) (2 ^ s + 1) b).2 Q e m = dropZeros (m ++ scaleErr p b Q e)
  | [], Q, κ, m, _, _, _, _, _, hm => by
    rw [scaleLoopZ, scaleErr, dropZeros, List.filter_append, hm]
    by_cases hQ : Q = 0
    · subst hQ
      cases m with
      | nil => simp
      | cons x m => simp
    · rw [if_pos (Or.inl hQ), List.filter_cons_of_pos (by simpa using hQ), List.filter_nil]
      cases m <;> simp
  | x :: e, Q, κ, m, fQ, fe, ge, hQ, hpw, hm => by
    have hp1 : 1 ≤ p := by omega
    have hb : IsFloat p b := isFloat_of hp1 hbg b2.le
    have fx := fe x (by simp)
    have ht := prod_err_isFloat hp1 fx hb
    have fe' : ∀ a ∈ e, IsFloat p a := fun y hy => fe y (by simp [hy])
    obtain ⟨w1, w2⟩ := List.pairwise_cons.1 hpw
    -- the second sum is exact
    have hfast : fastTwoSum (roundBits p) (roundBits p (x * b)) (roundBits p (Q + (x * b - roundBits p (x * b)))) =
        (roundBits p (roundBits p (x * b) + roundBits p (Q + (x * b - roundBits p (x * b)))),
          roundBits p (x * b) + roundBits p (Q + (x * b - roundBits p (x * b))) -
            roundBits p (roundBits p (x * b) + roundBits p (Q + (x * b - roundBits p (x * b))))) := by
      rw [fastTwoSum_eq' hp1 (roundBits_isFloat hp1 _) (roundBits_isFloat hp1 _) (fun hT => ?_),
        add_comm (roundBits p (Q + (x * b - roundBits p (x * b))))]
      have hx0 : x ≠ 0 := by
        rintro rfl
        rw [zero_mul, roundBits_zero] at hT
        exact hT rfl
      obtain ⟨j, -, j1, j2⟩ := exists_log hx0
      exact (scale_step hp1 (κ' := j + 1) hbg b1 b2 fQ (ge x (by simp)) hx0 (by rwa [add_sub_cancel_right]) j2 hQ).2.2.2.2
    rw [scaleLoopZ, scaleErr]
    simp only [twoProductPresplit_eq h fx hb, twoSum_eq hp fQ ht, hfast]
    rw [store_filter _ hm, store_filter _ (filter_filter_ne _)]
    -- the invariant for the rest
    have hrest : ∃ κ' : ℤ, (∀ a ∈ e, OnGrid κ' a) ∧
        |roundBits p (roundBits p (x * b) + roundBits p (Q + (x * b - roundBits p (x * b))))| ≤ 2 ^ κ' * |b| := by
      by_cases hx0 : x = 0
      · refine ⟨κ, fun a ha => ge a (by simp [ha]), ?_⟩
        subst hx0
        rwa [zero_mul, roundBits_zero, sub_self, add_zero, zero_add, fQ.round hp1, fQ.round hp1]
      · obtain ⟨j, -, j1, j2⟩ := exists_log hx0
        obtain ⟨-, -, s2, -⟩ := scale_step hp1 (κ' := j + 1) hbg b1 b2 fQ (ge x (by simp)) hx0
          (by rwa [add_sub_cancel_right]) j2 hQ
        refine ⟨j + 1, fun y hy => ?_, s2⟩
        obtain ⟨g, g1, g2⟩ := w1 y hy
        have : j < g - 0 := by
          have := j1.trans_lt g2
          rwa [two_zpow_lt_iff] at this
        exact g1.mono (by omega)
    obtain ⟨κ', r1, r2⟩ := hrest
    rw [scaleLoopZ_eq h hp hbg b1 b2 e _ κ' _ (roundBits_isFloat hp1 _) fe' r1 r2 w2 (filter_filter_ne _)]
    apply dropZeros_congr
    simp only [List.filter_append, filter_filter_ne, List.append_assoc]
    congr 1
    rw [← List.filter_append, ← List.filter_append]
    rfl

/-- All numbers of a list lie on one grid. -/
theorem exists_grid {p : Nat} : ∀ (e : List K), (∀ a ∈ e, IsFloat p a) → ∃ κ : ℤ, ∀ a ∈ e, OnGrid κ a
  | [], _ => ⟨0, by simp⟩
  | x :: e, h => by
    obtain ⟨κ, hκ⟩ := exists_grid e fun a ha => h a (by simp [ha])
    obtain ⟨k, h1, -⟩ := (h x (by simp)).grid
    refine ⟨min κ k, fun a ha => ?_⟩
    rcases List.mem_cons.1 ha with rfl | ha
    · exact h1.mono (min_le_right _ _)
    · exact (hκ a ha).mono (min_le_left _ _)

theorem scaleLoopZ_zero {p s : Nat} (h : SplitBits p s) (hp : 3 ≤ p) : ∀ (e : List K), (∀ a ∈ e, IsFloat p a) →
    scaleLoopZ (roundBits p) (2 ^ s + 1) (0 : K) (splitFloat (roundBits p) (2 ^ s + 1) 0).1
      (splitFloat (roundBits p) (2 ^ s + 1) 0).2 0 e [] = [0]
  | [], _ => by simp [scaleLoopZ]
  | x :: e, he => by
    have hp1 : 1 ≤ p := by omega
    have fx := he x (by simp)
    have f0 : IsFloat p (0 : K) := isFloat_zero p
    rw [scaleLoopZ]
    simp only [twoProductPresplit_eq h fx f0, mul_zero, roundBits_zero, sub_self, twoSum_eq hp f0 f0, add_zero,
      fastTwoSum_eq hp1 f0 f0 le_rfl, ne_eq, not_true_eq_false, if_false]
    exact scaleLoopZ_zero h hp e fun a ha => he a (by simp [ha])

/-- `scale_expansion`. -/
theorem scaleExpansion_spec {p s : Nat} (hs : SplitBits p s) {e : List K} {b : K} (e0 : e ≠ []) (he : ∀ a ∈ e, IsFloat p a)
    (hb : IsFloat p b) : ∃ h, scaleExpansion (roundBits p) (2 ^ s + 1) e b = .ok h ∧ h.sum = e.sum * b ∧
    (∀ a ∈ h, IsFloat p a) ∧ h.length = 2 * e.length ∧ (Nonoverlapping e → Nonoverlapping h) ∧
    (Nonadjacent e → Nonadjacent h) ∧ (NearlyNonadjacent e → NearlyNonadjacent h) ∧
    (Nonoverlapping e → scaleExpansionZ (roundBits p) (2 ^ s + 1) e b = .ok (dropZeros h)) := by
  have hp : 3 ≤ p := by obtain ⟨h1, h2, h3, h4⟩ := hs; omega
  have hp1 : 1 ≤ p := by omega
  have ff := scaleErr_isFloat hp1 hb e 0 (isFloat_zero p) he
  obtain ⟨κ, hκ⟩ := exists_grid e he
  have hQ0 : |(0 : K)| ≤ 2 ^ κ * |b| := by
    rw [abs_zero]
    exact mul_nonneg (two_zpow_pos _).le (abs_nonneg _)
  have hsum := scaleErr_sum p b e 0
  have hlen := scaleErr_length p b e 0
  cases e with
  | nil => exact absurd rfl e0
  | cons x e =>
    have fx := he x (by simp)
    have fe : ∀ a ∈ e, IsFloat p a := fun a ha => he a (by simp [ha])
    have hst := scaleErr_start hp1 fx hb e
    refine ⟨(x * b - roundBits p (x * b)) :: scaleErr p b (roundBits p (x * b)) e, ?_, ?_, ?_, ?_, ?_, ?_, ?_, ?_⟩
    · rw [scaleExpansion]
      simp only [twoProductPresplit_eq hs fx hb]
      rw [scaleLoop_eq hs hp hb e _ (roundBits_isFloat hp1 _) fe]
    · rw [hst, List.sum_cons, zero_add, zero_add] at hsum
      exact hsum
    · intro a ha
      exact ff a (by rw [hst]; exact List.mem_cons_of_mem _ ha)
    · rw [hst] at hlen
      simp only [List.length_cons] at hlen ⊢
      omega
    all_goals
      have ff' : ∀ a ∈ (x * b - roundBits p (x * b)) :: scaleErr p b (roundBits p (x * b)) e, IsFloat p a := fun a ha =>
        ff a (by rw [hst]; exact List.mem_cons_of_mem _ ha)
    · intro hn
      by_cases hb0 : b = 0
      · subst hb0
        have hz := scaleErr_zero p (x :: e)
        rw [hst] at hz
        unfold Nonoverlapping
        rw [List.filter_eq_nil_iff.2 fun a ha => by simpa using hz a (List.mem_cons_of_mem _ ha)]
        exact List.Pairwise.nil
      obtain ⟨β, c1, c2, c3⟩ := hb.canon hb0
      have := scaleErr_belowBy hp1 le_rfl zero_le_one c1 c2 c3 (x :: e) 0 κ (isFloat_zero p) he hκ hQ0
        ((nonoverlapping_iff he).1 hn)
      rw [hst] at this
      exact (nonoverlapping_iff ff').2 (List.pairwise_cons.1 this).2
    · intro hn
      by_cases hb0 : b = 0
      · subst hb0
        have hz := scaleErr_zero p (x :: e)
        rw [hst] at hz
        unfold Nonadjacent
        rw [List.filter_eq_nil_iff.2 fun a ha => by simpa using hz a (List.mem_cons_of_mem _ ha)]
        exact List.Pairwise.nil
      obtain ⟨β, c1, c2, c3⟩ := hb.canon hb0
      have := scaleErr_belowBy hp1 zero_le_one le_rfl c1 c2 c3 (x :: e) 0 κ (isFloat_zero p) he hκ hQ0
        ((nonadjacent_iff he).1 hn)
      rw [hst] at this
      exact (nonadjacent_iff ff').2 (List.pairwise_cons.1 this).2
    · intro hn
      by_cases hb0 : b = 0
      · subst hb0
        have hz := scaleErr_zero p (x :: e)
        rw [hst] at hz
        have hnil : ((x * 0 - roundBits p (x * 0)) :: scaleErr p 0 (roundBits p (x * 0)) e).filter (· ≠ 0) = [] :=
          List.filter_eq_nil_iff.2 fun a ha => by simpa using hz a (List.mem_cons_of_mem _ ha)
        exact ⟨by rw [hnil]; exact List.Pairwise.nil, fun a b c h => by
          rw [hnil] at h
          simp at h⟩
      obtain ⟨β, c1, c2, c3⟩ := hb.canon hb0
      obtain ⟨n1, n2⟩ := hn.withZeros he
      obtain ⟨r1, -, r3⟩ := scaleErr_near hp1 c1 c2 c3 (x :: e) 0 κ (isFloat_zero p) he hκ hQ0 n1 n2
      rw [hst] at r1 r3
      exact ⟨(List.pairwise_cons.1 r1).2.filter _, fun a b c h => r3 a b c ((h.trans List.filter_sublist).cons 0)⟩
    · intro hn
      rw [scaleExpansionZ]
      simp only [twoProductPresplit_eq hs fx hb]
      by_cases hb0 : b = 0
      · subst hb0
        have hz := scaleErr_zero p (x :: e)
        rw [hst] at hz
        have h1 : dropZeros ((x * 0 - roundBits p (x * 0)) :: scaleErr p 0 (roundBits p (x * 0)) e) = [0] := by
          rw [dropZeros, List.filter_eq_nil_iff.2 fun a ha => by simpa using hz a (List.mem_cons_of_mem _ ha)]
        rw [h1, mul_zero, roundBits_zero, sub_self, if_neg (by simp), scaleLoopZ_zero hs hp e fe]
      obtain ⟨β, c1, c2, c3⟩ := hb.canon hb0
      have hpw := (nonoverlapping_iff he).1 hn
      obtain ⟨w1, w2⟩ := List.pairwise_cons.1 hpw
      have hrest : ∃ κ' : ℤ, (∀ a ∈ e, OnGrid κ' a) ∧ |roundBits p (x * b)| ≤ 2 ^ κ' * |b| := by
        by_cases hx0 : x = 0
        · refine ⟨κ, fun a ha => hκ a (by simp [ha]), ?_⟩
          subst hx0
          rwa [zero_mul, roundBits_zero]
        · obtain ⟨j, -, j1, j2⟩ := exists_log hx0
          obtain ⟨-, -, s2, -⟩ := scale_step hp1 (κ' := j + 1) c1 c2 c3 (isFloat_zero p) (hκ x (by simp)) hx0
            (by rwa [add_sub_cancel_right]) j2 hQ0
          rw [zero_add, (prod_err_isFloat hp1 fx hb).round hp1,
            show roundBits p (x * b) + (x * b - roundBits p (x * b)) = x * b by ring] at s2
          refine ⟨j + 1, fun y hy => ?_, s2⟩
          obtain ⟨g, g1, g2⟩ := w1 y hy
          have : j < g - 0 := by
            have := j1.trans_lt g2
            rwa [two_zpow_lt_iff] at this
          exact g1.mono (by omega)
      obtain ⟨κ', r1, r2⟩ := hrest
      have hm := store_filter [] rfl (x * b - roundBits p (x * b))
      rw [List.nil_append] at hm
      rw [hm, scaleLoopZ_eq hs hp c1 c2 c3 e _ κ' _ (roundBits_isFloat hp1 _) fe r1 r2 w2 (filter_filter_ne _)]
      unfold dropZeros
      rw [List.filter_append, filter_filter_ne, ← List.filter_append, List.singleton_append]

end Geometrix
