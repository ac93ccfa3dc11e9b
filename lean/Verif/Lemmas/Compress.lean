import Verif.Lemmas.ScaleExpansion

/-!
`compress`.
-/

set_option linter.unusedSectionVars false

namespace Geometrix

open Spec

variable {K : Type*} [Field K] [LinearOrder K] [IsStrictOrderedRing K] [FloorRing K]

theorem BelowBy.lt {k : ℤ} {a b : K} (h : BelowBy k a b) {e : ℤ} (he : Low e b) : |a| < 2 ^ (e - k) := by
  obtain ⟨g, g1, g2⟩ := h
  have := he.2 g g1
  exact g2.trans_le (two_zpow_le (by omega))

/-- The sum of numbers that do not overlap, the largest first, comes up to no further bit. -/
theorem desc_sum_lt {p : Nat} : ∀ (r : List K) (g : ℤ), (∀ a ∈ r, IsFloat p a) → r.Pairwise (fun y z => BelowBy 0 z y) →
    (∀ a ∈ r, |a| < 2 ^ g) → |r.sum| < 2 ^ g
  | [], g, _, _, _ => by
    rw [List.sum_nil, abs_zero]
    exact two_zpow_pos g
  | y :: r, g, hf, hpw, hl => by
    obtain ⟨w1, w2⟩ := List.pairwise_cons.1 hpw
    have hf' : ∀ a ∈ r, IsFloat p a := fun a ha => hf a (by simp [ha])
    rw [List.sum_cons]
    by_cases hy : y = 0
    · rw [hy, zero_add]
      exact desc_sum_lt r g hf' w2 fun a ha => hl a (by simp [ha])
    · obtain ⟨l, hlow, -⟩ := (hf y (by simp)).exists_low hy
      have hyg := hl y (by simp)
      have hlg : l < g := by
        have := (hlow.le_abs hy).trans_lt hyg
        rwa [two_zpow_lt_iff] at this
      have h1 : |y| + 2 ^ l ≤ 2 ^ g := hlow.1.abs.step (onGrid_pow hlg.le) hyg
      have h2 := desc_sum_lt r l hf' w2 fun a ha => by simpa using (w1 a ha).lt hlow
      have := abs_add_le y r.sum
      linarith

/-- What the first loop of `compress` stores: each number lies on a grid that what comes before it does not fill. -/
def Tower (p : Nat) : K → List K → Prop
  | _, [] => True
  | σ, g :: h => IsFloat p g ∧ (∃ u : ℤ, |σ| < 2 ^ u ∧ (∀ x ∈ g :: h, OnGrid u x) ∧ 2 ^ (u + 1) ≤ |g|) ∧ Tower p (σ + g) h

/-- The state of the first loop. -/
structure DownInv (p : Nat) (Q : K) (r h : List K) : Prop where
  floatQ : IsFloat p Q
  floats : ∀ a ∈ r, IsFloat p a
  desc : r.Pairwise (fun y z => BelowBy 0 z y)
  tower : Tower p (Q + r.sum) h
  room : ∃ g v : ℤ, OnGrid g Q ∧ (∀ a ∈ r, |a| < 2 ^ g) ∧ |Q| + 2 ^ g ≤ 2 ^ v ∧ ∀ x ∈ h, OnGrid v x

theorem DownInv.step {p : Nat} (hp : 2 ≤ p) {Q y : K} {r h : List K} (i : DownInv p Q (y :: r) h) :
    fastTwoSum (roundBits p) Q y = (roundBits p (Q + y), Q + y - roundBits p (Q + y)) ∧
    (Q + y - roundBits p (Q + y) = 0 → DownInv p (roundBits p (Q + y)) r h) ∧
    (Q + y - roundBits p (Q + y) ≠ 0 → DownInv p (Q + y - roundBits p (Q + y)) r (roundBits p (Q + y) :: h)) := by
  have hp1 : 1 ≤ p := by omega
  obtain ⟨fQ, fr, hd, ht, g, v, r1, r2, r3, r4⟩ := i
  have fy := fr y (by simp)
  have fr' : ∀ a ∈ r, IsFloat p a := fun a ha => fr a (by simp [ha])
  obtain ⟨w1, w2⟩ := List.pairwise_cons.1 hd
  have hyg := r2 y (by simp)
  rw [List.sum_cons, ← add_assoc] at ht
  -- a common grid below which the rest lies
  have hg' : ∃ g' : ℤ, g' ≤ g ∧ OnGrid g' y ∧ (∀ a ∈ r, |a| < 2 ^ g') ∧ |y| + 2 ^ g' ≤ 2 ^ g := by
    by_cases hy : y = 0
    · refine ⟨g, le_rfl, hy ▸ onGrid_zero g, fun a ha => r2 a (by simp [ha]), ?_⟩
      rw [hy, abs_zero, zero_add]
    · obtain ⟨l, hlow, -⟩ := fy.exists_low hy
      have hlg : l < g := by
        have := (hlow.le_abs hy).trans_lt hyg
        rwa [two_zpow_lt_iff] at this
      exact ⟨l, hlg.le, hlow.1, fun a ha => by simpa using (w1 a ha).lt hlow, hlow.1.abs.step (onGrid_pow hlg.le) hyg⟩
  obtain ⟨g', g1, g2, g3, g4⟩ := hg'
  have hQy : OnGrid g' (Q + y) := (r1.mono g1).add g2
  have habs := abs_add_le Q y
  refine ⟨?_, fun h0 => ?_, fun h0 => ?_⟩
  · rw [fastTwoSum_eq' hp1 fQ fy (fun hQ => hyg.le.trans (r1.le_abs hQ)), add_comm y Q]
  · have hr : roundBits p (Q + y) = Q + y := (sub_eq_zero.1 h0).symm
    rw [hr]
    refine ⟨hr ▸ roundBits_isFloat hp1 _, fr', w2, ht, g', v, hQy, g3, ?_, r4⟩
    linarith
  · have hne : Q + y ≠ 0 := by
      intro hz
      rw [hz, roundBits_zero, sub_zero] at h0
      exact h0 rfl
    have hS0 : roundBits p (Q + y) ≠ 0 := by
      obtain ⟨k, -, k1, -⟩ := exists_log hne
      have := le_roundBits_abs hp1 k1 (isFloat_pow hp1 k)
      intro hz
      rw [hz, abs_zero] at this
      exact absurd this (not_le.2 (two_zpow_pos _))
    have hSf := roundBits_isFloat hp1 (Q + y)
    obtain ⟨u, c1, c2, c3⟩ := hSf.canon hS0
    have hle : |Q + y| ≤ 2 ^ (p + u : ℤ) := by
      by_contra hc
      have := le_roundBits_abs hp1 (not_le.1 hc).le (isFloat_pow hp1 (p + u : ℤ))
      exact absurd c3 (not_lt.2 this)
    have hq := roundBits_err hp1 hle
    rw [show (p + u - p - 1 : ℤ) = u - 1 by ring] at hq
    have hv : |roundBits p (Q + y)| ≤ 2 ^ v := roundBits_abs_le hp1 (by linarith [two_zpow_pos (K := K) g']) (isFloat_pow hp1 v)
    have huv : u ≤ v := by
      have := c2.trans hv
      rw [two_zpow_le_iff] at this
      omega
    have hqg : OnGrid g' (Q + y - roundBits p (Q + y)) := hQy.sub (hQy.round hp1)
    have hgu : g' ≤ u - 1 := by
      have := (hqg.le_abs h0).trans hq
      rwa [two_zpow_le_iff] at this
    have hroom : |Q + y - roundBits p (Q + y)| + 2 ^ g' ≤ 2 ^ u := by
      have := two_zpow_le (K := K) hgu
      have e := two_zpow_succ (K := K) (u - 1)
      rw [sub_add_cancel] at e
      linarith
    have hall : ∀ x ∈ roundBits p (Q + y) :: h, OnGrid u x := by
      intro x hx
      rcases List.mem_cons.1 hx with rfl | hx
      · exact c1
      · exact (r4 x hx).mono huv
    refine ⟨sum_err_isFloat hp1 fQ fy, fr', w2, ⟨hSf, ⟨u, ?_, hall, ?_⟩, ?_⟩, g', u, hqg, g3, hroom, hall⟩
    · have := desc_sum_lt r g' fr' w2 g3
      have := abs_add_le (Q + y - roundBits p (Q + y)) r.sum
      linarith
    · refine le_trans (two_zpow_le ?_) c2
      omega
    · rwa [show Q + y - roundBits p (Q + y) + r.sum + roundBits p (Q + y) = Q + y + r.sum by ring]

/-- The first loop of `compress`. -/
theorem compressDown_spec {p : Nat} (hp : 2 ≤ p) : ∀ (r : List K) (Q : K) (h : List K), DownInv p Q r h →
    ∃ Q' h', compressDown (roundBits p) Q r h = (Q', h') ∧ Q' + h'.sum = Q + r.sum + h.sum ∧ IsFloat p Q' ∧ Tower p Q' h' ∧
      h'.length ≤ r.length + h.length
  | [], Q, h, i => ⟨Q, h, rfl, by simp, i.floatQ, by simpa using i.tower, by simp⟩
  | y :: r, Q, h, i => by
    obtain ⟨s1, s2, s3⟩ := i.step hp
    rw [compressDown]
    simp only [s1]
    by_cases h0 : Q + y - roundBits p (Q + y) = 0
    · rw [if_neg (by simpa using h0)]
      obtain ⟨Q', h', k1, k2, k3, k4, k5⟩ := compressDown_spec hp r _ h (s2 h0)
      refine ⟨Q', h', k1, ?_, k3, k4, ?_⟩
      · rw [k2, List.sum_cons, ← sub_eq_zero.1 h0]; ring
      · rw [List.length_cons]; omega
    · rw [if_pos h0]
      obtain ⟨Q', h', k1, k2, k3, k4, k5⟩ := compressDown_spec hp r _ _ (s3 h0)
      refine ⟨Q', h', k1, ?_, k3, k4, ?_⟩
      · rw [k2, List.sum_cons, List.sum_cons]; ring
      · rw [List.length_cons] at k5 ⊢; omega

theorem Tower.isFloat {p : Nat} : ∀ {σ : K} {h : List K}, Tower p σ h → ∀ a ∈ h, IsFloat p a
  | _, [], _, a, ha => by simp at ha
  | σ, g :: h, ht, a, ha => by
    rcases List.mem_cons.1 ha with rfl | ha
    · exact ht.1
    · exact Tower.isFloat ht.2.2 a ha

theorem compressUp_grid {p : Nat} (hp : 1 ≤ p) {γ : ℤ} : ∀ (h : List K) (Q : K), IsFloat p Q → (∀ a ∈ h, IsFloat p a) →
    OnGrid γ Q → (∀ a ∈ h, OnGrid γ a) → ∀ a ∈ compressUp (roundBits p) Q h, OnGrid γ a
  | [], Q, _, _, gQ, _, a, ha => by
    rw [compressUp, List.mem_singleton] at ha
    rwa [ha]
  | g :: h, Q, fQ, fh, gQ, gh, a, ha => by
    have gg := gh g (by simp)
    have g1 : OnGrid γ (fastTwoSum (roundBits p) g Q).1 := (gg.add gQ).round hp
    have g2 : OnGrid γ (fastTwoSum (roundBits p) g Q).2 := (gQ.sub ((g1.sub gg).round hp)).round hp
    have f1 : IsFloat p (fastTwoSum (roundBits p) g Q).1 := roundBits_isFloat hp _
    rw [compressUp] at ha
    by_cases h0 : (fastTwoSum (roundBits p) g Q).2 = 0
    · simp only [h0, ne_eq, not_true_eq_false, if_false] at ha
      exact compressUp_grid hp h _ f1 (fun x hx => fh x (by simp [hx])) g1 (fun x hx => gh x (by simp [hx])) a ha
    · simp only [ne_eq, h0, not_false_eq_true, if_true, List.mem_cons] at ha
      rcases ha with rfl | ha
      · exact g2
      · exact compressUp_grid hp h _ f1 (fun x hx => fh x (by simp [hx])) g1 (fun x hx => gh x (by simp [hx])) a ha

/-- A number on a grid that is close to a small number is small. -/
theorem abs_le_of_near {X ε : K} {γ u : ℤ} (hX : OnGrid γ X) (hε : |ε| < 2 ^ (γ - 1)) (h : |ε + X| < 2 ^ u) : |X| ≤ 2 ^ u := by
  have h1 : |X| ≤ |ε + X| + |ε| := by
    have := abs_sub (ε + X) ε
    rwa [add_sub_cancel_left] at this
  have h2 := two_zpow_pred (K := K) γ
  by_contra hc
  have hc := not_le.1 hc
  rcases le_or_gt γ u with hg | hg
  · have := (onGrid_pow hg).step hX.abs hc
    have := two_zpow_pos (K := K) γ
    linarith
  · have hX0 : X ≠ 0 := by
      rintro rfl
      rw [abs_zero] at hc
      exact absurd hc (not_lt.2 (two_zpow_pos _).le)
    have := hX.le_abs hX0
    have := two_zpow_le (K := K) (a := u) (b := γ - 1) (by omega)
    linarith

/-- The second loop of `compress`. -/
theorem compressUp_spec {p : Nat} (hp : 2 ≤ p) : ∀ (h : List K) (Q ε : K), IsFloat p Q → Tower p (ε + Q) h →
    (∃ γ : ℤ, |ε| < 2 ^ (γ - 1) ∧ OnGrid γ Q ∧ ∀ x ∈ h, OnGrid γ x) →
    (compressUp (roundBits p) Q h).sum = Q + h.sum ∧ (∀ a ∈ compressUp (roundBits p) Q h, IsFloat p a) ∧
    (compressUp (roundBits p) Q h).Pairwise (BelowBy 1) ∧ (compressUp (roundBits p) Q h).length ≤ h.length + 1 ∧
    compressUp (roundBits p) Q h ≠ [] ∧ (h ≠ [] ∨ Q ≠ 0 → ∀ a ∈ compressUp (roundBits p) Q h, a ≠ 0)
  | [], Q, ε, fQ, _, _ => by simp [compressUp, fQ]
  | g :: h, Q, ε, fQ, ht, ⟨γ, e1, e2, e3⟩ => by
    have hp1 : 1 ≤ p := by omega
    obtain ⟨fg, ⟨u, u1, u2, u3⟩, ht'⟩ := ht
    have hQu : |Q| ≤ 2 ^ u := abs_le_of_near e2 e1 u1
    have hdbl := two_zpow_succ (K := K) u
    have hpos := two_zpow_pos (K := K) u
    have hfast : fastTwoSum (roundBits p) g Q = (roundBits p (g + Q), g + Q - roundBits p (g + Q)) :=
      fastTwoSum_eq hp1 fg fQ (by linarith)
    have hgQ : g + Q ≠ 0 := by
      intro hz
      have : |g| = |Q| := by rw [eq_neg_of_add_eq_zero_left hz, abs_neg]
      linarith
    have hQ'0 : roundBits p (g + Q) ≠ 0 := by
      obtain ⟨k, -, k1, -⟩ := exists_log hgQ
      have := le_roundBits_abs hp1 k1 (isFloat_pow hp1 k)
      intro hz
      rw [hz, abs_zero] at this
      exact absurd this (not_le.2 (two_zpow_pos _))
    have hX : OnGrid γ (g + Q) := (e3 g (by simp)).add e2
    have fh := Tower.isFloat ht'
    have fQ' := roundBits_isFloat hp1 (g + Q)
    -- the error lies well below what comes
    have hq : ∃ γ' : ℤ, |g + Q - roundBits p (g + Q)| < 2 ^ (γ' - 1) ∧ OnGrid γ' (roundBits p (g + Q)) ∧ ∀ x ∈ h, OnGrid γ' x := by
      refine common_grid h _ (err_belowBy hp1 le_rfl (g + Q)) fun x hx => ?_
      cases h with
      | nil => simp at hx
      | cons g' h =>
        obtain ⟨-, ⟨u', v1, v2, -⟩, -⟩ := ht'
        have : |g + Q| ≤ 2 ^ u' := abs_le_of_near (ε := ε) hX e1 (by rwa [show ε + (g + Q) = ε + Q + g by ring])
        have := roundBits_err hp1 this
        exact ⟨u', v2 x hx, this.trans_lt (two_zpow_lt (by omega))⟩
    rw [compressUp]
    simp only [hfast]
    by_cases h0 : g + Q - roundBits p (g + Q) = 0
    · rw [if_neg (by simpa using h0)]
      have hr : roundBits p (g + Q) = g + Q := (sub_eq_zero.1 h0).symm
      obtain ⟨k1, k2, k3, k4, k5, k6⟩ := compressUp_spec hp h (roundBits p (g + Q)) ε fQ'
        (by rwa [hr, show ε + (g + Q) = ε + Q + g by ring]) ⟨γ, e1, hX.round hp1, fun x hx => e3 x (by simp [hx])⟩
      refine ⟨?_, k2, k3, by rw [List.length_cons]; omega, k5, fun _ => k6 (Or.inr hQ'0)⟩
      rw [k1, hr, List.sum_cons]; ring
    · rw [if_pos h0]
      obtain ⟨γ', q1, q2, q3⟩ := hq
      have hqg : OnGrid γ (g + Q - roundBits p (g + Q)) := hX.sub (hX.round hp1)
      have hγ : γ < γ' - 1 := by
        have := (hqg.le_abs h0).trans_lt q1
        rwa [two_zpow_lt_iff] at this
      have hε : |ε + (g + Q - roundBits p (g + Q))| < 2 ^ (γ' - 1) := by
        have a1 := abs_add_le ε (g + Q - roundBits p (g + Q))
        have a2 := hqg.abs.step (onGrid_pow hγ.le) q1
        have a3 := two_zpow_pred (K := K) γ
        have a4 := two_zpow_pos (K := K) γ
        linarith
      obtain ⟨k1, k2, k3, k4, k5, k6⟩ := compressUp_spec hp h (roundBits p (g + Q)) (ε + (g + Q - roundBits p (g + Q))) fQ'
        (by rwa [show ε + (g + Q - roundBits p (g + Q)) + roundBits p (g + Q) = ε + Q + g by ring]) ⟨γ', hε, q2, q3⟩
      refine ⟨?_, fun a ha => ?_, List.pairwise_cons.2 ⟨fun a ha => ?_, k3⟩, ?_, by simp, fun _ a ha => ?_⟩
      · rw [List.sum_cons, k1, List.sum_cons]; ring
      · rcases List.mem_cons.1 ha with rfl | ha
        · exact sum_err_isFloat hp1 fg fQ
        · exact k2 a ha
      · exact ⟨γ', compressUp_grid hp1 h _ fQ' fh q2 q3 a ha, q1⟩
      · rw [List.length_cons, List.length_cons]; omega
      · rcases List.mem_cons.1 ha with rfl | ha
        · exact h0
        · exact k6 (Or.inr hQ'0) a ha

theorem exists_bound : ∀ (r : List K), ∃ g : ℤ, ∀ a ∈ r, |a| < 2 ^ g
  | [] => ⟨0, by simp⟩
  | x :: r => by
    obtain ⟨g, hg⟩ := exists_bound r
    by_cases hx : x = 0
    · refine ⟨g, fun a ha => ?_⟩
      rcases List.mem_cons.1 ha with rfl | ha
      · rw [hx, abs_zero]; exact two_zpow_pos _
      · exact hg a ha
    · obtain ⟨j, -, -, j2⟩ := exists_log hx
      refine ⟨max g (j + 1), fun a ha => ?_⟩
      rcases List.mem_cons.1 ha with rfl | ha
      · exact j2.trans_le (two_zpow_le (le_max_right _ _))
      · exact (hg a ha).trans_le (two_zpow_le (le_max_left _ _))

/-- `compress`. -/
theorem compress_spec {p : Nat} (hp : 2 ≤ p) {e : List K} (e0 : e ≠ []) (he : ∀ a ∈ e, IsFloat p a) (hn : Nonoverlapping e) :
    ∃ h, compress (roundBits p) e = .ok h ∧ h.sum = e.sum ∧ (∀ a ∈ h, IsFloat p a) ∧ h.length ≤ e.length ∧ Nonadjacent h ∧
      h ≠ [] ∧ (h = [0] ∨ ∀ a ∈ h, a ≠ 0) := by
  have hpw := List.pairwise_reverse.2 ((nonoverlapping_iff he).1 hn)
  have hf : ∀ a ∈ e.reverse, IsFloat p a := fun a ha => he a (List.mem_reverse.1 ha)
  have hsum : e.reverse.sum = e.sum := List.sum_reverse e
  have hlen : e.reverse.length = e.length := List.length_reverse
  unfold compress
  rcases hr : e.reverse with _ | ⟨Q, r⟩
  · exact absurd (List.reverse_eq_nil_iff.1 hr) e0
  · rw [hr] at hpw hf hsum hlen
    have fQ := hf Q (by simp)
    have fr : ∀ a ∈ r, IsFloat p a := fun a ha => hf a (by simp [ha])
    obtain ⟨w1, w2⟩ := List.pairwise_cons.1 hpw
    have hroom : ∃ g v : ℤ, OnGrid g Q ∧ (∀ a ∈ r, |a| < 2 ^ g) ∧ |Q| + 2 ^ g ≤ 2 ^ v ∧ ∀ x ∈ ([] : List K), OnGrid v x := by
      by_cases hQ : Q = 0
      · subst hQ
        obtain ⟨g, hg⟩ := exists_bound r
        exact ⟨g, g, onGrid_zero g, hg, by rw [abs_zero, zero_add], by simp⟩
      · obtain ⟨l, hlow, -⟩ := fQ.exists_low hQ
        obtain ⟨j, -, -, j2⟩ := exists_log hQ
        have hlj : l < j + 1 := by
          have := (hlow.le_abs hQ).trans_lt j2
          rwa [two_zpow_lt_iff] at this
        exact ⟨l, j + 1, hlow.1, fun a ha => by simpa using (w1 a ha).lt hlow,
          hlow.1.abs.step (onGrid_pow hlj.le) j2, by simp⟩
    obtain ⟨Q', h', d1, d2, d3, d4, d5⟩ := compressDown_spec hp r Q [] ⟨fQ, fr, w2, trivial, hroom⟩
    have hgrid : ∃ γ : ℤ, |(0 : K)| < 2 ^ (γ - 1) ∧ OnGrid γ Q' ∧ ∀ x ∈ h', OnGrid γ x := by
      obtain ⟨γ, hγ⟩ := exists_grid (p := p) (Q' :: h') (by
        intro a ha
        rcases List.mem_cons.1 ha with rfl | ha
        · exact d3
        · exact Tower.isFloat d4 a ha)
      exact ⟨γ, by rw [abs_zero]; exact two_zpow_pos _, hγ Q' (by simp), fun x hx => hγ x (by simp [hx])⟩
    obtain ⟨k1, k2, k3, k4, k5, k6⟩ := compressUp_spec hp h' Q' 0 d3 (by rwa [zero_add]) hgrid
    simp only [d1]
    refine ⟨_, rfl, ?_, k2, ?_, (nonadjacent_iff k2).2 k3, k5, ?_⟩
    · rw [k1, d2, ← hsum, List.sum_cons, List.sum_nil, add_zero]
    · rw [List.length_nil, List.length_cons] at *
      omega
    · by_cases hh : h' ≠ [] ∨ Q' ≠ 0
      · exact Or.inr (k6 hh)
      · push Not at hh
        obtain ⟨rfl, rfl⟩ := hh
        exact Or.inl rfl

end Geometrix
