import Verif.Lemmas.Compress

/-!
`linear_expansion_sum`.
-/

set_option linter.unusedSectionVars false

namespace Geometrix

open Spec

variable {K : Type*} [Field K] [LinearOrder K] [IsStrictOrderedRing K] [FloorRing K]

/-- What the loop of `linear_expansion_sum` stores. -/
def linErr (p : Nat) : K → K → List K → List K
  | Q, q, [] => [q, Q]
  | Q, q, g :: l =>
    let R := roundBits p (g + q)
    (g + q - R) :: linErr p (roundBits p (Q + R)) (Q + R - roundBits p (Q + R)) l

theorem linErr_sum (p : Nat) : ∀ (l : List K) (Q q : K), (linErr p Q q l).sum = Q + q + l.sum
  | [], Q, q => by simp [linErr, add_comm]
  | g :: l, Q, q => by
    simp only [linErr, List.sum_cons, linErr_sum p l]
    ring

theorem linErr_length (p : Nat) : ∀ (l : List K) (Q q : K), (linErr p Q q l).length = l.length + 2
  | [], Q, q => by simp [linErr]
  | g :: l, Q, q => by
    simp only [linErr, List.length_cons, linErr_length p l]

theorem linErr_isFloat {p : Nat} (hp : 1 ≤ p) : ∀ (l : List K) (Q q : K), IsFloat p Q → IsFloat p q →
    (∀ a ∈ l, IsFloat p a) → ∀ a ∈ linErr p Q q l, IsFloat p a
  | [], Q, q, hQ, hq, _, a, ha => by
    simp only [linErr, List.mem_cons, List.not_mem_nil, or_false] at ha
    rcases ha with rfl | rfl
    · exact hq
    · exact hQ
  | g :: l, Q, q, hQ, hq, hl, a, ha => by
    simp only [linErr, List.mem_cons] at ha
    rcases ha with rfl | ha
    · exact sum_err_isFloat hp (hl g (by simp)) hq
    · exact linErr_isFloat hp l _ _ (roundBits_isFloat hp _) (sum_err_isFloat hp hQ (roundBits_isFloat hp _))
        (fun x hx => hl x (by simp [hx])) a ha

theorem linErr_grid {p : Nat} (hp : 1 ≤ p) {γ : ℤ} : ∀ (l : List K) (Q q : K), OnGrid γ Q → OnGrid γ q →
    (∀ a ∈ l, OnGrid γ a) → ∀ a ∈ linErr p Q q l, OnGrid γ a
  | [], Q, q, hQ, hq, _, a, ha => by
    simp only [linErr, List.mem_cons, List.not_mem_nil, or_false] at ha
    rcases ha with rfl | rfl
    · exact hq
    · exact hQ
  | g :: l, Q, q, hQ, hq, hl, a, ha => by
    have h1 := (hl g (by simp)).add hq
    have h2 := hQ.add (h1.round hp)
    simp only [linErr, List.mem_cons] at ha
    rcases ha with rfl | ha
    · exact h1.sub (h1.round hp)
    · exact linErr_grid hp l _ _ (h2.round hp) (h2.sub (h2.round hp)) (fun x hx => hl x (by simp [hx])) a ha

/-- The sum of what was taken so far is not much larger than what is taken next. -/
def Steps : K → List K → Prop
  | _, [] => True
  | σ, x :: g => (∀ k : ℤ, 2 ^ k ≤ |x| → |x| < 2 ^ (k + 1) → |σ| < 2 ^ (k + 2)) ∧ Steps (σ + x) g

/-- The state of the loop; `ε` is the sum of what was stored. -/
structure LinInv (p : Nat) (Q q ε : K) (l : List K) : Prop where
  floatQ : IsFloat p Q
  floatq : IsFloat p q
  floats : ∀ a ∈ l, IsFloat p a
  round : roundBits p (Q + q) = Q
  steps : Steps (ε + q + Q) l
  sorted : SortedNZ l
  grid : ∃ γ : ℤ, |ε| < 2 ^ γ ∧ OnGrid γ Q ∧ OnGrid γ q ∧ ∀ x ∈ l, OnGrid γ x

theorem LinInv.small {p : Nat} (hp : 2 ≤ p) {Q q ε g : K} {l : List K} (i : LinInv p Q q ε (g :: l)) {k : ℤ} (k1 : 2 ^ k ≤ |g|)
    (k2 : |g| < 2 ^ (k + 1)) : |q| ≤ 2 ^ (k + 1 - p : ℤ) := by
  have hp1 : 1 ≤ p := by omega
  obtain ⟨γ, e1, e2, e3, e4⟩ := i.grid
  have hg0 : g ≠ 0 := by
    rintro rfl
    rw [abs_zero] at k1
    exact absurd k1 (not_le.2 (two_zpow_pos _))
  have hγ : γ < k + 1 := by
    have := ((e4 g (by simp)).le_abs hg0).trans_lt k2
    rwa [two_zpow_lt_iff] at this
  have hσ := i.steps.1 k k1 k2
  have hX : OnGrid γ (Q + q) := e2.add e3
  have hle : |Q + q| ≤ 2 ^ (k + 2) := by
    by_contra hc
    have := (onGrid_pow (K := K) (a := γ) (b := k + 2) (by omega)).step hX.abs (not_le.1 hc)
    have h1 : |Q + q| ≤ |ε + q + Q| + |ε| := by
      have := abs_sub (ε + q + Q) ε
      rwa [show ε + q + Q - ε = Q + q by ring] at this
    linarith
  have := roundBits_err hp1 hle
  rwa [i.round, add_sub_cancel_left, show (k + 2 - p - 1 : ℤ) = k + 1 - p by ring] at this

theorem LinInv.zero {p : Nat} {Q q ε : K} {l : List K} (i : LinInv p Q q ε (0 :: l)) : LinInv p Q q ε l := by
  obtain ⟨γ, e1, e2, e3, e4⟩ := i.grid
  refine ⟨i.floatQ, i.floatq, fun a ha => i.floats a (by simp [ha]), i.round, ?_, (List.pairwise_cons.1 i.sorted).2,
    γ, e1, e2, e3, fun x hx => e4 x (by simp [hx])⟩
  have := i.steps.2
  rwa [add_zero] at this

/-- One turn of the loop. -/
theorem LinInv.step {p : Nat} (hp : 2 ≤ p) {Q q ε g : K} {l : List K} (i : LinInv p Q q ε (g :: l)) (hg0 : g ≠ 0) :
    |q| ≤ |g| ∧
    (∃ γ : ℤ, |g + q - roundBits p (g + q)| < 2 ^ γ ∧ OnGrid γ Q ∧ OnGrid γ (roundBits p (g + q)) ∧ ∀ x ∈ l, OnGrid γ x) ∧
    LinInv p (roundBits p (Q + roundBits p (g + q))) (Q + roundBits p (g + q) - roundBits p (Q + roundBits p (g + q)))
      (ε + (g + q - roundBits p (g + q))) l := by
  have hp1 : 1 ≤ p := by omega
  obtain ⟨k, -, k1, k2⟩ := exists_log hg0
  have hq := i.small hp k1 k2
  have fg := i.floats g (by simp)
  obtain ⟨c, c1, c2, c3⟩ := fg.canon hg0
  have hck : c = k + 1 - p := by
    have a1 := c2.trans_lt k2
    have a2 := k1.trans_lt c3
    rw [two_zpow_lt_iff] at a1 a2
    omega
  have hqg : |q| ≤ |g| := by
    refine hq.trans (le_trans (two_zpow_le ?_) k1)
    omega
  have hgq : |g + q| ≤ 2 ^ (k + 1) := by
    have a1 : |g| + 2 ^ (k + 1 - p : ℤ) ≤ 2 ^ (k + 1) := by
      rw [hck] at c1
      exact c1.abs.step (onGrid_pow (by omega)) k2
    have := abs_add_le g q
    linarith
  have hh := roundBits_err hp1 hgq
  obtain ⟨w1, w2⟩ := List.pairwise_cons.1 i.sorted
  have fl' : ∀ a ∈ l, IsFloat p a := fun a ha => i.floats a (by simp [ha])
  -- a grid above the error
  have hgrid : ∃ γ : ℤ, |g + q - roundBits p (g + q)| < 2 ^ γ ∧ OnGrid γ Q ∧ OnGrid γ (roundBits p (g + q)) ∧
      ∀ x ∈ l, OnGrid γ x := by
    have hE : BelowBy 0 (g + q - roundBits p (g + q)) Q := by
      have := err_belowBy hp1 (k := 0) (by norm_num) (Q + q)
      rw [i.round, add_sub_cancel_left] at this
      exact this.of_le (sum_err_le_right hp1 fg)
    obtain ⟨γ, γ1, γ2, γ3⟩ := common_grid (k := 0) (roundBits p (g + q) :: l) Q hE (by
      intro x hx
      rcases List.mem_cons.1 hx with rfl | hx
      · exact err_belowBy hp1 (by norm_num) _
      · by_cases hx0 : x = 0
        · rw [hx0]; exact belowBy_zero_right _
        · obtain ⟨d, d1, d2, d3⟩ := (fl' x hx).canon hx0
          have := (k1.trans (w1 x hx hx0)).trans_lt d3
          rw [two_zpow_lt_iff] at this
          exact ⟨d, d1, hh.trans_lt (two_zpow_lt (by omega))⟩)
    rw [sub_zero] at γ1
    exact ⟨γ, γ1, γ2, γ3 _ (by simp), fun x hx => γ3 x (by simp [hx])⟩
  refine ⟨hqg, hgrid, roundBits_isFloat hp1 _, sum_err_isFloat hp1 i.floatQ (roundBits_isFloat hp1 _), fl', ?_, ?_, w2, ?_⟩
  · rw [add_sub_cancel]
  · have := i.steps.2
    rwa [show ε + q + Q + g = ε + (g + q - roundBits p (g + q)) +
      (Q + roundBits p (g + q) - roundBits p (Q + roundBits p (g + q))) + roundBits p (Q + roundBits p (g + q)) by ring] at this
  · obtain ⟨γ, e1, e2, e3, e4⟩ := i.grid
    have hgqγ : OnGrid γ (g + q) := (e4 g (by simp)).add e3
    have hQR : OnGrid γ (Q + roundBits p (g + q)) := e2.add (hgqγ.round hp1)
    by_cases h0 : g + q - roundBits p (g + q) = 0
    · rw [h0, add_zero]
      exact ⟨γ, e1, hQR.round hp1, hQR.sub (hQR.round hp1), fun x hx => e4 x (by simp [hx])⟩
    · obtain ⟨γ', d1, d2, d3, d4⟩ := hgrid
      have hgr : OnGrid γ (g + q - roundBits p (g + q)) := hgqγ.sub (hgqγ.round hp1)
      have hlt : γ < γ' := by
        have := (hgr.le_abs h0).trans_lt d1
        rwa [two_zpow_lt_iff] at this
      have a1 := hgr.abs.step (onGrid_pow hlt.le) d1
      have a2 := abs_add_le ε (g + q - roundBits p (g + q))
      have hQR' := d2.add d3
      exact ⟨γ', by linarith, hQR'.round hp1, hQR'.sub (hQR'.round hp1), d4⟩

theorem linErr_zero {p : Nat} (hp : 1 ≤ p) {Q q : K} (fq : IsFloat p q) (hr : roundBits p (Q + q) = Q) (l : List K) :
    linErr p Q q (0 :: l) = 0 :: linErr p Q q l := by
  simp only [linErr, zero_add, fq.round hp, sub_self, hr, add_sub_cancel_left]

/-- The components do not overlap. -/
theorem linErr_belowBy {p : Nat} (hp : 2 ≤ p) : ∀ (l : List K) (Q q ε : K), LinInv p Q q ε l →
    (linErr p Q q l).Pairwise (BelowBy 0)
  | [], Q, q, ε, i => by
    have := err_belowBy (p := p) (by omega) (k := 0) (by norm_num) (Q + q)
    rw [i.round, add_sub_cancel_left] at this
    simp [linErr, this]
  | g :: l, Q, q, ε, i => by
    have hp1 : 1 ≤ p := by omega
    have ff := linErr_isFloat hp1 (g :: l) Q q i.floatQ i.floatq i.floats
    by_cases hg0 : g = 0
    · subst hg0
      rw [linErr_zero hp1 i.floatq i.round] at ff ⊢
      exact List.pairwise_cons.2 ⟨fun y hy => belowBy_zero_left (ff y (by simp [hy])), linErr_belowBy hp l Q q ε i.zero⟩
    · obtain ⟨-, ⟨γ, d1, d2, d3, d4⟩, i'⟩ := i.step hp hg0
      have hQR := d2.add d3
      simp only [linErr]
      refine List.pairwise_cons.2 ⟨fun y hy => ⟨γ, ?_, by rwa [sub_zero]⟩, linErr_belowBy hp l _ _ _ i'⟩
      exact linErr_grid hp1 l _ _ (hQR.round hp1) (hQR.sub (hQR.round hp1)) d4 y hy

theorem takeNext_mergeE : ∀ {e f : List K} {g : K} {l : List K}, mergeE e f = g :: l →
    ∃ e' f', takeNext true e f = .ok (g, e', f') ∧ mergeE e' f' = l
  | [], [], g, l, h => by rw [mergeE] at h; exact absurd h (by simp)
  | x :: e, [], g, l, h => by
    rw [mergeE] at h
    obtain ⟨rfl, rfl⟩ := List.cons.inj h
    exact ⟨e, [], by simp [takeNext, advance], by cases e <;> rw [mergeE]⟩
  | [], y :: f, g, l, h => by
    rw [mergeE] at h
    obtain ⟨rfl, rfl⟩ := List.cons.inj h
    exact ⟨[], f, by simp [takeNext, advance], by rw [mergeE]⟩
  | x :: e, y :: f, g, l, h => by
    rw [mergeE] at h
    rw [takeNext]
    by_cases ht : takesE x y = true
    · rw [if_pos ht] at h ⊢
      obtain ⟨rfl, rfl⟩ := List.cons.inj h
      exact ⟨e, y :: f, by simp [advance], rfl⟩
    · rw [if_neg ht] at h ⊢
      obtain ⟨rfl, rfl⟩ := List.cons.inj h
      exact ⟨x :: e, f, by simp [advance], rfl⟩

theorem linearSumLoop_eq {p : Nat} (hp : 3 ≤ p) : ∀ (l : List K) (e f : List K) (Q q ε : K), mergeE e f = l → LinInv p Q q ε l →
    linearSumLoop (roundBits p) true l.length Q q e f = .ok (linErr p Q q l)
  | [], e, f, Q, q, ε, _, _ => rfl
  | g :: l, e, f, Q, q, ε, hm, i => by
    have hp1 : 1 ≤ p := by omega
    obtain ⟨e', f', t1, t2⟩ := takeNext_mergeE hm
    have fg := i.floats g (by simp)
    rw [List.length_cons, linearSumLoop, t1]
    by_cases hg0 : g = 0
    · subst hg0
      have ih := linearSumLoop_eq hp l e' f' Q q ε t2 i.zero
      rw [linErr_zero hp1 i.floatq i.round]
      simp only [fastTwoSum_eq' hp1 fg i.floatq (by simp), add_zero, i.floatq.round hp1, sub_self,
        twoSum_eq hp i.floatQ i.floatq, i.round, add_sub_cancel_left, ih]
    · obtain ⟨s1, -, i'⟩ := i.step (by omega) hg0
      have ih := linearSumLoop_eq hp l e' f' _ _ _ t2 i'
      simp only [fastTwoSum_eq hp1 fg i.floatq s1, twoSum_eq hp i.floatQ (roundBits_isFloat hp1 (g + q)), ih, linErr]

theorem Merge.split {e f : List K} : ∀ {a b : List K}, Merge e f (a ++ b) → ∃ e1 e2 f1 f2, e = e1 ++ e2 ∧ f = f1 ++ f2 ∧
    Merge e1 f1 a := by
  intro a
  induction a generalizing e f with
  | nil => exact fun _ => ⟨[], e, [], f, rfl, rfl, Merge.nil⟩
  | cons x a ih =>
    intro b h
    rw [List.cons_append] at h
    cases h with
    | left _ h =>
      obtain ⟨e1, e2, f1, f2, h1, h2, h3⟩ := ih h
      exact ⟨x :: e1, e2, f1, f2, by rw [h1]; rfl, h2, Merge.left x h3⟩
    | right _ h =>
      obtain ⟨e1, e2, f1, f2, h1, h2, h3⟩ := ih h
      exact ⟨e1, e2, x :: f1, f2, h1, by rw [h2]; rfl, Merge.right x h3⟩

theorem asc_sum_lt {p : Nat} {l : List K} {g : ℤ} (hf : ∀ a ∈ l, IsFloat p a) (hpw : l.Pairwise (BelowBy 0))
    (hl : ∀ a ∈ l, |a| < 2 ^ g) : |l.sum| < 2 ^ g := by
  rw [← List.sum_reverse]
  exact desc_sum_lt l.reverse g (fun a ha => hf a (List.mem_reverse.1 ha)) (List.pairwise_reverse.2 hpw)
    fun a ha => hl a (List.mem_reverse.1 ha)

theorem steps_of_merge {p : Nat} {e f g : List K} (he : ∀ a ∈ e, IsFloat p a) (hf : ∀ a ∈ f, IsFloat p a)
    (ne : e.Pairwise (BelowBy 0)) (nf : f.Pairwise (BelowBy 0)) (hm : Merge e f g) (hs : SortedNZ g) :
    ∀ (a b : List K), g = a ++ b → Steps a.sum b := by
  intro a b
  induction b generalizing a with
  | nil => exact fun _ => trivial
  | cons x b ih =>
    intro hg
    refine ⟨fun k k1 k2 => ?_, ?_⟩
    · have hx0 : x ≠ 0 := by
        rintro rfl
        rw [abs_zero] at k1
        exact absurd k1 (not_le.2 (two_zpow_pos _))
      have hs' := hs
      unfold SortedNZ at hs'
      rw [hg, List.pairwise_append] at hs'
      have hle : ∀ y ∈ a, |y| < 2 ^ (k + 1) := fun y hy => (hs'.2.2 y hy x (by simp) hx0).trans_lt k2
      rw [hg] at hm
      obtain ⟨e1, e2, f1, f2, h1, h2, h3⟩ := hm.split
      have b1 : |e1.sum| < 2 ^ (k + 1) := asc_sum_lt (fun y hy => he y (by rw [h1]; simp [hy]))
        (by rw [h1] at ne; exact (List.pairwise_append.1 ne).1) fun y hy => hle y ((h3.mem y).2 (by simp [hy]))
      have b2 : |f1.sum| < 2 ^ (k + 1) := asc_sum_lt (fun y hy => hf y (by rw [h2]; simp [hy]))
        (by rw [h2] at nf; exact (List.pairwise_append.1 nf).1) fun y hy => hle y ((h3.mem y).2 (by simp [hy]))
      rw [h3.sum]
      have := abs_add_le e1.sum f1.sum
      have e := two_zpow_succ (K := K) (k + 1)
      rw [show k + 1 + 1 = k + 2 by ring] at e
      linarith
    · have := ih (a ++ [x]) (by rw [hg]; simp)
      rwa [List.sum_append, List.sum_singleton] at this

/-- `linear_expansion_sum`. -/
theorem linearExpansionSum_spec {p : Nat} (hp : 3 ≤ p) {e f : List K} (e0 : e ≠ []) (f0 : f ≠ []) (he : ∀ a ∈ e, IsFloat p a)
    (hf : ∀ a ∈ f, IsFloat p a) (ne : Nonoverlapping e) (nf : Nonoverlapping f) :
    ∃ h, linearExpansionSum (roundBits p) true e f = .ok h ∧ h.sum = e.sum + f.sum ∧ (∀ a ∈ h, IsFloat p a) ∧
      h.length = e.length + f.length ∧ Nonoverlapping h := by
  have hp1 : 1 ≤ p := by omega
  have hm := mergeE_merge e f
  have hs := ne.sortedNZ.merge nf.sortedNZ
  have hst := steps_of_merge he hf ((nonoverlapping_iff he).1 ne) ((nonoverlapping_iff hf).1 nf) hm hs
  have fm : ∀ a ∈ mergeE e f, IsFloat p a := by
    intro a ha
    rcases List.mem_append.1 ((hm.mem a).1 ha) with ha | ha
    · exact he a ha
    · exact hf a ha
  have hlen := hm.length
  have hl1 := List.length_pos_iff.2 e0
  have hl2 := List.length_pos_iff.2 f0
  rcases hg : mergeE e f with _ | ⟨g0, _ | ⟨g1, l⟩⟩
  · rw [hg] at hlen; simp at hlen; omega
  · rw [hg] at hlen; simp at hlen; omega
  rw [hg] at hs fm hlen hm
  have fg0 := fm g0 (by simp)
  have fg1 := fm g1 (by simp)
  have fl' : ∀ a ∈ l, IsFloat p a := fun a ha => fm a (by simp [ha])
  have hle : g1 ≠ 0 → |g0| ≤ |g1| := (List.pairwise_cons.1 hs).1 g1 (by simp)
  have hs' : SortedNZ l := (List.pairwise_cons.1 (List.pairwise_cons.1 hs).2).2
  obtain ⟨e1, f1, t1, t2⟩ := takeNext_mergeE hg
  obtain ⟨e2, f2, t3, t4⟩ := takeNext_mergeE t2
  obtain ⟨γ, hγ⟩ := exists_grid _ fm
  have hX := (hγ g0 (by simp)).add (hγ g1 (by simp))
  have inv : LinInv p (roundBits p (g0 + g1)) (g0 + g1 - roundBits p (g0 + g1)) 0 l := by
    refine ⟨roundBits_isFloat hp1 _, sum_err_isFloat hp1 fg0 fg1, fl', by rw [add_sub_cancel], ?_, hs', γ, ?_,
      hX.round hp1, hX.sub (hX.round hp1), fun x hx => hγ x (by simp [hx])⟩
    · have := hst [g0, g1] l (by rw [hg]; rfl)
      rw [zero_add, sub_add_cancel]
      simpa using this
    · rw [abs_zero]; exact two_zpow_pos _
  have hloop := linearSumLoop_eq hp l e2 f2 _ _ 0 t4 inv
  have ff := linErr_isFloat hp1 l _ _ inv.floatQ inv.floatq fl'
  refine ⟨_, ?_, ?_, ff, ?_, (nonoverlapping_iff ff).2 (linErr_belowBy (by omega) l _ _ 0 inv)⟩
  · rw [← hloop]
    cases e with
    | nil => exact absurd rfl e0
    | cons x e =>
      cases f with
      | nil => exact absurd rfl f0
      | cons y f =>
        rw [linearExpansionSum]
        simp only [t1, t3, fastTwoSum_eq' hp1 fg1 fg0 hle]
        congr 1
        simp only [List.length_cons] at hlen
        omega
  · rw [linErr_sum, add_sub_cancel, ← hm.sum, List.sum_cons, List.sum_cons]; ring
  · rw [linErr_length]
    simp only [List.length_cons] at hlen
    omega

theorem takeNext_no_slack : ∀ (e f : List K), takeNext false e f = .error .outOfRange ∨
    ∃ g e' f', takeNext false e f = .ok (g, e', f') ∧ e'.length + f'.length + 1 = e.length + f.length ∧ e' ++ f' ≠ []
  | [], [] => Or.inl rfl
  | x :: e, [] => by
    cases e with
    | nil => exact Or.inl rfl
    | cons z e => exact Or.inr ⟨x, z :: e, [], rfl, by simp, by simp⟩
  | [], y :: f => by
    cases f with
    | nil => exact Or.inl rfl
    | cons z f => exact Or.inr ⟨y, [], z :: f, rfl, by simp, by simp⟩
  | x :: e, y :: f => by
    rw [takeNext]
    by_cases ht : takesE x y = true
    · rw [if_pos ht]
      cases e with
      | nil => exact Or.inl rfl
      | cons z e => exact Or.inr ⟨x, z :: e, y :: f, rfl, by simp; omega, by simp⟩
    · rw [if_neg ht]
      cases f with
      | nil => exact Or.inl rfl
      | cons z f => exact Or.inr ⟨y, x :: e, z :: f, rfl, by simp; omega, by simp⟩

theorem linearSumLoop_no_slack (fl : K → K) : ∀ (n : Nat) (Q q : K) (e f : List K), e.length + f.length = n + 1 →
    linearSumLoop fl false (n + 1) Q q e f = .error .outOfRange
  | n, Q, q, e, f, hl => by
    rw [linearSumLoop]
    rcases takeNext_no_slack e f with h | ⟨g, e', f', h1, h2, h3⟩
    · rw [h]
    · rw [h1]
      have h4 : 0 < (e' ++ f').length := List.length_pos_iff.2 h3
      rw [List.length_append] at h4
      cases n with
      | zero => omega
      | succ n =>
        simp only [linearSumLoop_no_slack fl n _ _ e' f' (by omega)]

theorem linearExpansionSum_no_slack (fl : K → K) (e f : List K) : linearExpansionSum fl false e f = .error .outOfRange := by
  cases e with
  | nil => rfl
  | cons x e =>
    cases f with
    | nil => rfl
    | cons y f =>
      rw [linearExpansionSum]
      rcases takeNext_no_slack (x :: e) (y :: f) with h | ⟨g, e1, f1, h1, h2, h3⟩
      · simp only [h]
      · simp only [h1]
        rcases takeNext_no_slack e1 f1 with h | ⟨g', e2, f2, k1, k2, k3⟩
        · simp only [h]
        · simp only [k1]
          have h4 : 0 < (e2 ++ f2).length := List.length_pos_iff.2 k3
          rw [List.length_append] at h4
          simp only [List.length_cons] at h2
          obtain ⟨n, hn⟩ : ∃ n, e.length + f.length = n + 1 := ⟨e.length + f.length - 1, by omega⟩
          rw [hn]
          exact linearSumLoop_no_slack fl n _ _ _ _ (by omega)

end Geometrix
