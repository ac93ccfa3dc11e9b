import Verif.Lemmas.FastExpansion
import Mathlib.Data.Sign.Basic

/-!
`grow_expansion` and `expansion_sum`, differences of products, signs of expansions, and `estimate`.
-/

set_option linter.unusedSectionVars false

namespace Geometrix

open Spec

variable {K : Type*} [Field K] [LinearOrder K] [IsStrictOrderedRing K] [FloorRing K]

/-- The bits of `a` lie more than `k` places below the last bit of `b`. -/
def BelowBy (k : ℤ) (a b : K) : Prop := ∃ e : ℤ, OnGrid e b ∧ |a| < 2 ^ (e - k)

theorem below_iff {a b : K} : Below a b ↔ BelowBy 0 a b := by
  unfold Below BelowBy
  simp only [sub_zero]

theorem wellBelow_iff {a b : K} : WellBelow a b ↔ BelowBy 1 a b := Iff.rfl

theorem BelowBy.of_le {k : ℤ} {a a' b : K} (h : BelowBy k a b) (h' : |a'| ≤ |a|) : BelowBy k a' b := by
  obtain ⟨e, h1, h2⟩ := h
  exact ⟨e, h1, h'.trans_lt h2⟩

theorem belowBy_zero_left {p : Nat} {k : ℤ} {b : K} (h : IsFloat p b) : BelowBy k 0 b := by
  obtain ⟨e, h1, -⟩ := h.grid
  exact ⟨e, h1, by rw [abs_zero]; exact two_zpow_pos _⟩

theorem belowBy_zero_right {k : ℤ} (a : K) : BelowBy k a 0 := by
  by_cases ha : a = 0
  · exact ⟨0, onGrid_zero _, by rw [ha, abs_zero]; exact two_zpow_pos _⟩
  · obtain ⟨j, -, -, h⟩ := exists_log ha
    exact ⟨j + 1 + k, onGrid_zero _, by rwa [add_sub_cancel_right]⟩

theorem pairwise_belowBy {p : Nat} {k : ℤ} {l : List K} (hl : ∀ a ∈ l, IsFloat p a) :
    l.Pairwise (BelowBy k) ↔ (l.filter (· ≠ 0)).Pairwise (BelowBy k) := by
  refine ⟨fun h => h.filter _, fun h => ?_⟩
  induction l with
  | nil => exact List.Pairwise.nil
  | cons a l ih =>
    have hl' : ∀ b ∈ l, IsFloat p b := fun b hb => hl b (by simp [hb])
    by_cases ha : a = 0
    · rw [List.filter_cons_of_neg (by simpa using ha)] at h
      exact List.pairwise_cons.2 ⟨fun y hy => by rw [ha]; exact belowBy_zero_left (hl' y hy), ih hl' h⟩
    · rw [List.filter_cons_of_pos (by simpa using ha)] at h
      obtain ⟨h1, h2⟩ := List.pairwise_cons.1 h
      refine List.pairwise_cons.2 ⟨fun y hy => ?_, ih hl' h2⟩
      by_cases hy0 : y = 0
      · rw [hy0]; exact belowBy_zero_right a
      · exact h1 y (by simp [hy, hy0])

theorem nonoverlapping_iff {p : Nat} {l : List K} (hl : ∀ a ∈ l, IsFloat p a) :
    Nonoverlapping l ↔ l.Pairwise (BelowBy 0) := by
  rw [pairwise_belowBy hl]
  exact ⟨fun h => h.imp below_iff.1, fun h => h.imp below_iff.2⟩

theorem nonadjacent_iff {p : Nat} {l : List K} (hl : ∀ a ∈ l, IsFloat p a) :
    Nonadjacent l ↔ l.Pairwise (BelowBy 1) := (pairwise_belowBy hl).symm

/-- One bit place below all numbers of a list. -/
theorem common_grid {k : ℤ} {a : K} : ∀ (l : List K) (b : K), BelowBy k a b → (∀ x ∈ l, BelowBy k a x) →
    ∃ e : ℤ, |a| < 2 ^ (e - k) ∧ OnGrid e b ∧ ∀ x ∈ l, OnGrid e x
  | [], b, ⟨e, h1, h2⟩, _ => ⟨e, h2, h1, by simp⟩
  | x :: l, b, hb, hl => by
    obtain ⟨e, h1, h2, h3⟩ := common_grid l b hb fun y hy => hl y (by simp [hy])
    obtain ⟨e', h4, h5⟩ := hl x (by simp)
    rcases le_total e e' with h | h
    · refine ⟨e, h1, h2, fun y hy => ?_⟩
      rcases List.mem_cons.1 hy with rfl | hy
      · exact h4.mono h
      · exact h3 y hy
    · refine ⟨e', h5, h2.mono h, fun y hy => ?_⟩
      rcases List.mem_cons.1 hy with rfl | hy
      · exact h4
      · exact (h3 y hy).mono h

theorem sumErr_grid {p : Nat} (hp : 1 ≤ p) {e : ℤ} : ∀ (g : List K) (Q : K), OnGrid e Q → (∀ a ∈ g, OnGrid e a) →
    ∀ a ∈ sumErr p Q g, OnGrid e a
  | [], Q, hQ, _, a, ha => by
    simp only [sumErr, List.mem_singleton] at ha
    rw [ha]; exact hQ
  | x :: g, Q, hQ, hg, a, ha => by
    have hx := hQ.add (hg x (by simp))
    rw [sumErr, List.mem_cons] at ha
    rcases ha with rfl | ha
    · exact hx.sub (hx.round hp)
    · exact sumErr_grid hp g _ (hx.round hp) (fun b hb => hg b (by simp [hb])) a ha

theorem err_belowBy {p : Nat} (hp : 1 ≤ p) {k : ℤ} (hk : k ≤ 1) (x : K) : BelowBy k (x - roundBits p x) (roundBits p x) := by
  obtain ⟨e, h1, h2⟩ := roundBits_wellBelow hp x
  exact ⟨e, h1, h2.trans_le (two_zpow_le (by omega))⟩

/-- Adding one number to an expansion keeps the distances. -/
theorem sumErr_belowBy {p : Nat} (hp : 1 ≤ p) {k : ℤ} (hk : k ≤ 1) : ∀ (g : List K) (Q : K), IsFloat p Q →
    (∀ a ∈ g, IsFloat p a) → g.Pairwise (BelowBy k) → (sumErr p Q g).Pairwise (BelowBy k)
  | [], Q, _, _, _ => by simp [sumErr]
  | x :: g, Q, hQ, hg, hpw => by
    obtain ⟨h1, h2⟩ := List.pairwise_cons.1 hpw
    rw [sumErr]
    refine List.pairwise_cons.2 ⟨?_, sumErr_belowBy hp hk g _ (roundBits_isFloat hp _) (fun b hb => hg b (by simp [hb])) h2⟩
    have hle := sum_err_le_right hp (b := x) hQ
    obtain ⟨e, e1, e2, e3⟩ := common_grid g (roundBits p (Q + x)) (err_belowBy hp hk (Q + x)) fun y hy => (h1 y hy).of_le hle
    intro y hy
    exact ⟨e, sumErr_grid hp g _ e2 e3 y hy, e1⟩

/-- The first component after adding one number is not larger than this. -/
theorem sumErr_head_le {p : Nat} (hp : 1 ≤ p) {g : List K} {Q : K} (hg : ∀ a ∈ g, IsFloat p a) :
    ∀ x ∈ (sumErr p Q g).take 1, |x| ≤ |Q| := by
  cases g with
  | nil => simp [sumErr]
  | cons y g =>
    intro x hx
    simp only [sumErr, List.take_succ_cons, List.take_zero, List.mem_singleton] at hx
    rw [hx]
    exact sum_err_le_left hp (hg y (by simp))

theorem expansionSumLoop_spec {p : Nat} (hp : 3 ≤ p) {k : ℤ} (hk : k ≤ 1) : ∀ (f : List K) (i : Nat) (h : List K), i ≤ h.length →
    (∀ a ∈ f, IsFloat p a) → (∀ a ∈ h, IsFloat p a) →
    (expansionSumLoop (roundBits p) i f h).sum = f.sum + h.sum ∧
    (∀ a ∈ expansionSumLoop (roundBits p) i f h, IsFloat p a) ∧
    (expansionSumLoop (roundBits p) i f h).length = f.length + h.length ∧
    (f.Pairwise (BelowBy k) → h.Pairwise (BelowBy k) → (∀ d ∈ h.take i, ∀ y ∈ f, BelowBy k d y) →
      (expansionSumLoop (roundBits p) i f h).Pairwise (BelowBy k))
  | [], i, h, _, _, hh => by simp [expansionSumLoop]; exact hh
  | x :: f, i, h, hi, hf, hh => by
    have hp1 : 1 ≤ p := by omega
    have fd : ∀ a ∈ h.drop i, IsFloat p a := fun a ha => hh a (List.mem_of_mem_drop ha)
    have ft : ∀ a ∈ h.take i, IsFloat p a := fun a ha => hh a (List.mem_of_mem_take ha)
    have hx := hf x (by simp)
    have heq : growLoop (roundBits p) x (h.drop i) = sumErr p x (h.drop i) := growLoop_eq hp _ _ hx fd
    have hlen : (h.take i).length = i := by rw [List.length_take]; omega
    have fG := sumErr_isFloat hp1 (h.drop i) x hx fd
    have ih := expansionSumLoop_spec hp hk f (i + 1) (h.take i ++ sumErr p x (h.drop i))
      (by rw [List.length_append, hlen, sumErr_length]; omega) (fun b hb => hf b (by simp [hb])) (by
        intro a ha
        rcases List.mem_append.1 ha with ha | ha
        · exact ft a ha
        · exact fG a ha)
    rw [expansionSumLoop, heq]
    obtain ⟨j1, j2, j3, j4⟩ := ih
    refine ⟨?_, j2, ?_, fun pf ph hd => j4 (List.pairwise_cons.1 pf).2 ?_ ?_⟩
    · rw [j1, List.sum_append, sumErr_sum, List.sum_cons]
      have : h.sum = (h.take i).sum + (h.drop i).sum := by rw [← List.sum_append, List.take_append_drop]
      rw [this]
      ring
    · rw [j3, List.length_append, hlen, sumErr_length, List.length_cons, List.length_drop]
      omega
    · rw [← List.take_append_drop i h] at ph
      obtain ⟨q1, q2, q3⟩ := List.pairwise_append.1 ph
      refine List.pairwise_append.2 ⟨q1, sumErr_belowBy hp1 hk _ _ hx fd q2, fun a ha b hb => ?_⟩
      obtain ⟨e, e1, e2, e3⟩ := common_grid (h.drop i) x (hd a ha x (by simp)) fun y hy => q3 a ha y hy
      exact ⟨e, sumErr_grid hp1 _ _ e2 e3 b hb, e1⟩
    · intro d hd' y hy
      rw [List.take_append, hlen, show i + 1 - i = 1 by omega, List.take_of_length_le (by rw [hlen]; omega)] at hd'
      rcases List.mem_append.1 hd' with hd' | hd'
      · exact hd d hd' y (by simp [hy])
      · exact ((List.pairwise_cons.1 pf).1 y hy).of_le (sumErr_head_le hp1 fd d hd')

theorem expansionSum_spec {p : Nat} (hp : 3 ≤ p) {k : ℤ} (hk : k ≤ 1) {e f : List K} (f0 : f ≠ []) (he : ∀ a ∈ e, IsFloat p a)
    (hf : ∀ a ∈ f, IsFloat p a) : ∃ h, expansionSum (roundBits p) e f = .ok h ∧ h.sum = e.sum + f.sum ∧
    (∀ a ∈ h, IsFloat p a) ∧ h.length = e.length + f.length ∧
    (e.Pairwise (BelowBy k) → f.Pairwise (BelowBy k) → h.Pairwise (BelowBy k)) := by
  cases f with
  | nil => exact absurd rfl f0
  | cons x f =>
    have hp1 : 1 ≤ p := by omega
    have hx := hf x (by simp)
    have heq : growLoop (roundBits p) x e = sumErr p x e := growLoop_eq hp _ _ hx he
    obtain ⟨j1, j2, j3, j4⟩ := expansionSumLoop_spec hp hk f 1 (sumErr p x e) (by rw [sumErr_length]; omega)
      (fun b hb => hf b (by simp [hb])) (sumErr_isFloat hp1 _ _ hx he)
    refine ⟨_, by rw [expansionSum, heq], ?_, j2, ?_, fun pe pf => j4 (List.pairwise_cons.1 pf).2
      (sumErr_belowBy hp1 hk _ _ hx he pe) fun d hd y hy =>
        ((List.pairwise_cons.1 pf).1 y hy).of_le (sumErr_head_le hp1 he d hd)⟩
    · rw [j1, sumErr_sum, List.sum_cons]; ring
    · rw [j3, sumErr_length, List.length_cons]; omega

/-- `Two_One_Diff`. -/
theorem twoOneDiff_eq {p : Nat} (hp : 3 ≤ p) {a1 a0 b : K} (h1 : IsFloat p a1) (h0 : IsFloat p a0) (hb : IsFloat p b) :
    [(twoOneDiff (roundBits p) a1 a0 b).2.2, (twoOneDiff (roundBits p) a1 a0 b).2.1, (twoOneDiff (roundBits p) a1 a0 b).1] =
      sumErr p (-b) [a0, a1] := by
  unfold twoOneDiff
  simp only [twoDiff_eq hp h0 hb, twoSum_eq hp h1 (roundBits_isFloat (by omega) _), sumErr]
  rw [show -b + a0 = a0 - b by ring, add_comm (roundBits p (a0 - b)) a1]

/-- `Two_Two_Diff` is exact, and for parts that do not touch its result is nonadjacent. -/
theorem twoTwoDiff_spec {p : Nat} (hp : 3 ≤ p) {a b : K × K} (a1 : IsFloat p a.1) (a2 : IsFloat p a.2) (b1 : IsFloat p b.1)
    (b2 : IsFloat p b.2) : (twoTwoDiff (roundBits p) a b).sum = (a.1 + a.2) - (b.1 + b.2) ∧
    (∀ x ∈ twoTwoDiff (roundBits p) a b, IsFloat p x) ∧ (twoTwoDiff (roundBits p) a b).length = 4 ∧
    (WellBelow a.2 a.1 → WellBelow b.2 b.1 → Nonadjacent (twoTwoDiff (roundBits p) a b)) := by
  have hp1 : 1 ≤ p := by omega
  have he : ∀ x ∈ [a.2, a.1], IsFloat p x := by simp [a1, a2]
  have e1 := twoOneDiff_eq hp a1 a2 b2
  have f1 := sumErr_isFloat hp1 [a.2, a.1] (-b.2) b2.neg he
  have e2 := twoOneDiff_eq hp (f1 (twoOneDiff (roundBits p) a.1 a.2 b.2).1 (by rw [← e1]; simp))
    (f1 (twoOneDiff (roundBits p) a.1 a.2 b.2).2.1 (by rw [← e1]; simp)) b1
  have key : twoTwoDiff (roundBits p) a b = expansionSumLoop (roundBits p) 1 [-b.1] (growLoop (roundBits p) (-b.2) [a.2, a.1]) := by
    rw [growLoop_eq hp _ _ b2.neg he, ← e1]
    simp only [expansionSumLoop, List.take_succ_cons, List.take_zero, List.drop_succ_cons, List.drop_zero]
    rw [growLoop_eq hp _ _ b1.neg (by
      intro x hx
      refine f1 x ?_
      rw [← e1]
      simp at hx ⊢
      tauto), ← e2]
    rfl
  have hes : expansionSum (roundBits p) [a.2, a.1] [-b.2, -b.1] = .ok (twoTwoDiff (roundBits p) a b) := by
    rw [key]; rfl
  obtain ⟨h, j1, j2, j3, j4, j5⟩ := expansionSum_spec (k := 1) hp le_rfl (e := [a.2, a.1]) (f := [-b.2, -b.1]) (by simp) he
    (by simp [b1.neg, b2.neg])
  rw [hes, Except.ok.injEq] at j1
  rw [← j1] at j2 j3 j4 j5
  refine ⟨?_, j3, by simpa using j4, fun ha hb => (nonadjacent_iff j3).2 (j5 ?_ ?_)⟩
  · rw [j2]
    simp only [List.sum_cons, List.sum_nil]
    ring
  · simpa using wellBelow_iff.1 ha
  · obtain ⟨e, h1, h2⟩ := hb
    simp only [List.pairwise_cons, List.mem_singleton, forall_eq, List.not_mem_nil, false_implies, implies_true,
      List.Pairwise.nil, and_true]
    exact ⟨e, h1.neg, by rwa [abs_neg]⟩

theorem Spec.Nonadjacent.nearly {l : List K} (h : Nonadjacent l) : NearlyNonadjacent l := by
  refine ⟨h.imp fun hab => hab.halfBelow, fun a b c hs => ?_⟩
  have := h.sublist hs
  simp only [List.pairwise_cons, List.mem_cons, List.not_mem_nil, or_false, forall_eq_or_imp, forall_eq] at this
  exact Or.inl this.1.1

theorem Spec.StronglyNonoverlapping.nearly {l : List K} (h : StronglyNonoverlapping l) : NearlyNonadjacent l := by
  refine ⟨(h.below.and h.oneBit).imp fun {a b} hab => ?_, h.lonely⟩
  rcases hab.2 with hw | ⟨⟨k, hk⟩, -⟩
  · exact hw.halfBelow
  · obtain ⟨e, h1, h2⟩ := hab.1
    refine ⟨e, h1, ?_⟩
    rw [hk, two_zpow_lt_iff] at h2
    rw [hk]
    exact two_zpow_le (by omega)

theorem sum_filter (l : List K) : (l.filter (· ≠ 0)).sum = l.sum := by
  induction l with
  | nil => rfl
  | cons a l ih =>
    by_cases ha : a = 0
    · rw [List.filter_cons_of_neg (by simpa using ha), ih, List.sum_cons, ha, zero_add]
    · rw [List.filter_cons_of_pos (by simpa using ha), List.sum_cons, List.sum_cons, ih]

/-- The sum of an expansion lies near its last component. -/
theorem Spec.NearlyNonadjacent.last {p : Nat} {l : List K} (h : NearlyNonadjacent l) (hf : ∀ a ∈ l, IsFloat p a) {m : List K}
    {b : K} (hl : l.filter (· ≠ 0) = m ++ [b]) : |l.sum - b| < 3 / 4 * |b| := by
  have h1 := h.rev
  have hf' : ∀ a ∈ m ++ [b], IsFloat p a ∧ a ≠ 0 := by
    intro a ha
    rw [← hl] at ha
    simp at ha
    exact ⟨hf a ha.1, ha.2⟩
  rw [hl, List.reverse_append] at h1
  have := RevNear.sum_le (p := p) (b := b) (l := m.reverse) h1 fun a ha => hf' a (by simp at ha ⊢; tauto)
  rw [List.sum_reverse] at this
  rw [← sum_filter l, hl, List.sum_append, List.sum_singleton, add_sub_cancel_right]
  exact this

theorem sign_of_close {x y : K} {c : K} (hc : c ≤ 1) (h : |x - y| < c * |y|) : SignType.sign x = SignType.sign y := by
  have hy : |x - y| < |y| := h.trans_le (by nlinarith [abs_nonneg y])
  rcases lt_trichotomy y 0 with hneg | rfl | hpos
  · rw [abs_of_neg hneg] at hy
    have := (abs_lt.1 hy).2
    rw [sign_neg hneg, sign_neg (by linarith)]
  · rw [abs_zero] at hy
    exact absurd hy (not_lt.2 (abs_nonneg _))
  · rw [abs_of_pos hpos] at hy
    have := (abs_lt.1 hy).1
    rw [sign_pos hpos, sign_pos (by linarith)]

/-- `fast_expansion_sum_zeroelim`. -/
theorem fastExpansionSumZ_spec {p : Nat} (hp : 6 ≤ p) {e f : List K} (e0 : e ≠ []) (f0 : f ≠ []) (he : ∀ a ∈ e, IsFloat p a)
    (hf : ∀ a ∈ f, IsFloat p a) (ne : NearlyNonadjacent e) (nf : NearlyNonadjacent f) :
    ∃ h, fastExpansionSumZ (roundBits p) true e f = .ok h ∧ h.sum = e.sum + f.sum ∧ (∀ a ∈ h, IsFloat p a) ∧ h ≠ [] ∧
      h.length ≤ e.length + f.length ∧ NearlyNonadjacent h ∧ (h = [0] ∨ ∀ a ∈ h, a ≠ 0) := by
  obtain ⟨h, h1, h2, h3, h4, h5⟩ := fastExpansionSum_exact (by omega) e0 f0 he hf ne.nonoverlapping.sortedNZ
    nf.nonoverlapping.sortedNZ
  have hn := h5 hp ne nf
  rw [fastExpansionSumZ, h1]
  have hs := sum_filter h
  rcases heq : h.filter (· ≠ 0) with _ | ⟨x, t⟩
  · simp only [heq]
    rw [heq, List.sum_nil] at hs
    refine ⟨[0], rfl, by rw [← h2, ← hs]; simp, by simp [isFloat_zero], by simp, ?_, ?_, Or.inl rfl⟩
    · rw [List.length_singleton]
      have := List.length_pos_iff.2 e0
      omega
    · refine ⟨by simp, fun a b c hs => ?_⟩
      simp at hs
  · simp only [heq]
    have hff : (x :: t).filter (· ≠ 0) = x :: t := by
      rw [← heq, List.filter_filter]
      simp
    refine ⟨x :: t, rfl, by rw [← heq, hs, h2], ?_, by simp, ?_, ⟨?_, ?_⟩, Or.inr ?_⟩
    · intro a ha
      rw [← heq] at ha
      exact h3 a (List.mem_of_mem_filter ha)
    · rw [← heq, ← h4]
      exact List.length_filter_le _ _
    · rw [hff, ← heq]; exact hn.halfBelow
    · rw [hff, ← heq]; exact hn.lonely
    · intro a ha
      rw [← heq] at ha
      simpa using (List.mem_filter.1 ha).2

/-- The sign of the last component after `fast_expansion_sum_zeroelim`. -/
theorem lastOf_fastZ {p : Nat} (hp : 6 ≤ p) {e f : List K} (e0 : e ≠ []) (f0 : f ≠ []) (he : ∀ a ∈ e, IsFloat p a)
    (hf : ∀ a ∈ f, IsFloat p a) (ne : NearlyNonadjacent e) (nf : NearlyNonadjacent f) :
    ∃ d, lastOf (fastExpansionSumZ (roundBits p) true e f) = .ok d ∧ |(e.sum + f.sum) - d| ≤ 3 / 4 * |d| ∧
      SignType.sign d = SignType.sign (e.sum + f.sum) := by
  obtain ⟨h, h1, h2, h3, h4, -, h6, h7⟩ := fastExpansionSumZ_spec hp e0 f0 he hf ne nf
  rcases List.eq_nil_or_concat h with rfl | ⟨m, b, rfl⟩
  · exact absurd rfl h4
  rw [List.concat_eq_append] at *
  refine ⟨b, by unfold lastOf; rw [h1]; simp, ?_⟩
  rcases h7 with h7 | h7
  · have hm : m = [] := by
      have := congrArg List.length h7
      simp at this
      exact this
    subst hm
    simp only [List.nil_append, List.cons.injEq, and_true] at h7
    subst h7
    rw [← h2]
    simp
  · have hfil : (m ++ [b]).filter (· ≠ 0) = m ++ [b] := List.filter_eq_self.2 fun a ha => by simpa using h7 a ha
    have := h6.last h3 hfil
    rw [h2] at this
    exact ⟨this.le, (sign_of_close (by norm_num) this).symm⟩

/-- What is left if zeros are left out, or one zero if there is nothing else. -/
def dropZeros (l : List K) : List K :=
  match l.filter (· ≠ 0) with
  | [] => [0]
  | h => h

theorem dropZeros_spec (l : List K) : (dropZeros l).sum = l.sum ∧ (dropZeros l).filter (· ≠ 0) = l.filter (· ≠ 0) ∧
    dropZeros l ≠ [] ∧ (dropZeros l = [0] ∨ ∀ a ∈ dropZeros l, a ≠ 0) ∧ (l ≠ [] → (dropZeros l).length ≤ l.length) ∧
    (∀ a ∈ dropZeros l, a = 0 ∨ a ∈ l) := by
  have hs := sum_filter l
  unfold dropZeros
  rcases heq : l.filter (· ≠ 0) with _ | ⟨x, t⟩
  · simp only [heq]
    rw [heq, List.sum_nil] at hs
    refine ⟨by simp [← hs], by simp, by simp, by simp, fun h0 => ?_, by simp⟩
    rw [List.length_singleton]
    exact List.length_pos_iff.2 h0
  · simp only [heq]
    have hff : (x :: t).filter (· ≠ 0) = x :: t := by
      rw [← heq, List.filter_filter]
      simp
    refine ⟨by rw [← heq, hs], hff, by simp, Or.inr fun a ha => ?_, fun _ => ?_, fun a ha => ?_⟩
    · rw [← heq] at ha
      simpa using (List.mem_filter.1 ha).2
    · rw [← heq]
      exact List.length_filter_le _ _
    · rw [← heq] at ha
      exact Or.inr (List.mem_of_mem_filter ha)

theorem growLoopZ_eq (fl : K → K) : ∀ (e : List K) (Q : K) (h : List K), (∀ a ∈ h, a ≠ 0) →
    growLoopZ fl Q e h = dropZeros (h ++ growLoop fl Q e)
  | [], Q, h, hh => by
    have hf : h.filter (· ≠ 0) = h := List.filter_eq_self.2 fun a ha => by simpa using hh a ha
    rw [growLoopZ, growLoop, dropZeros, List.filter_append, hf]
    by_cases hQ : Q = 0
    · subst hQ
      cases h with
      | nil => simp
      | cons x h => simp
    · rw [if_pos (Or.inl hQ), List.filter_cons_of_pos (by simpa using hQ), List.filter_nil]
      cases h <;> simp
  | x :: e, Q, h, hh => by
    rw [growLoopZ, growLoop]
    by_cases h0 : (twoSum fl Q x).2 = 0
    · rw [if_neg (by simpa using h0), growLoopZ_eq fl e _ h hh]
      unfold dropZeros
      rw [List.filter_append, List.filter_append, List.filter_cons_of_neg (by simpa using h0)]
    · rw [if_pos h0, growLoopZ_eq fl e _ _ (fun a ha => ?_), List.append_assoc, List.singleton_append]
      rcases List.mem_append.1 ha with ha | ha
      · exact hh a ha
      · rw [List.mem_singleton] at ha
        rwa [ha]

theorem growLoopZ2_eq (fl : K → K) : ∀ (e : List K) (Q : K), (growLoopZ2 fl Q e).Sublist (growLoop fl Q e) ∧
    (growLoopZ2 fl Q e).filter (· ≠ 0) = (growLoop fl Q e).filter (· ≠ 0) ∧ growLoopZ2 fl Q e ≠ [] ∧
    ∀ a ∈ (growLoopZ2 fl Q e).dropLast, a ≠ 0
  | [], Q => by simp [growLoopZ2, growLoop]
  | x :: e, Q => by
    obtain ⟨h1, h2, h3, h4⟩ := growLoopZ2_eq fl e (twoSum fl Q x).1
    rw [growLoopZ2, growLoop]
    by_cases h0 : (twoSum fl Q x).2 = 0
    · rw [if_neg (by simpa using h0)]
      refine ⟨h1.cons _, ?_, h3, h4⟩
      rw [List.filter_cons_of_neg (by simpa using h0), h2]
    · rw [if_pos h0]
      refine ⟨h1.cons_cons _, ?_, by simp, ?_⟩
      · rw [List.filter_cons_of_pos (by simpa using h0), List.filter_cons_of_pos (by simpa using h0), h2]
      · rw [List.dropLast_cons_of_ne_nil h3]
        intro a ha
        rcases List.mem_cons.1 ha with rfl | ha
        · exact h0
        · exact h4 a ha

theorem foldl_growZ2 {p : Nat} (hp : 3 ≤ p) {k : ℤ} (hk : k ≤ 1) : ∀ (f h : List K), h ≠ [] → (∀ a ∈ h, IsFloat p a) →
    (∀ a ∈ f, IsFloat p a) → (∀ a ∈ h.dropLast, a ≠ 0) →
    (f.foldl (fun h fnow => growLoopZ2 (roundBits p) fnow h) h).sum = h.sum + f.sum ∧
    f.foldl (fun h fnow => growLoopZ2 (roundBits p) fnow h) h ≠ [] ∧
    (∀ a ∈ f.foldl (fun h fnow => growLoopZ2 (roundBits p) fnow h) h, IsFloat p a) ∧
    (f.foldl (fun h fnow => growLoopZ2 (roundBits p) fnow h) h).length ≤ h.length + f.length ∧
    (∀ a ∈ (f.foldl (fun h fnow => growLoopZ2 (roundBits p) fnow h) h).dropLast, a ≠ 0) ∧
    (h.Pairwise (BelowBy k) → (f.foldl (fun h fnow => growLoopZ2 (roundBits p) fnow h) h).Pairwise (BelowBy k))
  | [], h, h0, hh, _, hz => by
    simp only [List.foldl_nil, List.sum_nil, add_zero, List.length_nil]
    exact ⟨trivial, h0, hh, le_rfl, hz, fun h => h⟩
  | x :: f, h, h0, hh, hf, hz => by
    obtain ⟨s1, s2, s3, s4⟩ := growLoopZ2_eq (roundBits p) h x
    have fx := hf x (by simp)
    have e1 := growLoop_eq hp h x fx hh
    have fl1 := sumErr_isFloat (p := p) (by omega) h x fx hh
    obtain ⟨i1, i2, i3, i4, i5, i6⟩ := foldl_growZ2 hp hk f (growLoopZ2 (roundBits p) x h) s3
      (fun a ha => fl1 a (by rw [← e1]; exact s1.mem ha)) (fun a ha => hf a (by simp [ha])) s4
    rw [List.foldl_cons]
    refine ⟨?_, i2, i3, ?_, i5, fun hpw => i6 ?_⟩
    · rw [i1, ← sum_filter (growLoopZ2 _ _ _), s2, sum_filter, e1, sumErr_sum, List.sum_cons]
      ring
    · have := s1.length_le
      rw [e1, sumErr_length] at this
      rw [List.length_cons]
      omega
    · have := sumErr_belowBy (p := p) (by omega) hk h x fx hh hpw
      rw [← e1] at this
      exact this.sublist s1

/-- `expansion_sum_zeroelim2`. -/
theorem expansionSumZ2_spec {p : Nat} (hp : 3 ≤ p) {k : ℤ} (hk : k ≤ 1) {e f : List K} (f0 : f ≠ [])
    (he : ∀ a ∈ e, IsFloat p a) (hf : ∀ a ∈ f, IsFloat p a) : ∃ h, expansionSumZ2 (roundBits p) e f = .ok h ∧
    h.sum = e.sum + f.sum ∧ (∀ a ∈ h, IsFloat p a) ∧ h.length ≤ e.length + f.length ∧ (∀ a ∈ h.dropLast, a ≠ 0) ∧
    (e.Pairwise (BelowBy k) → h.Pairwise (BelowBy k)) := by
  cases f with
  | nil => exact absurd rfl f0
  | cons x f =>
    have fx := hf x (by simp)
    obtain ⟨s1, s2, s3, s4⟩ := growLoopZ2_eq (roundBits p) e x
    have e1 := growLoop_eq hp e x fx he
    have fl1 := sumErr_isFloat (p := p) (by omega) e x fx he
    obtain ⟨i1, i2, i3, i4, i5, i6⟩ := foldl_growZ2 hp hk f (growLoopZ2 (roundBits p) x e) s3
      (fun a ha => fl1 a (by rw [← e1]; exact s1.mem ha)) (fun a ha => hf a (by simp [ha])) s4
    refine ⟨_, rfl, ?_, i3, ?_, i5, fun hpw => i6 ?_⟩
    · rw [i1, ← sum_filter (growLoopZ2 _ _ _), s2, sum_filter, e1, sumErr_sum, List.sum_cons]
      ring
    · have := s1.length_le
      rw [e1, sumErr_length] at this
      rw [List.length_cons]
      omega
    · have := sumErr_belowBy (p := p) (by omega) hk e x fx he hpw
      rw [← e1] at this
      exact this.sublist s1

end Geometrix
