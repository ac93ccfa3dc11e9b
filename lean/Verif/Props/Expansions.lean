import Mathlib.Data.Rat.Floor
import Verif.Lemmas.Estimate

/-!
# C117: sums of expansions
-/

set_option linter.unusedSectionVars false

namespace Geometrix

open Spec

variable {K : Type*} [Field K] [LinearOrder K] [IsStrictOrderedRing K] [FloorRing K]

/-- C117: `grow_expansion` adds a number exactly and keeps expansions nonoverlapping or nonadjacent. -/
theorem C117_grow {p : Nat} (hp : 3 ≤ p) {e : List K} {b : K} (he : ∀ a ∈ e, IsFloat p a) (hb : IsFloat p b) :
    (growExpansion (roundBits p) e b).sum = e.sum + b ∧ (∀ a ∈ growExpansion (roundBits p) e b, IsFloat p a) ∧
    (growExpansion (roundBits p) e b).length = e.length + 1 ∧
    (Nonoverlapping e → Nonoverlapping (growExpansion (roundBits p) e b)) ∧
    (Nonadjacent e → Nonadjacent (growExpansion (roundBits p) e b)) := by
  rw [growExpansion, growLoop_eq hp e b hb he]
  have hf := sumErr_isFloat (p := p) (by omega) e b hb he
  refine ⟨by rw [sumErr_sum, add_comm], hf, sumErr_length p e b, fun h => ?_, fun h => ?_⟩
  · exact (nonoverlapping_iff hf).2 (sumErr_belowBy (by omega) (by norm_num) e b hb he ((nonoverlapping_iff he).1 h))
  · exact (nonadjacent_iff hf).2 (sumErr_belowBy (by omega) (by norm_num) e b hb he ((nonadjacent_iff he).1 h))

/-- C117: `grow_expansion_zeroelim` does the same and leaves no zeros, unless the sum is zero. -/
theorem C117_grow_zeroelim {p : Nat} (hp : 3 ≤ p) {e : List K} {b : K} (he : ∀ a ∈ e, IsFloat p a) (hb : IsFloat p b) :
    (growExpansionZ (roundBits p) e b).sum = e.sum + b ∧ (∀ a ∈ growExpansionZ (roundBits p) e b, IsFloat p a) ∧
    growExpansionZ (roundBits p) e b ≠ [] ∧ (growExpansionZ (roundBits p) e b).length ≤ e.length + 1 ∧
    (growExpansionZ (roundBits p) e b = [0] ∨ ∀ a ∈ growExpansionZ (roundBits p) e b, a ≠ 0) ∧
    (Nonoverlapping e → Nonoverlapping (growExpansionZ (roundBits p) e b)) ∧
    (Nonadjacent e → Nonadjacent (growExpansionZ (roundBits p) e b)) := by
  obtain ⟨g1, g2, g3, g4, g5⟩ := C117_grow hp he hb
  have h0 : growExpansionZ (roundBits p) e b = dropZeros (growExpansion (roundBits p) e b) :=
    growLoopZ_eq (roundBits p) e b [] (by simp)
  obtain ⟨d1, d2, d3, d4, d5, d6⟩ := dropZeros_spec (growExpansion (roundBits p) e b)
  rw [h0]
  refine ⟨by rw [d1, g1], fun a ha => ?_, d3, ?_, d4, fun h => ?_, fun h => ?_⟩
  · rcases d6 a ha with rfl | h
    · exact isFloat_zero p
    · exact g2 a h
  · rw [← g3]
    exact d5 (List.ne_nil_of_length_pos (by omega))
  · have := g4 h
    unfold Nonoverlapping at this ⊢
    rwa [d2]
  · have := g5 h
    unfold Nonadjacent at this ⊢
    rwa [d2]

example : growExpansion (roundBits 4 : ℚ → ℚ) [1 / 4, 8, 64] 15 = [1 / 4, -1, 0, 88] ∧
    growExpansionZ (roundBits 4 : ℚ → ℚ) [1 / 4, 8, 64] 15 = [1 / 4, -1, 88] := by decide +kernel

example : Nonadjacent ([1 / 4, 8, 64] : List ℚ) ∧ Nonoverlapping ([1 / 4, 8, 64] : List ℚ) := by
  have w1 : WellBelow (1 / 4 : ℚ) 8 := ⟨3, ⟨1, by norm_num⟩, by rw [abs_of_pos (by norm_num)]; norm_num⟩
  have w2 : WellBelow (1 / 4 : ℚ) 64 := ⟨6, ⟨1, by norm_num⟩, by rw [abs_of_pos (by norm_num)]; norm_num⟩
  have w3 : WellBelow (8 : ℚ) 64 := ⟨6, ⟨1, by norm_num⟩, by rw [abs_of_pos (by norm_num)]; norm_num⟩
  unfold Nonadjacent Nonoverlapping
  rw [show ([1 / 4, 8, 64] : List ℚ).filter (· ≠ 0) = [1 / 4, 8, 64] by decide +kernel]
  refine ⟨List.pairwise_cons.2 ⟨?_, List.pairwise_cons.2 ⟨?_, List.pairwise_singleton _ _⟩⟩,
    List.pairwise_cons.2 ⟨?_, List.pairwise_cons.2 ⟨?_, List.pairwise_singleton _ _⟩⟩⟩
  · simp only [List.mem_cons, List.not_mem_nil, or_false, forall_eq_or_imp, forall_eq]
    exact ⟨w1, w2⟩
  · simpa using w3
  · simp only [List.mem_cons, List.not_mem_nil, or_false, forall_eq_or_imp, forall_eq]
    exact ⟨w1.halfBelow.below, w2.halfBelow.below⟩
  · simpa using w3.halfBelow.below

/-- C117, full statement for expansions that are strongly nonoverlapping: the file says that `grow_expansion` keeps them so. It
does not: with double, `1 + 2` and `2^53` give `1 + 0 + (2^53 + 2)`, where the last component is adjacent to the first and has
two bits. -/
theorem C117_grow_strong_refuted : ¬ ∀ (e : List ℚ) (b : ℚ), (∀ a ∈ e, IsFloat 53 a) → IsFloat 53 b →
    StronglyNonoverlapping e → StronglyNonoverlapping (growExpansion (roundBits 53) e b) := by
  intro h
  have o1 : OneBit (1 : ℚ) := ⟨0, by norm_num⟩
  have o2 : OneBit (2 : ℚ) := ⟨1, by norm_num⟩
  have hb : Below (1 : ℚ) 2 := ⟨1, ⟨1, by norm_num⟩, by norm_num⟩
  have hf : ([1, 2] : List ℚ).filter (· ≠ 0) = [1, 2] := by decide +kernel
  have hs := h [1, 2] (2 ^ 53) (by
    intro a ha
    simp only [List.mem_cons, List.not_mem_nil, or_false] at ha
    rcases ha with rfl | rfl
    · exact ⟨1, 0, by decide +kernel, by norm_num⟩
    · exact ⟨1, 1, by decide +kernel, by norm_num⟩) ⟨1, 53, by decide +kernel, by norm_num⟩
    ⟨by unfold Nonoverlapping; rw [hf]; simp [hb], by rw [hf]; simp [o1, o2], fun a b c hs => by
      rw [hf] at hs
      have := hs.length_le
      simp at this⟩
  have hr : (growExpansion (roundBits 53) [1, 2] (2 ^ 53 : ℚ)).filter (· ≠ 0) = [1, 2 ^ 53 + 2] := by decide +kernel
  have := hs.oneBit
  rw [hr] at this
  simp only [List.pairwise_cons, List.mem_singleton, forall_eq, List.not_mem_nil, false_implies, implies_true, true_and,
    and_true, List.Pairwise.nil] at this
  rcases this with ⟨e, ⟨m, h1⟩, h2⟩ | ⟨-, e, h1⟩
  · have he : 2 ≤ e := by
      by_contra hc
      have := two_zpow_le (K := ℚ) (show e - 1 ≤ 0 by omega)
      norm_num at this h2
      linarith
    obtain ⟨n, hn⟩ := OnGrid.mono (K := ℚ) (a := 2) ⟨m, h1⟩ he
    have : ((2 ^ 53 + 2 : ℤ) : ℚ) = ((n * 4 : ℤ) : ℚ) := by norm_num at hn ⊢; exact hn
    have := Int.cast_injective this
    omega
  · have k1 : (2 : ℚ) ^ (53 : ℤ) < 2 ^ e := by rw [← h1]; norm_num
    have k2 : (2 : ℚ) ^ e < 2 ^ (54 : ℤ) := by rw [← h1]; norm_num
    rw [two_zpow_lt_iff] at k1 k2
    omega

/-- C117: `expansion_sum` adds exactly and keeps expansions nonoverlapping or nonadjacent. It must not be called with a second
expansion that is empty. -/
theorem C117_sum {p : Nat} (hp : 3 ≤ p) {e f : List K} (f0 : f ≠ []) (he : ∀ a ∈ e, IsFloat p a) (hf : ∀ a ∈ f, IsFloat p a) :
    ∃ h, expansionSum (roundBits p) e f = .ok h ∧ h.sum = e.sum + f.sum ∧ (∀ a ∈ h, IsFloat p a) ∧
      h.length = e.length + f.length ∧ (Nonoverlapping e → Nonoverlapping f → Nonoverlapping h) ∧
      (Nonadjacent e → Nonadjacent f → Nonadjacent h) := by
  obtain ⟨h, h1, h2, h3, h4, h5⟩ := expansionSum_spec hp (k := 0) (by norm_num) f0 he hf
  obtain ⟨h', h1', -, -, -, h5'⟩ := expansionSum_spec hp (k := 1) (by norm_num) f0 he hf
  obtain rfl : h = h' := by rw [h1] at h1'; exact Except.ok.inj h1'
  refine ⟨h, h1, h2, h3, h4, fun ne nf => ?_, fun ne nf => ?_⟩
  · exact (nonoverlapping_iff h3).2 (h5 ((nonoverlapping_iff he).1 ne) ((nonoverlapping_iff hf).1 nf))
  · exact (nonadjacent_iff h3).2 (h5' ((nonadjacent_iff he).1 ne) ((nonadjacent_iff hf).1 nf))

/-- C117: `expansion_sum_zeroelim1` does the same and leaves no zeros, unless the sum is zero. -/
theorem C117_sum_zeroelim1 {p : Nat} (hp : 3 ≤ p) {e f : List K} (f0 : f ≠ []) (he : ∀ a ∈ e, IsFloat p a)
    (hf : ∀ a ∈ f, IsFloat p a) :
    ∃ h, expansionSumZ1 (roundBits p) e f = .ok h ∧ h.sum = e.sum + f.sum ∧ (∀ a ∈ h, IsFloat p a) ∧ h ≠ [] ∧
      h.length ≤ e.length + f.length ∧ (h = [0] ∨ ∀ a ∈ h, a ≠ 0) ∧
      (Nonoverlapping e → Nonoverlapping f → Nonoverlapping h) ∧ (Nonadjacent e → Nonadjacent f → Nonadjacent h) := by
  obtain ⟨g, g1, g2, g3, g4, g5, g6⟩ := C117_sum hp f0 he hf
  have g0 : g ≠ [] := List.ne_nil_of_length_pos (by
    have := List.length_pos_iff.2 f0
    omega)
  obtain ⟨d1, d2, d3, d4, d5, d6⟩ := dropZeros_spec g
  have h0 : expansionSumZ1 (roundBits p) e f = .ok (dropZeros g) := by
    rw [expansionSumZ1, g1]
    unfold dropZeros
    rcases heq : g.filter (· ≠ 0) with _ | ⟨x, t⟩
    · simp only [heq]
      cases g with
      | nil => exact absurd rfl g0
      | cons y g =>
        have : y = 0 := by
          by_contra hy
          rw [List.filter_cons_of_pos (by simpa using hy)] at heq
          exact absurd heq (by simp)
        simp [this]
    · simp only [heq]
  refine ⟨_, h0, by rw [d1, g2], fun a ha => ?_, d3, by rw [← g4]; exact d5 g0, d4, fun ne nf => ?_, fun ne nf => ?_⟩
  · rcases d6 a ha with rfl | h
    · exact isFloat_zero p
    · exact g3 a h
  · have := g5 ne nf
    unfold Nonoverlapping at this ⊢
    rwa [d2]
  · have := g6 ne nf
    unfold Nonadjacent at this ⊢
    rwa [d2]

/-- C117: `expansion_sum_zeroelim2` does the same; the last component can be zero. -/
theorem C117_sum_zeroelim2 {p : Nat} (hp : 3 ≤ p) {e f : List K} (f0 : f ≠ []) (he : ∀ a ∈ e, IsFloat p a)
    (hf : ∀ a ∈ f, IsFloat p a) :
    ∃ h, expansionSumZ2 (roundBits p) e f = .ok h ∧ h.sum = e.sum + f.sum ∧ (∀ a ∈ h, IsFloat p a) ∧
      h.length ≤ e.length + f.length ∧ (∀ a ∈ h.dropLast, a ≠ 0) ∧
      (Nonoverlapping e → Nonoverlapping h) ∧ (Nonadjacent e → Nonadjacent h) := by
  obtain ⟨h, h1, h2, h3, h4, h5, h6⟩ := expansionSumZ2_spec hp (k := 0) (by norm_num) f0 he hf
  obtain ⟨h', h1', -, -, -, -, h6'⟩ := expansionSumZ2_spec hp (k := 1) (by norm_num) f0 he hf
  obtain rfl : h = h' := by rw [h1] at h1'; exact Except.ok.inj h1'
  refine ⟨h, h1, h2, h3, h4, h5, fun ne => ?_, fun ne => ?_⟩
  · exact (nonoverlapping_iff h3).2 (h6 ((nonoverlapping_iff he).1 ne))
  · exact (nonadjacent_iff h3).2 (h6' ((nonadjacent_iff he).1 ne))

example : expansionSum (roundBits 4 : ℚ → ℚ) [1 / 4, 8, 64] [15, 96] = .ok [1 / 4, -1, 0, -8, 192] ∧
    expansionSumZ1 (roundBits 4 : ℚ → ℚ) [1 / 4, 8, 64] [15, 96] = .ok [1 / 4, -1, -8, 192] ∧
    expansionSumZ2 (roundBits 4 : ℚ → ℚ) [1 / 4, 8, 64] [15, 96] = .ok [1 / 4, -1, -8, 192] ∧
    expansionSumZ2 (roundBits 4 : ℚ → ℚ) [1, 8] [-1, -8] = .ok [0] := by decide +kernel

/-- C117, `fast_expansion_sum`, if there is something to read behind both arrays: the sum is exact. For two expansions that are
strongly nonoverlapping, nonadjacent, or at least nearly nonadjacent, the result is nearly nonadjacent and so nonoverlapping.
Not all that the file says: the result need not be strongly nonoverlapping. -/
theorem C117_fast_partial {p : Nat} (hp : 6 ≤ p) {e f : List K} (e0 : e ≠ []) (f0 : f ≠ []) (he : ∀ a ∈ e, IsFloat p a)
    (hf : ∀ a ∈ f, IsFloat p a) (ne : NearlyNonadjacent e ∨ StronglyNonoverlapping e ∨ Nonadjacent e)
    (nf : NearlyNonadjacent f ∨ StronglyNonoverlapping f ∨ Nonadjacent f) :
    ∃ h, fastExpansionSum (roundBits p) true e f = .ok h ∧ h.sum = e.sum + f.sum ∧ (∀ a ∈ h, IsFloat p a) ∧
      h.length = e.length + f.length ∧ NearlyNonadjacent h ∧ Nonoverlapping h := by
  have near : ∀ l : List K, NearlyNonadjacent l ∨ StronglyNonoverlapping l ∨ Nonadjacent l → NearlyNonadjacent l := by
    rintro l (h | h | h)
    · exact h
    · exact h.nearly
    · exact h.nearly
  have ne' := near e ne
  have nf' := near f nf
  obtain ⟨h, h1, h2, h3, h4, h5⟩ := fastExpansionSum_exact (by omega) e0 f0 he hf ne'.nonoverlapping.sortedNZ
    nf'.nonoverlapping.sortedNZ
  exact ⟨h, h1, h2, h3, h4, h5 hp ne' nf', (h5 hp ne' nf').nonoverlapping⟩

/-- C117: the same for `fast_expansion_sum_zeroelim`, which leaves no zeros unless the sum is zero. The last component has the
sign of the sum and differs from it by at most three quarters of its own size. -/
theorem C117_fast_zeroelim_partial {p : Nat} (hp : 6 ≤ p) {e f : List K} (e0 : e ≠ []) (f0 : f ≠ [])
    (he : ∀ a ∈ e, IsFloat p a) (hf : ∀ a ∈ f, IsFloat p a)
    (ne : NearlyNonadjacent e ∨ StronglyNonoverlapping e ∨ Nonadjacent e)
    (nf : NearlyNonadjacent f ∨ StronglyNonoverlapping f ∨ Nonadjacent f) :
    ∃ h, fastExpansionSumZ (roundBits p) true e f = .ok h ∧ h.sum = e.sum + f.sum ∧ (∀ a ∈ h, IsFloat p a) ∧ h ≠ [] ∧
      h.length ≤ e.length + f.length ∧ (h = [0] ∨ ∀ a ∈ h, a ≠ 0) ∧ NearlyNonadjacent h ∧ Nonoverlapping h ∧
      ∃ d, h.getLast? = some d ∧ |h.sum - d| ≤ 3 / 4 * |d| ∧ SignType.sign d = SignType.sign h.sum := by
  have near : ∀ l : List K, NearlyNonadjacent l ∨ StronglyNonoverlapping l ∨ Nonadjacent l → NearlyNonadjacent l := by
    rintro l (h | h | h)
    · exact h
    · exact h.nearly
    · exact h.nearly
  have ne' := near e ne
  have nf' := near f nf
  obtain ⟨h, h1, h2, h3, h4, h5, h6, h7⟩ := fastExpansionSumZ_spec hp e0 f0 he hf ne' nf'
  refine ⟨h, h1, h2, h3, h4, h5, h7, h6, h6.nonoverlapping, ?_⟩
  obtain ⟨d, d1, d2, d3⟩ := lastOf_fastZ hp e0 f0 he hf ne' nf'
  rw [← h2] at d2 d3
  rw [h1, lastOf] at d1
  refine ⟨d, ?_, d2, d3⟩
  cases hl : h.getLast? with
  | none => rw [hl] at d1; exact absurd d1 (by simp)
  | some x => rw [hl] at d1; simp only [Except.ok.injEq] at d1; rw [d1]

example : fastExpansionSum (roundBits 6 : ℚ → ℚ) true [1 / 4, 8, 64] [-7, 96] = .ok [0, 0, -3 / 4, 2, 160] ∧
    fastExpansionSumZ (roundBits 6 : ℚ → ℚ) true [1 / 4, 8, 64] [-7, 96] = .ok [-3 / 4, 2, 160] := by decide +kernel

/-- C117, full statement of the file: `fast_expansion_sum` keeps expansions strongly nonoverlapping. It does not: with double,
`-(2^53 - 1)` and `(2^50 - 1/2) + 2^51 + 2^52` give `-1/2` and `-(2^50 - 1)`, which are adjacent, and the second has more than
one bit. -/
theorem C117_fast_strong_refuted : ¬ ∀ (e f h : List ℚ), (∀ a ∈ e, IsFloat 53 a) → (∀ a ∈ f, IsFloat 53 a) →
    StronglyNonoverlapping e → StronglyNonoverlapping f → fastExpansionSum (roundBits 53) true e f = .ok h →
    StronglyNonoverlapping h := by
  intro h
  have hf1 : ([-(2 ^ 53 - 1)] : List ℚ).filter (· ≠ 0) = [-(2 ^ 53 - 1)] := by decide +kernel
  have hf2 : ([2 ^ 50 - 1 / 2, 2 ^ 51, 2 ^ 52] : List ℚ).filter (· ≠ 0) = [2 ^ 50 - 1 / 2, 2 ^ 51, 2 ^ 52] := by
    decide +kernel
  have w1 : WellBelow (2 ^ 50 - 1 / 2 : ℚ) (2 ^ 51) := ⟨51, ⟨1, by norm_num⟩, by
    rw [abs_of_pos (by norm_num)]; norm_num⟩
  have w2 : WellBelow (2 ^ 50 - 1 / 2 : ℚ) (2 ^ 52) := ⟨52, ⟨1, by norm_num⟩, by
    rw [abs_of_pos (by norm_num)]; norm_num⟩
  have o1 : OneBit (2 ^ 51 : ℚ) := ⟨51, by rw [abs_of_pos (by norm_num)]; norm_num⟩
  have o2 : OneBit (2 ^ 52 : ℚ) := ⟨52, by rw [abs_of_pos (by norm_num)]; norm_num⟩
  have b1 : Below (2 ^ 51 : ℚ) (2 ^ 52) := ⟨52, ⟨1, by norm_num⟩, by rw [abs_of_pos (by norm_num)]; norm_num⟩
  have hs := h [-(2 ^ 53 - 1)] [2 ^ 50 - 1 / 2, 2 ^ 51, 2 ^ 52] [0, -1 / 2, 0, -(2 ^ 50 - 1)]
    (by
      intro a ha
      rw [List.mem_singleton] at ha
      subst ha
      exact ⟨-(2 ^ 53 - 1), 0, by decide +kernel, by norm_num⟩)
    (by
      intro a ha
      simp only [List.mem_cons, List.not_mem_nil, or_false] at ha
      rcases ha with rfl | rfl | rfl
      · exact ⟨2 ^ 51 - 1, -1, by decide +kernel, by norm_num⟩
      · exact ⟨1, 51, by decide +kernel, by norm_num⟩
      · exact ⟨1, 52, by decide +kernel, by norm_num⟩)
    ⟨by unfold Nonoverlapping; rw [hf1]; simp, by rw [hf1]; simp, fun a b c hs => by
      rw [hf1] at hs
      have := hs.length_le
      simp at this⟩
    ⟨by unfold Nonoverlapping; rw [hf2]; exact List.pairwise_cons.2 ⟨by
          intro a ha
          simp only [List.mem_cons, List.not_mem_nil, or_false] at ha
          rcases ha with rfl | rfl
          · exact w1.halfBelow.below
          · exact w2.halfBelow.below, List.pairwise_cons.2 ⟨by
            intro a ha
            rw [List.mem_singleton] at ha
            subst ha
            exact b1, List.pairwise_singleton _ _⟩⟩,
      by rw [hf2]; exact List.pairwise_cons.2 ⟨by
          intro a ha
          simp only [List.mem_cons, List.not_mem_nil, or_false] at ha
          rcases ha with rfl | rfl
          · exact Or.inl w1
          · exact Or.inl w2, List.pairwise_cons.2 ⟨by
            intro a ha
            rw [List.mem_singleton] at ha
            subst ha
            exact Or.inr ⟨o1, o2⟩, List.pairwise_singleton _ _⟩⟩,
      fun a b c hs => by
        rw [hf2] at hs
        have := hs.eq_of_length rfl
        simp only [List.cons.injEq, and_true] at this
        obtain ⟨rfl, rfl, rfl⟩ := this
        exact Or.inl w1⟩
    (by decide +kernel)
  have hr : ([0, -1 / 2, 0, -(2 ^ 50 - 1)] : List ℚ).filter (· ≠ 0) = [-1 / 2, -(2 ^ 50 - 1)] := by decide +kernel
  have := hs.oneBit
  rw [hr] at this
  simp only [List.pairwise_cons, List.mem_singleton, forall_eq, List.not_mem_nil, false_implies, implies_true, true_and,
    and_true, List.Pairwise.nil] at this
  rcases this with ⟨e, ⟨m, h1⟩, h2⟩ | ⟨-, e, h1⟩
  · have he : 1 ≤ e := by
      by_contra hc
      have := two_zpow_le (K := ℚ) (show e - 1 ≤ -1 by omega)
      rw [abs_of_neg (by norm_num)] at h2
      norm_num at this h2
      linarith
    obtain ⟨n, hn⟩ := OnGrid.mono (K := ℚ) (a := 1) ⟨m, h1⟩ he
    have : ((-(2 ^ 50 - 1) : ℤ) : ℚ) = ((n * 2 : ℤ) : ℚ) := by norm_num at hn ⊢; exact hn
    have := Int.cast_injective this
    omega
  · rw [abs_of_neg (by norm_num)] at h1
    have k1 : (2 : ℚ) ^ (49 : ℤ) < 2 ^ e := by rw [← h1]; norm_num
    have k2 : (2 : ℚ) ^ e < 2 ^ (50 : ℤ) := by rw [← h1]; norm_num
    rw [two_zpow_lt_iff] at k1 k2
    omega

/-- C117, full statement: `fast_expansion_sum` reads only the components of its arguments. It never does: it always reads the
element behind the last of one of the two arrays. -/
theorem C117_fast_bounds_refuted (fl : K → K) (e f : List K) :
    fastExpansionSum fl false e f = .error .outOfRange ∧ fastExpansionSumZ fl false e f = .error .outOfRange := by
  refine ⟨fastExpansionSum_no_slack fl e f, ?_⟩
  rw [fastExpansionSumZ, fastExpansionSum_no_slack]

/-- C117: `estimate` has a relative error of at most two units of rounding. -/
theorem C117_estimate {p : Nat} (hp : 1 ≤ p) {e : List K} (e0 : e ≠ []) (he : ∀ a ∈ e, IsFloat p a) (hn : Nonadjacent e) :
    ∃ Q, estimate (roundBits p) e = .ok Q ∧ IsFloat p Q ∧ |Q - e.sum| ≤ 2 * (1 / 2 ^ p) * |e.sum| :=
  estimate_spec hp e0 he hn

example : estimate (roundBits 4 : ℚ → ℚ) [1, 8, 64] = .ok 72 := by decide +kernel

end Geometrix
