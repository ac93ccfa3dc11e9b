import Mathlib.Data.Rat.Floor
import Verif.Lemmas.LinearSum

/-!
# C119: scaling, merging and compressing expansions
-/

set_option linter.unusedSectionVars false

namespace Geometrix

open Spec

variable {K : Type*} [Field K] [LinearOrder K] [IsStrictOrderedRing K] [FloorRing K]

/-- C119, `scale_expansion`: the product is exact, and if the expansion is nonoverlapping, nonadjacent, or nearly nonadjacent,
then so is the product. Not all that the file says: the product of an expansion that is strongly nonoverlapping need not be
strongly nonoverlapping; it is nearly nonadjacent. -/
theorem C119_scale_partial {p turns : Nat} (hp : 6 ≤ p) (ht : p ≤ turns) {c : ExactConsts K}
    (hc : exactInit (roundBits p) turns = .ok c) {e : List K} {b : K} (e0 : e ≠ []) (he : ∀ a ∈ e, IsFloat p a)
    (hb : IsFloat p b) : ∃ h, scaleExpansion (roundBits p) c.splitter e b = .ok h ∧ h.sum = e.sum * b ∧
    (∀ a ∈ h, IsFloat p a) ∧ h.length = 2 * e.length ∧ (Nonoverlapping e → Nonoverlapping h) ∧
    (Nonadjacent e → Nonadjacent h) ∧ (NearlyNonadjacent e ∨ StronglyNonoverlapping e → NearlyNonadjacent h) := by
  rw [exactInit_eq hp ht, Except.ok.injEq] at hc
  subst hc
  obtain ⟨h, h1, h2, h3, h4, h5, h6, h7, -⟩ := scaleExpansion_spec (s := (p + 1) / 2)
    ⟨by omega, by omega, by omega, by omega⟩ e0 he hb
  refine ⟨h, h1, h2, h3, h4, h5, h6, fun hn => h7 ?_⟩
  rcases hn with hn | hn
  · exact hn
  · exact hn.nearly

/-- C119, `scale_expansion_zeroelim`, for an expansion that is nonoverlapping: the same, and no zeros are left unless the product
is zero. -/
theorem C119_scale_zeroelim_partial {p turns : Nat} (hp : 6 ≤ p) (ht : p ≤ turns) {c : ExactConsts K}
    (hc : exactInit (roundBits p) turns = .ok c) {e : List K} {b : K} (e0 : e ≠ []) (he : ∀ a ∈ e, IsFloat p a)
    (hb : IsFloat p b) (hn : Nonoverlapping e) :
    ∃ h, scaleExpansionZ (roundBits p) c.splitter e b = .ok h ∧ h.sum = e.sum * b ∧
    (∀ a ∈ h, IsFloat p a) ∧ h ≠ [] ∧ h.length ≤ 2 * e.length ∧ (h = [0] ∨ ∀ a ∈ h, a ≠ 0) ∧ Nonoverlapping h ∧
    (Nonadjacent e → Nonadjacent h) ∧ (NearlyNonadjacent e ∨ StronglyNonoverlapping e → NearlyNonadjacent h) := by
  rw [exactInit_eq hp ht, Except.ok.injEq] at hc
  subst hc
  obtain ⟨h, -, h2, h3, h4, h5, h6, h7, h8⟩ := scaleExpansion_spec (s := (p + 1) / 2)
    ⟨by omega, by omega, by omega, by omega⟩ e0 he hb
  have hl := List.length_pos_iff.2 e0
  obtain ⟨d1, d2, d3, d4, d5, d6⟩ := dropZeros_spec h
  refine ⟨dropZeros h, h8 hn, by rw [d1, h2], fun a ha => ?_, d3, ?_, d4, ?_, fun h' => ?_, fun h' => ?_⟩
  · rcases d6 a ha with rfl | h
    · exact isFloat_zero p
    · exact h3 a h
  · rw [← h4]
    exact d5 (List.ne_nil_of_length_pos (by omega))
  · have := h5 hn
    unfold Nonoverlapping at this ⊢
    rwa [d2]
  · have := h6 h'
    unfold Nonadjacent at this ⊢
    rwa [d2]
  · obtain ⟨n1, n2⟩ := h7 (by
      rcases h' with h' | h'
      · exact h'
      · exact h'.nearly)
    exact ⟨by rwa [d2], by rwa [d2]⟩

example : scaleExpansion (roundBits 6 : ℚ → ℚ) 9 [1 / 4, 8, 64] 51 = .ok [0, 0, -13 / 4, 0, -24, 3712] ∧
    scaleExpansionZ (roundBits 6 : ℚ → ℚ) 9 [1 / 4, 8, 64] 51 = .ok [-13 / 4, -24, 3712] ∧
    (exactInit (roundBits 6 : ℚ → ℚ) 6).map ExactConsts.splitter = .ok 9 := by decide +kernel

/-- C119, full statement of the file: `scale_expansion` keeps expansions strongly nonoverlapping. It does not: with double,
`3 + 8 - 16` times `2^53 - 5` gives a second component `8` that is adjacent to the last, which has more than one bit. -/
theorem C119_scale_strong_refuted : ¬ ∀ (e h : List ℚ) (b : ℚ), (∀ a ∈ e, IsFloat 53 a) → IsFloat 53 b →
    StronglyNonoverlapping e → scaleExpansion (roundBits 53) (2 ^ 27 + 1) e b = .ok h → StronglyNonoverlapping h := by
  intro h
  have hf1 : ([3, 8, -16] : List ℚ).filter (· ≠ 0) = [3, 8, -16] := by decide +kernel
  have w1 : WellBelow (3 : ℚ) 8 := ⟨3, ⟨1, by norm_num⟩, by rw [abs_of_pos (by norm_num)]; norm_num⟩
  have w2 : WellBelow (3 : ℚ) (-16) := ⟨4, ⟨-1, by norm_num⟩, by rw [abs_of_pos (by norm_num)]; norm_num⟩
  have o1 : OneBit (8 : ℚ) := ⟨3, by rw [abs_of_pos (by norm_num)]; norm_num⟩
  have o2 : OneBit (-16 : ℚ) := ⟨4, by rw [abs_of_neg (by norm_num)]; norm_num⟩
  have b1 : Below (8 : ℚ) (-16) := ⟨4, ⟨-1, by norm_num⟩, by rw [abs_of_pos (by norm_num)]; norm_num⟩
  have hs := h [3, 8, -16] [1, 0, 8, 0, 0, -45035996273704944] (2 ^ 53 - 5)
    (by
      intro a ha
      simp only [List.mem_cons, List.not_mem_nil, or_false] at ha
      rcases ha with rfl | rfl | rfl
      · exact ⟨3, 0, by decide +kernel, by norm_num⟩
      · exact ⟨1, 3, by decide +kernel, by norm_num⟩
      · exact ⟨-1, 4, by decide +kernel, by norm_num⟩)
    ⟨2 ^ 53 - 5, 0, by decide +kernel, by norm_num⟩
    ⟨by unfold Nonoverlapping; rw [hf1]; exact List.pairwise_cons.2 ⟨by
          intro a ha
          simp only [List.mem_cons, List.not_mem_nil, or_false] at ha
          rcases ha with rfl | rfl
          · exact w1.halfBelow.below
          · exact w2.halfBelow.below, List.pairwise_cons.2 ⟨by
            intro a ha
            rw [List.mem_singleton] at ha
            subst ha
            exact b1, List.pairwise_singleton _ _⟩⟩,
      by rw [hf1]; exact List.pairwise_cons.2 ⟨by
          intro a ha
          simp only [List.mem_cons, List.not_mem_nil, or_false] at ha
          rcases ha with rfl | rfl
          · exact Or.inl w1
          · exact Or.inl w2, List.pairwise_cons.2 ⟨by
            intro a ha
            rw [List.mem_singleton] at ha
            subst ha
            exact Or.inr ⟨o1, o2⟩, List.pairwise_singleton _ _⟩⟩,
      fun a b c hs => by
        rw [hf1] at hs
        have := hs.eq_of_length rfl
        simp only [List.cons.injEq, and_true] at this
        obtain ⟨rfl, rfl, rfl⟩ := this
        exact Or.inl w1⟩
    (by decide +kernel)
  have hr : ([1, 0, 8, 0, 0, -45035996273704944] : List ℚ).filter (· ≠ 0) = [1, 8, -45035996273704944] := by decide +kernel
  have := hs.oneBit
  rw [hr] at this
  have := (List.pairwise_cons.1 (List.pairwise_cons.1 this).2).1 _ (List.mem_singleton.2 rfl)
  rcases this with ⟨e, ⟨m, h1⟩, h2⟩ | ⟨-, e, h1⟩
  · have he : 5 ≤ e := by
      by_contra hc
      have := two_zpow_le (K := ℚ) (show e - 1 ≤ 3 by omega)
      rw [abs_of_pos (by norm_num)] at h2
      norm_num at this h2
      linarith
    obtain ⟨n, hn⟩ := OnGrid.mono (K := ℚ) (a := 5) ⟨m, h1⟩ he
    have : ((-45035996273704944 : ℤ) : ℚ) = ((n * 32 : ℤ) : ℚ) := by norm_num at hn ⊢; exact hn
    have := Int.cast_injective this
    omega
  · rw [abs_of_neg (by norm_num)] at h1
    have k1 : (2 : ℚ) ^ (55 : ℤ) < 2 ^ e := by rw [← h1]; norm_num
    have k2 : (2 : ℚ) ^ e < 2 ^ (56 : ℤ) := by rw [← h1]; norm_num
    rw [two_zpow_lt_iff] at k1 k2
    omega

/-- C119, `linear_expansion_sum`, if there is something to read behind both arrays: it adds two nonoverlapping expansions exactly
and the result is nonoverlapping. -/
theorem C119_linear_partial {p : Nat} (hp : 3 ≤ p) {e f : List K} (e0 : e ≠ []) (f0 : f ≠ []) (he : ∀ a ∈ e, IsFloat p a)
    (hf : ∀ a ∈ f, IsFloat p a) (ne : Nonoverlapping e) (nf : Nonoverlapping f) :
    ∃ h, linearExpansionSum (roundBits p) true e f = .ok h ∧ h.sum = e.sum + f.sum ∧ (∀ a ∈ h, IsFloat p a) ∧
      h.length = e.length + f.length ∧ Nonoverlapping h :=
  linearExpansionSum_spec hp e0 f0 he hf ne nf

/-- C119: the same for `linear_expansion_sum_zeroelim`, which leaves no zeros unless the sum is zero. -/
theorem C119_linear_zeroelim_partial {p : Nat} (hp : 3 ≤ p) {e f : List K} (e0 : e ≠ []) (f0 : f ≠ [])
    (he : ∀ a ∈ e, IsFloat p a) (hf : ∀ a ∈ f, IsFloat p a) (ne : Nonoverlapping e) (nf : Nonoverlapping f) :
    ∃ h, linearExpansionSumZ (roundBits p) true e f = .ok h ∧ h.sum = e.sum + f.sum ∧ (∀ a ∈ h, IsFloat p a) ∧ h ≠ [] ∧
      h.length ≤ e.length + f.length ∧ (h = [0] ∨ ∀ a ∈ h, a ≠ 0) ∧ Nonoverlapping h := by
  obtain ⟨h, h1, h2, h3, h4, h5⟩ := linearExpansionSum_spec hp e0 f0 he hf ne nf
  have hl := List.length_pos_iff.2 e0
  obtain ⟨d1, d2, d3, d4, d5, d6⟩ := dropZeros_spec h
  refine ⟨dropZeros h, ?_, by rw [d1, h2], fun a ha => ?_, d3, ?_, d4, ?_⟩
  · rw [linearExpansionSumZ, h1]
    unfold dropZeros
    rcases heq : h.filter (· ≠ 0) with _ | ⟨x, t⟩
    · simp only [heq]
    · simp only [heq]
  · rcases d6 a ha with rfl | h
    · exact isFloat_zero p
    · exact h3 a h
  · rw [← h4]
    exact d5 (List.ne_nil_of_length_pos (by omega))
  · unfold Nonoverlapping at h5 ⊢
    rwa [d2]

example : linearExpansionSum (roundBits 4 : ℚ → ℚ) true [1 / 4, 8, 64] [-7, 96] = .ok [1 / 4, 0, 1, 0, 160] ∧
    linearExpansionSumZ (roundBits 4 : ℚ → ℚ) true [1 / 4, 8, 64] [-7, 96] = .ok [1 / 4, 1, 160] := by decide +kernel

/-- C119, full statement: `linear_expansion_sum` reads only the components of its arguments. It never does: it always reads the
element behind the last of one of the two arrays. -/
theorem C119_linear_bounds_refuted (fl : K → K) (e f : List K) :
    linearExpansionSum fl false e f = .error .outOfRange ∧ linearExpansionSumZ fl false e f = .error .outOfRange := by
  refine ⟨linearExpansionSum_no_slack fl e f, ?_⟩
  rw [linearExpansionSumZ, linearExpansionSum_no_slack]

/-- C119: `compress` turns a nonoverlapping expansion into a nonadjacent one with the same sum, at most as many components, and no
zeros unless the sum is zero. -/
theorem C119_compress {p : Nat} (hp : 2 ≤ p) {e : List K} (e0 : e ≠ []) (he : ∀ a ∈ e, IsFloat p a) (hn : Nonoverlapping e) :
    ∃ h, compress (roundBits p) e = .ok h ∧ h.sum = e.sum ∧ (∀ a ∈ h, IsFloat p a) ∧ h ≠ [] ∧ h.length ≤ e.length ∧
      Nonadjacent h ∧ (h = [0] ∨ ∀ a ∈ h, a ≠ 0) := by
  obtain ⟨h, h1, h2, h3, h4, h5, h6, h7⟩ := compress_spec hp e0 he hn
  exact ⟨h, h1, h2, h3, h6, h4, h5, h7⟩

example : compress (roundBits 3 : ℚ → ℚ) [6, 0, -112, 512, -8192] = .ok [-2, 24, 384, -8192] ∧
    compress (roundBits 3 : ℚ → ℚ) [2, -12, -16, 0, 128] = .ok [6, 96] := by decide +kernel

/-- C119: none of the functions works on an empty expansion: they read its first component. -/
theorem C119_empty (fl : K → K) (slack : Bool) (splitter b : K) (e : List K) :
    scaleExpansion fl splitter [] b = .error .outOfRange ∧ scaleExpansionZ fl splitter [] b = .error .outOfRange ∧
    linearExpansionSum fl slack [] e = .error .outOfRange ∧ linearExpansionSum fl slack e [] = .error .outOfRange ∧
    compress fl [] = .error .outOfRange := by
  refine ⟨rfl, rfl, rfl, ?_, rfl⟩
  cases e <;> rfl

end Geometrix
