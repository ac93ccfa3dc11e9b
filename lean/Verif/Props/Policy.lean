import Verif.Lemmas.Policy
import Verif.Model.Policy
import Verif.Spec.Order
import Verif.Spec.Policy

/-!
# C01, C02: comparison policies
-/

set_option linter.unusedSectionVars false

namespace Geometrix

open Spec

variable {K : Type*} [Field K] [LinearOrder K]

/-- C01 for the direct policy. -/
theorem C01_direct_coherent : Spec.Coherent (Cmp.direct : Cmp K) where
  trichotomy u v := by
    rcases lt_trichotomy u v with h | h | h
    · left; simp [h, h.ne, h.le]
    · right; left; simp [h]
    · right; right; simp [h, h.ne', h.le]
  le_iff u v := by simp [le_iff_lt_or_eq]
  ge_iff u v := by simp [le_iff_lt_or_eq, eq_comm (a := u)]
  refl u := by simp
  symm u v := by simp [Cmp.direct, eq_comm]
  swap u v := by simp [Cmp.direct]

variable [IsStrictOrderedRing K]

/-- C01 for the absolute tolerance policy, for every tolerance that is not negative. -/
theorem C01_absolute_coherent (e : K) (he : 0 ≤ e) : Spec.Coherent (Cmp.absolute e) where
  trichotomy u v := by
    simp only [Cmp.absolute, absoluteValue_eq, decide_eq_true_eq, ExactlyOne, abs_le]
    rcases lt_trichotomy (u - v) (-e) with h | h | h <;>
    rcases lt_trichotomy (u - v) e with h' | h' | h'
    · left; exact ⟨h, fun ⟨a, _⟩ => by linarith, by linarith⟩
    · left; exact ⟨h, fun ⟨a, _⟩ => by linarith, by linarith⟩
    · exfalso; linarith
    · right; left; exact ⟨by linarith, ⟨h.ge, h'.le⟩, by linarith⟩
    · right; left; exact ⟨by linarith, ⟨h.ge, h'.le⟩, by linarith⟩
    · exfalso; linarith
    · right; left; exact ⟨by linarith, ⟨h.le, h'.le⟩, by linarith⟩
    · right; left; exact ⟨by linarith, ⟨h.le, h'.le⟩, by linarith⟩
    · right; right; exact ⟨by linarith, fun ⟨_, a⟩ => by linarith, h'⟩
  le_iff u v := by
    simp only [Cmp.absolute, absoluteValue_eq, decide_eq_true_eq, abs_le]
    constructor
    · intro h
      rcases lt_or_ge (u - v) (-e) with h' | h'
      · exact Or.inl h'
      · exact Or.inr ⟨h', h⟩
    · rintro (h | ⟨_, h⟩) <;> linarith
  ge_iff u v := by
    simp only [Cmp.absolute, absoluteValue_eq, decide_eq_true_eq, abs_le]
    constructor
    · intro h
      rcases lt_or_ge e (u - v) with h' | h'
      · exact Or.inl h'
      · exact Or.inr ⟨h, h'⟩
    · rintro (h | ⟨h, _⟩) <;> linarith
  refl u := by simp [Cmp.absolute, absoluteValue_eq, he]
  symm u v := by simp [Cmp.absolute, absoluteValue_eq, abs_sub_comm]
  swap u v := by
    simp only [Cmp.absolute]
    congr 1
    apply propext
    constructor <;> intro h <;> linarith

example : (0 : ℚ) ≤ 1 / 100 := by norm_num

/-- C01 for the relative tolerance policy, for every tolerance that is not negative. -/
theorem C01_relative_coherent (e : K) (he : 0 ≤ e) : Spec.Coherent (Cmp.relative e) where
  trichotomy u v := by
    have hs : 0 ≤ e * (|u| + |v| + 1) := by positivity
    simp only [Cmp.relative, absoluteValue_eq, decide_eq_true_eq, ExactlyOne, abs_le, neg_mul]
    generalize e * (|u| + |v| + 1) = e at *
    rcases lt_trichotomy (u - v) (-e) with h | h | h <;>
    rcases lt_trichotomy (u - v) e with h' | h' | h'
    · left; exact ⟨h, fun ⟨a, _⟩ => by linarith, by linarith⟩
    · left; exact ⟨h, fun ⟨a, _⟩ => by linarith, by linarith⟩
    · exfalso; linarith
    · right; left; exact ⟨by linarith, ⟨h.ge, h'.le⟩, by linarith⟩
    · right; left; exact ⟨by linarith, ⟨h.ge, h'.le⟩, by linarith⟩
    · exfalso; linarith
    · right; left; exact ⟨by linarith, ⟨h.le, h'.le⟩, by linarith⟩
    · right; left; exact ⟨by linarith, ⟨h.le, h'.le⟩, by linarith⟩
    · right; right; exact ⟨by linarith, fun ⟨_, a⟩ => by linarith, h'⟩
  le_iff u v := by
    have hs : 0 ≤ e * (|u| + |v| + 1) := by positivity
    simp only [Cmp.relative, absoluteValue_eq, decide_eq_true_eq, abs_le, neg_mul]
    generalize e * (|u| + |v| + 1) = e at *
    constructor
    · intro h
      rcases lt_or_ge (u - v) (-e) with h' | h'
      · exact Or.inl h'
      · exact Or.inr ⟨h', h⟩
    · rintro (h | ⟨_, h⟩) <;> linarith
  ge_iff u v := by
    have hs : 0 ≤ e * (|u| + |v| + 1) := by positivity
    simp only [Cmp.relative, absoluteValue_eq, decide_eq_true_eq, abs_le, neg_mul]
    generalize e * (|u| + |v| + 1) = e at *
    constructor
    · intro h
      rcases lt_or_ge e (u - v) with h' | h'
      · exact Or.inl h'
      · exact Or.inr ⟨h, h'⟩
    · rintro (h | ⟨h, _⟩) <;> linarith
  refl u := by
    have hs : 0 ≤ e * (|u| + |u| + 1) := by positivity
    simp [Cmp.relative, absoluteValue_eq, hs]
  symm u v := by simp [Cmp.relative, absoluteValue_eq, abs_sub_comm, add_comm]
  swap u v := by
    simp only [Cmp.relative, absoluteValue_eq]
    rw [add_comm |v| |u|]
    congr 1
    apply propext
    constructor <;> intro h <;> linarith

/-- C01 for the fraction tolerance policy, for all tolerances (the code takes their absolute
value). -/
theorem C01_fraction_coherent (e a : K) : Spec.Coherent (Cmp.fraction e a) where
  trichotomy u v := by
    by_cases h : fractionEquals e a u v = true
    · right; left; simp [Cmp.fraction, h]
    · have hne : u ≠ v := by
        rintro rfl; exact h (fractionEquals_refl e a u)
      simp only [Bool.not_eq_true] at h
      rcases lt_or_gt_of_ne hne with h' | h'
      · left; simp [Cmp.fraction, h, h', h'.le]
      · right; right; simp [Cmp.fraction, h, h', h'.le]
  le_iff u v := by
    by_cases h : fractionEquals e a u v = true
    · simp [Cmp.fraction, h]
    · have hne : u ≠ v := by
        rintro rfl; exact h (fractionEquals_refl e a u)
      simp only [Bool.not_eq_true] at h
      simp [Cmp.fraction, h, le_iff_lt_or_eq, hne]
  ge_iff u v := by
    by_cases h : fractionEquals e a u v = true
    · simp [Cmp.fraction, h]
    · have hne : u ≠ v := by
        rintro rfl; exact h (fractionEquals_refl e a u)
      simp only [Bool.not_eq_true] at h
      simp [Cmp.fraction, h, le_iff_lt_or_eq, hne.symm]
  refl u := fractionEquals_refl e a u
  symm u v := fractionEquals_symm e a u v
  swap u v := by simp [Cmp.fraction, fractionEquals_symm e a u v]

/-- A negative tolerance breaks the absolute policy: then no number equals itself. The code accepts
such a tolerance without complaint. -/
theorem C01_absolute_negative_tolerance (e : K) (he : e < 0) (u : K) :
    (Cmp.absolute e).equals u u = false := by
  simp [Cmp.absolute, absoluteValue_eq, he]

example : (-1 : ℚ) < 0 := by norm_num

/-! ## C02 -/

/-- C02 for the direct policy. -/
theorem C02_direct_strictWeakOrder : StrictWeakOrder (Cmp.direct : Cmp K).lt where
  irrefl a := by simp
  trans a b c := by simpa using lt_trans
  incomp_trans a b c := by
    simp only [direct_lt_f]
    rintro ⟨h1, h2⟩ ⟨h3, h4⟩
    exact ⟨h3.trans h1, h2.trans h4⟩

/-- C02 is false for the absolute policy with any positive tolerance: incomparability is not
transitive, so `less_than` must not be given to `std::sort` or `std::set`. -/
theorem C02_absolute_refuted (e : K) (he : 0 < e) : ¬ StrictWeakOrder (Cmp.absolute e).lt := by
  intro h
  have h1 := h.incomp_trans 0 e (2 * e)
  simp only [Cmp.absolute, decide_eq_false_iff_not, not_lt] at h1
  have := h1 ⟨by linarith, by linarith⟩ ⟨by linarith, by linarith⟩
  linarith [this.1]

/-- C02 is false for the relative policy with any positive tolerance below one. -/
theorem C02_relative_refuted (e : K) (he : 0 < e) (he1 : e < 1) :
    ¬ StrictWeakOrder (Cmp.relative e).lt := by
  intro h
  -- 0 and a are equal within tolerance when a ≤ e (a + 1), i.e. a = e / (1 - e)
  have h1e : 0 < 1 - e := by linarith
  set a : K := e / (1 - e) with ha
  have ha0 : 0 < a := by positivity
  have hae : a * (1 - e) = e := by rw [ha]; field_simp
  have h1 := h.incomp_trans (-a) 0 a
  simp only [Cmp.relative, decide_eq_false_iff_not, not_lt, absoluteValue_eq, abs_neg, abs_zero,
    abs_of_pos ha0] at h1
  have := h1 ⟨by nlinarith, by nlinarith⟩ ⟨by nlinarith, by nlinarith⟩
  nlinarith [this.1]

example : (0 : ℚ) < 1 / 100 ∧ (1 / 100 : ℚ) < 1 := by norm_num

/-- C02, what remains for the absolute policy with a non negative tolerance: `less_than` is
irreflexive and transitive (a strict partial order). Missing: transitivity of incomparability,
which `C02_absolute_refuted` shows to be false. -/
theorem C02_absolute_partial (e : K) (he : 0 ≤ e) :
    (∀ a, (Cmp.absolute e).lt a a = false) ∧
    (∀ a b c, (Cmp.absolute e).lt a b = true → (Cmp.absolute e).lt b c = true →
      (Cmp.absolute e).lt a c = true) := by
  simp only [Cmp.absolute, decide_eq_true_eq, decide_eq_false_iff_not]
  exact ⟨fun a => by simp [he], fun a b c h1 h2 => by linarith⟩

end Geometrix
