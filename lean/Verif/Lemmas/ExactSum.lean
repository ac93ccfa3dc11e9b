import Verif.Lemmas.FloatGrid
import Verif.Model.Predicates

/-!
The sums and differences of floating point numbers with their errors.
-/

set_option linter.unusedSectionVars false

namespace Geometrix

open Spec

variable {K : Type*} [Field K] [LinearOrder K] [IsStrictOrderedRing K] [FloorRing K]

/-- The error of a sum is a float. -/
theorem sum_err_isFloat {p : Nat} (hp : 1 ≤ p) {a b : K} (ha : IsFloat p a) (hb : IsFloat p b) :
    IsFloat p (a + b - roundBits p (a + b)) := by
  obtain ⟨ea, a1, a2⟩ := ha.grid
  obtain ⟨eb, b1, b2⟩ := hb.grid
  rcases le_total ea eb with h | h
  · have hg : OnGrid ea (a + b) := a1.add (b1.mono h)
    refine isFloat_of hp (hg.sub (hg.round hp)) ?_
    have := roundBits_nearest hp (x := a + b) hb
    rw [add_sub_cancel_right] at this
    exact this.trans a2.le
  · have hg : OnGrid eb (a + b) := (a1.mono h).add b1
    refine isFloat_of hp (hg.sub (hg.round hp)) ?_
    have := roundBits_nearest hp (x := a + b) ha
    rw [add_sub_cancel_left] at this
    exact this.trans b2.le

theorem sum_err_le_left {p : Nat} (hp : 1 ≤ p) {a b : K} (hb : IsFloat p b) : |a + b - roundBits p (a + b)| ≤ |a| := by
  have := roundBits_nearest hp (x := a + b) hb
  rwa [add_sub_cancel_right] at this

theorem sum_err_le_right {p : Nat} (hp : 1 ≤ p) {a b : K} (ha : IsFloat p a) : |a + b - roundBits p (a + b)| ≤ |b| := by
  have := roundBits_nearest hp (x := a + b) ha
  rwa [add_sub_cancel_left] at this

/-- What a sum adds to the larger number is a float. -/
theorem sum_sub_isFloat {p : Nat} (hp : 1 ≤ p) {a b : K} (ha : IsFloat p a) (hb : IsFloat p b) (hab : |b| ≤ |a|) :
    IsFloat p (roundBits p (a + b) - a) := by
  by_cases hb0 : b = 0
  · rw [hb0, add_zero, ha.round hp, sub_self]
    exact isFloat_zero p
  have ha0 : a ≠ 0 := by
    intro h
    rw [h, abs_zero] at hab
    exact hb0 (abs_eq_zero.1 (le_antisymm hab (abs_nonneg b)))
  obtain ⟨eb, b1, b2, b3⟩ := hb.canon hb0
  obtain ⟨ea, a1, a2, a3⟩ := ha.canon ha0
  have hle : eb ≤ ea := by
    have : (p - 1 + eb : ℤ) < p + ea := two_zpow_lt_iff.1 (lt_of_le_of_lt (b2.trans hab) a3)
    omega
  have hg : OnGrid eb (a + b) := (a1.mono hle).add b1
  rcases le_or_gt |a + b| (2 ^ (p + eb : ℤ)) with h | h
  · rw [(isFloat_of hp hg h).round hp, add_sub_cancel_left]
    exact hb
  have hne : a + b ≠ 0 := by
    intro h0
    rw [h0, abs_zero] at h
    exact absurd h (not_lt.2 (two_zpow_pos _).le)
  have herr := sum_err_le_right hp (b := b) ha
  have htri : |roundBits p (a + b) - a| ≤ |a + b - roundBits p (a + b)| + |b| := by
    calc |roundBits p (a + b) - a| = |b - (a + b - roundBits p (a + b))| := by congr 1; ring
      _ ≤ |b| + |a + b - roundBits p (a + b)| := abs_sub _ _
      _ = _ := add_comm _ _
  rcases hle.lt_or_eq with hlt | rfl
  · obtain ⟨e, -, e2, e3, -⟩ := roundBits_spec hp hne
    have : eb < e := by
      have : (p + eb : ℤ) < p + e := two_zpow_lt_iff.1 (h.trans e2)
      omega
    refine isFloat_of hp (e := eb + 1) ((e3.mono (by omega)).sub (a1.mono (by omega))) ?_
    rw [show (p + (eb + 1) : ℤ) = p + eb + 1 by ring, two_zpow_succ]
    linarith
  · have h1 : |a + b| ≤ 2 ^ (p + eb + 1 : ℤ) := by
      rw [two_zpow_succ]
      have := abs_add_le a b
      linarith
    have h2 := roundBits_err hp h1
    rw [show (p + eb + 1 - p - 1 : ℤ) = eb by ring] at h2
    have h3 := b1.abs.step (onGrid_pow (b := p + eb) (by omega)) b3
    refine isFloat_of hp (e := eb) ((hg.round hp).sub a1) ?_
    linarith

/-- `Fast_Two_Sum` is exact. -/
theorem fastTwoSum_eq {p : Nat} (hp : 1 ≤ p) {a b : K} (ha : IsFloat p a) (hb : IsFloat p b) (hab : |b| ≤ |a|) :
    fastTwoSum (roundBits p) a b = (roundBits p (a + b), a + b - roundBits p (a + b)) := by
  unfold fastTwoSum
  simp only
  rw [(sum_sub_isFloat hp ha hb hab).round hp, show b - (roundBits p (a + b) - a) = a + b - roundBits p (a + b) by ring,
    (sum_err_isFloat hp ha hb).round hp]

theorem fastTwoDiff_eq {p : Nat} (hp : 1 ≤ p) {a b : K} (ha : IsFloat p a) (hb : IsFloat p b) (hab : |b| ≤ |a|) :
    fastTwoDiff (roundBits p) a b = (roundBits p (a - b), a - b - roundBits p (a - b)) := by
  have h := sum_sub_isFloat hp ha hb.neg (by rwa [abs_neg])
  have h' := sum_err_isFloat hp ha hb.neg
  rw [← sub_eq_add_neg] at h h'
  unfold fastTwoDiff
  simp only
  rw [show a - roundBits p (a - b) = -(roundBits p (a - b) - a) by ring, h.neg.round hp,
    show -(roundBits p (a - b) - a) - b = a - b - roundBits p (a - b) by ring, h'.round hp]

/-- Sterbenz: the difference of two numbers that are not more than a factor two apart is exact. -/
theorem sterbenz {p : Nat} (hp : 1 ≤ p) {a b : K} (ha : IsFloat p a) (hb : IsFloat p b) (h1 : |a - b| ≤ |a|)
    (h2 : |a - b| ≤ |b|) : IsFloat p (a - b) := by
  obtain ⟨ea, a1, a2⟩ := ha.grid
  obtain ⟨eb, b1, b2⟩ := hb.grid
  rcases le_total ea eb with h | h
  · exact isFloat_of hp (a1.sub (b1.mono h)) (h1.trans a2.le)
  · exact isFloat_of hp ((a1.mono h).sub b1) (h2.trans b2.le)

/-- `Two_Sum` is exact. -/
theorem twoSum_eq {p : Nat} (hp : 3 ≤ p) {a b : K} (ha : IsFloat p a) (hb : IsFloat p b) :
    twoSum (roundBits p) a b = (roundBits p (a + b), a + b - roundBits p (a + b)) := by
  have hp1 : 1 ≤ p := by omega
  unfold twoSum
  simp only [Prod.mk.injEq, true_and]
  have herr := sum_err_isFloat hp1 ha hb
  have hx := roundBits_isFloat hp1 (a + b)
  have e1 := sum_err_le_left hp1 (a := a) hb
  have e2 := sum_err_le_right hp1 (b := b) ha
  rcases le_or_gt |b| |a| with hab | hab
  · rw [(sum_sub_isFloat hp1 ha hb hab).round hp1]
    rw [show roundBits p (a + b) - (roundBits p (a + b) - a) = a by ring, ha.round hp1, sub_self, roundBits_zero, zero_add,
      show b - (roundBits p (a + b) - a) = a + b - roundBits p (a + b) by ring, herr.round hp1, herr.round hp1]
  · -- the sum is exact, or it is at least as large as `a`
    rcases lt_or_ge |a + b| |a| with hs | hs
    · have hex : IsFloat p (a + b) := by
        have := sterbenz hp1 ha hb.neg (by rw [sub_neg_eq_add]; exact hs.le) (by rw [sub_neg_eq_add, abs_neg]; exact (hs.trans hab).le)
        rwa [sub_neg_eq_add] at this
      rw [hex.round hp1, add_sub_cancel_left, hb.round hp1, add_sub_cancel_right, ha.round hp1, sub_self, sub_self,
        roundBits_zero, add_zero, sub_self, roundBits_zero]
    · have hxa : |a| ≤ |roundBits p (a + b)| := by
        have hfa : IsFloat p |a| := by
          rcases abs_choice a with h | h <;> rw [h]
          · exact ha
          · exact ha.neg
        exact le_roundBits_abs hp1 hs hfa
      generalize hxx : roundBits p (a + b) = x at *
      -- `avirt` is exact
      have hav : IsFloat p (x - roundBits p (x - a)) := by
        have := sum_sub_isFloat hp1 hx ha.neg (by rwa [abs_neg])
        rw [← sub_eq_add_neg] at this
        rw [← isFloat_neg_iff, neg_sub]
        exact this
      have har : IsFloat p (x - a - roundBits p (x - a)) := by
        have := sum_err_isFloat hp1 hx ha.neg
        rwa [← sub_eq_add_neg] at this
      -- `bvirt` is near `b`
      have hn := roundBits_nearest hp1 (x := x - a) hb
      have hn' : |x - a - b| = |a + b - x| := by rw [abs_sub_comm]; congr 1; ring
      have hbv : |b - roundBits p (x - a)| ≤ 2 * |a + b - x| := by
        calc |b - roundBits p (x - a)| = |(x - a - roundBits p (x - a)) + (a + b - x)| := by congr 1; ring
          _ ≤ |x - a - roundBits p (x - a)| + |a + b - x| := abs_add_le _ _
          _ ≤ _ := by linarith
      have hb0 : b ≠ 0 := by
        intro h
        rw [h, abs_zero] at hab
        exact absurd hab (not_lt.2 (abs_nonneg a))
      obtain ⟨eb, b1, b2, b3⟩ := hb.canon hb0
      have h1 : |a + b| ≤ 2 ^ (p + eb + 1 : ℤ) := by
        rw [two_zpow_succ]
        have := abs_add_le a b
        linarith
      have h2 := roundBits_err hp1 h1
      rw [show (p + eb + 1 - p - 1 : ℤ) = eb by ring, hxx] at h2
      have h3 : 4 * (2 : K) ^ eb ≤ |b| := by
        refine le_trans ?_ b2
        calc 4 * (2 : K) ^ eb = 2 ^ (2 + eb : ℤ) := by rw [two_zpow_add]; norm_num
          _ ≤ _ := two_zpow_le (by omega)
      have hbr : IsFloat p (b - roundBits p (x - a)) := by
        refine sterbenz hp1 hb (roundBits_isFloat hp1 _) (by linarith) ?_
        have : |b| ≤ |b - roundBits p (x - a)| + |roundBits p (x - a)| := by
          calc |b| = |(b - roundBits p (x - a)) + roundBits p (x - a)| := by congr 1; ring
            _ ≤ _ := abs_add_le _ _
        linarith
      rw [hav.round hp1, hbr.round hp1, show a - (x - roundBits p (x - a)) = -(x - a - roundBits p (x - a)) by ring,
        har.neg.round hp1, show -(x - a - roundBits p (x - a)) + (b - roundBits p (x - a)) = a + b - x by ring, herr.round hp1]

theorem twoDiffTail_eq {p : Nat} (hp : 3 ≤ p) {a b : K} (ha : IsFloat p a) (hb : IsFloat p b) :
    twoDiffTail (roundBits p) a b (roundBits p (a - b)) = a - b - roundBits p (a - b) := by
  have h := twoSum_eq hp ha hb.neg
  unfold twoSum at h
  simp only [Prod.mk.injEq, true_and, ← sub_eq_add_neg] at h
  rw [← h]
  unfold twoDiffTail
  simp only
  rw [show a - roundBits p (a - b) = -(roundBits p (a - b) - a) by ring, roundBits_neg]
  congr 2
  · congr 1
    ring
  · congr 1
    ring

/-- `Two_Diff` is exact. -/
theorem twoDiff_eq {p : Nat} (hp : 3 ≤ p) {a b : K} (ha : IsFloat p a) (hb : IsFloat p b) :
    twoDiff (roundBits p) a b = (roundBits p (a - b), a - b - roundBits p (a - b)) := by
  unfold twoDiff
  simp only
  rw [twoDiffTail_eq hp ha hb]

theorem diff_err_isFloat {p : Nat} (hp : 1 ≤ p) {a b : K} (ha : IsFloat p a) (hb : IsFloat p b) :
    IsFloat p (a - b - roundBits p (a - b)) := by
  have := sum_err_isFloat hp ha hb.neg
  rwa [← sub_eq_add_neg] at this

end Geometrix
