import Verif.Model.Rounded
import Verif.Lemmas.Rounding
import Verif.Lemmas.Orientation
import Verif.Spec.Box
import Mathlib.Tactic.Positivity

/-!
Lemmas about the functions with rounding.
-/

set_option linter.unusedSectionVars false

namespace Geometrix

open Spec

variable {K : Type*} [Field K] [LinearOrder K] [IsStrictOrderedRing K]

/-- The second number is near the first. -/
def Rel (α x x' : K) : Prop := |x' - x| ≤ α * |x|

theorem _root_.Geometrix.Spec.RoundsWithin.u_nonneg {u : K} {fl : K → K} (h : RoundsWithin u fl) : 0 ≤ u := by
  have := h.near 1
  rw [abs_one, mul_one] at this
  exact le_trans (abs_nonneg _) this

theorem _root_.Geometrix.Spec.RoundsWithin.zero {u : K} {fl : K → K} (h : RoundsWithin u fl) : fl 0 = 0 := by
  have := h.near 0
  simpa using this

theorem Rel.fl {u α : K} {fl : K → K} (h : RoundsWithin u fl) {x x' : K} (hx : Rel α x x') :
    Rel ((1 + α) * (1 + u) - 1) x (fl x') := by
  unfold Rel at *
  have hu := h.u_nonneg
  have h1 := h.near x'
  have h2 : |x'| ≤ (1 + α) * |x| := by
    have := abs_add_le (x' - x) x
    rw [sub_add_cancel] at this
    linarith
  have h3 : |fl x' - x| ≤ |fl x' - x'| + |x' - x| := by
    have := abs_add_le (fl x' - x') (x' - x)
    rwa [sub_add_sub_cancel] at this
  have h4 : u * |x'| ≤ u * ((1 + α) * |x|) := mul_le_mul_of_nonneg_left h2 hu
  calc _ ≤ |fl x' - x'| + |x' - x| := h3
    _ ≤ u * ((1 + α) * |x|) + α * |x| := by linarith
    _ = _ := by ring

theorem Rel.mul {α β a a' b b' : K} (hα : 0 ≤ α) (h1 : Rel α a a') (h2 : Rel β b b') :
    Rel ((1 + α) * (1 + β) - 1) (a * b) (a' * b') := by
  unfold Rel at *
  have e : a' * b' - a * b = (a' - a) * b + a * (b' - b) + (a' - a) * (b' - b) := by ring
  rw [e, abs_mul]
  have k1 : |(a' - a) * b| ≤ α * (|a| * |b|) := by
    rw [abs_mul]
    calc _ ≤ α * |a| * |b| := mul_le_mul_of_nonneg_right h1 (abs_nonneg _)
      _ = _ := by ring
  have k2 : |a * (b' - b)| ≤ β * (|a| * |b|) := by
    rw [abs_mul]
    calc _ ≤ |a| * (β * |b|) := mul_le_mul_of_nonneg_left h2 (abs_nonneg _)
      _ = _ := by ring
  have k3 : |(a' - a) * (b' - b)| ≤ α * β * (|a| * |b|) := by
    rw [abs_mul]
    calc _ ≤ α * |a| * (β * |b|) := mul_le_mul h1 h2 (abs_nonneg _) (by positivity)
      _ = _ := by ring
  calc _ ≤ |(a' - a) * b| + |a * (b' - b)| + |(a' - a) * (b' - b)| :=
        le_trans (abs_add_le _ _) (by gcongr; exact abs_add_le _ _)
    _ ≤ α * (|a| * |b|) + β * (|a| * |b|) + α * β * (|a| * |b|) := by linarith
    _ = _ := by ring

theorem rel_round {u : K} {fl : K → K} (h : RoundsWithin u fl) (x : K) : Rel u x (fl x) := h.near x

/-- A product of two rounded numbers. -/
theorem rel_product {u : K} {fl : K → K} (h : RoundsWithin u fl) (a b : K) :
    Rel ((1 + u) ^ 3 - 1) (a * b) (fl (fl a * fl b)) := by
  have := ((rel_round h a).mul h.u_nonneg (rel_round h b)).fl h
  have e : (1 + ((1 + u) * (1 + u) - 1)) * (1 + u) - 1 = (1 + u) ^ 3 - 1 := by ring
  rwa [e] at this

theorem orientation_direct (p q : K) : (orientationOf Cmp.direct p q = .left ↔ q < p) ∧
    (orientationOf Cmp.direct p q = .right ↔ p < q) ∧ (orientationOf Cmp.direct p q = .collinear ↔ p = q) := by
  unfold orientationOf
  simp only [direct_lt, direct_gt]
  rcases lt_trichotomy p q with h | h | h
  · simp [h, h.ne, not_lt.2 h.le]
  · simp [h]
  · simp [h, h.ne', not_lt.2 h.le]

theorem area2_products (A B C : P2 K) :
    area2 A B C = (B.x - A.x) * (C.y - A.y) - (B.y - A.y) * (C.x - A.x) := by
  unfold area2; ring

/-- The two products that the orientation compares. -/
theorem orientation_error {u : K} {fl : K → K} (h : RoundsWithin u fl) (A B C : P2 K) :
    |(fl ((subR fl B A).x * (subR fl C A).y) - fl ((subR fl B A).y * (subR fl C A).x)) - area2 A B C| ≤
      ((1 + u) ^ 3 - 1) * (|(B.x - A.x) * (C.y - A.y)| + |(B.y - A.y) * (C.x - A.x)|) := by
  have h1 := rel_product h (B.x - A.x) (C.y - A.y)
  have h2 := rel_product h (B.y - A.y) (C.x - A.x)
  unfold Rel at h1 h2
  rw [area2_products]
  simp only [subR]
  rw [abs_le] at *
  constructor <;> linarith

section Grid

variable [FloorSemiring K]

theorem makeGridR_ok {fl : K → K} {xmin xmax ymin ymax w : K} {g : GridTraits K}
    (h : makeGridR fl xmin xmax ymin ymax w = .ok g) :
    0 < w ∧ xmin < xmax ∧ ymin < ymax ∧ fl (fl (xmax - xmin) * fl (1 / w)) < 2 ^ 32 ∧
      fl (fl (ymax - ymin) * fl (1 / w)) < 2 ^ 32 ∧
      g = ⟨xmin, xmax, ymin, ymax, w, fl (1 / w), addU32 ⌊fl (fl (xmax - xmin) * fl (1 / w))⌋₊ 1,
        addU32 ⌊fl (fl (ymax - ymin) * fl (1 / w))⌋₊ 1⟩ := by
  unfold makeGridR numericCastU32 at h
  by_cases h1 : w > 0
  swap
  · rw [if_pos h1] at h; cases h
  rw [if_neg (not_not.2 h1)] at h
  by_cases h2 : xmin < xmax ∧ ymin < ymax
  swap
  · rw [if_pos h2] at h; cases h
  rw [if_neg (not_not.2 h2)] at h
  by_cases h3 : fl (fl (xmax - xmin) * fl (1 / w)) ≤ -1 ∨ 2 ^ 32 ≤ fl (fl (xmax - xmin) * fl (1 / w))
  · simp only [if_pos h3] at h; cases h
  by_cases h4 : fl (fl (ymax - ymin) * fl (1 / w)) ≤ -1 ∨ 2 ^ 32 ≤ fl (fl (ymax - ymin) * fl (1 / w))
  · simp only [if_neg h3, if_pos h4] at h; cases h
  simp only [if_neg h3, if_neg h4, Except.ok.injEq] at h
  rw [not_or] at h3 h4
  exact ⟨h1, h2.1, h2.2, not_le.1 h3.2, not_le.1 h4.2, h.symm⟩

theorem addU32_pos {n : Nat} {V : K} (hV : V < 2 ^ 32) (hn : n ≤ ⌊V⌋₊) (h : addU32 ⌊V⌋₊ 1 ≠ 0) : n < addU32 ⌊V⌋₊ 1 := by
  have h1 : ⌊V⌋₊ < 2 ^ 32 := by
    rcases le_or_gt 0 V with h0 | h0
    · rw [Nat.floor_lt h0]
      exact_mod_cast hV
    · rw [Nat.floor_of_nonpos h0.le]; norm_num
  unfold addU32 at *
  rcases Nat.lt_or_ge (⌊V⌋₊ + 1) (2 ^ 32) with h2 | h2
  · rw [Nat.mod_eq_of_lt h2]; omega
  · have : ⌊V⌋₊ + 1 = 2 ^ 32 := by omega
    rw [this] at h
    simp at h

theorem indexR_spec {fl : K → K} (hm : Monotone fl) (h0 : fl 0 = 0) {lo hi x w : K} (hw : 0 < w) (h1 : lo ≤ x) (h2 : x ≤ hi)
    (h3 : fl (fl (hi - lo) * fl (1 / w)) < 2 ^ 32) :
    toU32 (fl (fl (x - lo) * fl (1 / w))) = .ok ⌊fl (fl (x - lo) * fl (1 / w))⌋₊ ∧
      0 ≤ fl (fl (x - lo) * fl (1 / w)) ∧ 
      fl (fl (x - lo) * fl (1 / w)) ≤ fl (fl (hi - lo) * fl (1 / w)) := by
  have hd : 0 ≤ fl (1 / w) := by
    rw [← h0]
    exact hm (by positivity)
  have hx : 0 ≤ fl (x - lo) := by
    rw [← h0]
    exact hm (by linarith)
  have hle : fl (fl (x - lo) * fl (1 / w)) ≤ fl (fl (hi - lo) * fl (1 / w)) :=
    hm (mul_le_mul_of_nonneg_right (hm (by linarith)) hd)
  have hnn : 0 ≤ fl (fl (x - lo) * fl (1 / w)) := by
    conv_lhs => rw [← h0]
    exact hm (mul_nonneg hx hd)
  refine ⟨?_, hnn, hle⟩
  unfold toU32
  rw [if_neg]
  rw [not_or, not_le, not_le]
  exact ⟨by linarith, lt_of_le_of_lt hle h3⟩

end Grid

end Geometrix
