import Verif.Lemmas.Angle
import Verif.Spec.Order

/-!
# C07, C08: angular sector test and angle comparators
-/

namespace Geometrix

open Spec Real

/-- C08: given the counter-clockwise angles `α`, `β` in `[0, 2π)` of two vectors from the reference
vector, the comparator answers whether `α < β`. -/
theorem C08_vector_angle_compare (ref v1 v2 : P2 ℝ) (α β : ℝ) (href : ref ≠ 0)
    (h1 : IsCcwAngle ref v1 α) (h2 : IsCcwAngle ref v2 β) :
    vectorAngleCompare Cmp.direct ref v1 v2 = true ↔ α < β := by
  have hn := normSq_pos href
  obtain ⟨ha0, ha1, r, hr, rfl⟩ := h1
  obtain ⟨hb0, hb1, s, hs, rfl⟩ := h2
  have e1 : cross ref (r • turn α ref) = (r * normSq ref) * sin α := by
    rw [cross_smul_right, cross_turn']; ring
  have e2 : cross ref (s • turn β ref) = (s * normSq ref) * sin β := by
    rw [cross_smul_right, cross_turn']; ring
  have e3 : dot (r • turn α ref) ref = (r * normSq ref) * cos α := by
    rw [dot_comm_P2, dot_smul_right, dot_turn']; ring
  have e4 : dot (s • turn β ref) ref = (s * normSq ref) * cos β := by
    rw [dot_comm_P2, dot_smul_right, dot_turn']; ring
  have e5 : cross (r • turn α ref) (s • turn β ref) = (r * s * normSq ref) * sin (β - α) := by
    rw [cross_smul_left, cross_smul_right, cross_turn]; ring
  have p1 : 0 < r * normSq ref := by positivity
  have p2 : 0 < s * normSq ref := by positivity
  have p3 : 0 < r * s * normSq ref := by positivity
  simp only [vectorAngleCompare, e1, e2, e3, e4, e5, Bool.and_eq_true, direct_equals, direct_ge]
  have q1 : ((r * normSq ref) * sin α = 0 ∧ 0 ≤ (r * normSq ref) * cos α) ↔ α = 0 := by
    rw [← aligned_iff ha0 ha1, mul_eq_zero, or_iff_right p1.ne', mul_nonneg_iff_of_pos_left p1]
  have q2 : ((s * normSq ref) * sin β = 0 ∧ 0 ≤ (s * normSq ref) * cos β) ↔ β = 0 := by
    rw [← aligned_iff hb0 hb1, mul_eq_zero, or_iff_right p2.ne', mul_nonneg_iff_of_pos_left p2]
  rw [if_congr q2 rfl rfl]
  split_ifs with c1 c2 c3
  · simp only [false_iff, not_lt]; rw [c1]; exact ha0
  · rw [q1] at c2; simp only [true_iff]; rw [c2]; exact lt_of_le_of_ne hb0 (Ne.symm c1)
  · rw [q1] at c2
    have hα : 0 < α := lt_of_le_of_ne ha0 (Ne.symm c2)
    have hβ : 0 < β := lt_of_le_of_ne hb0 (Ne.symm c1)
    have c3' : 0 ≤ sin α * sin β := by
      by_contra hneg
      push Not at hneg
      have hpp : 0 < (r * normSq ref) * (s * normSq ref) := by positivity
      have : (r * normSq ref * sin α) * (s * normSq ref * sin β)
        = ((r * normSq ref) * (s * normSq ref)) * (sin α * sin β) := by ring
      rw [this] at c3
      nlinarith
    rw [direct_gt, mul_pos_iff_of_pos_left p3]
    have hcase : (α ≤ π ∧ β ≤ π) ∨ (π ≤ α ∧ π ≤ β) := by
      rcases lt_trichotomy α π with h | h | h
      · have hs1 := (sin_pos_iff_lt_pi hα ha1).mpr h
        left; refine ⟨h.le, ?_⟩
        by_contra hn'; push Not at hn'
        have := (sin_neg_iff_pi_lt hβ hb1).mpr hn'
        nlinarith
      · rcases le_total β π with h' | h'
        · exact Or.inl ⟨h.le, h'⟩
        · exact Or.inr ⟨h.ge, h'⟩
      · have hs1 := (sin_neg_iff_pi_lt hα ha1).mpr h
        right; refine ⟨h.le, ?_⟩
        by_contra hn'; push Not at hn'
        have := (sin_pos_iff_lt_pi hβ hb1).mpr hn'
        nlinarith
    rw [sin_pos_iff_pos (by rcases hcase with ⟨h, h'⟩ | ⟨h, h'⟩ <;> linarith)
      (by rcases hcase with ⟨h, h'⟩ | ⟨h, h'⟩ <;> linarith)]
    constructor <;> intro h <;> linarith
  · rw [q1] at c2
    have hα : 0 < α := lt_of_le_of_ne ha0 (Ne.symm c2)
    have hβ : 0 < β := lt_of_le_of_ne hb0 (Ne.symm c1)
    push Not at c3
    have c3' : sin α * sin β < 0 := by
      by_contra hneg
      push Not at hneg
      have hpp : 0 < (r * normSq ref) * (s * normSq ref) := by positivity
      have : (r * normSq ref * sin α) * (s * normSq ref * sin β)
        = ((r * normSq ref) * (s * normSq ref)) * (sin α * sin β) := by ring
      rw [this] at c3
      nlinarith
    rw [direct_gt, mul_pos_iff_of_pos_left p1, sin_pos_iff_lt_pi hα ha1]
    constructor
    · intro h
      have hs1 := (sin_pos_iff_lt_pi hα ha1).mpr h
      have : sin β < 0 := by nlinarith
      have := (sin_neg_iff_pi_lt hβ hb1).mp this
      linarith
    · intro h
      by_contra hn'
      push Not at hn'
      have hs1 : sin α ≤ 0 := by
        by_contra hh; push Not at hh
        have := (sin_pos_iff_lt_pi hα ha1).mp hh
        linarith
      have hs2 : sin β < 0 := (sin_neg_iff_pi_lt hβ hb1).mpr (by linarith)
      nlinarith

example : IsCcwAngle ⟨1, 0⟩ ⟨0, 3⟩ (π / 2) :=
  ⟨by positivity, by linarith [pi_pos], 3, by norm_num, by ext <;> simp [turn]⟩

/-- C08: `point_angle_compare` orders points by the polar angle of their offset from the origin
point. -/
theorem C08_point_angle_compare (o a b : P2 ℝ) (α β : ℝ)
    (h1 : IsCcwAngle ⟨1, 0⟩ (a - o) α) (h2 : IsCcwAngle ⟨1, 0⟩ (b - o) β) :
    pointAngleCompare Cmp.direct o a b = true ↔ α < β := by
  rw [pointAngleCompare_eq]
  exact C08_vector_angle_compare _ _ _ _ _ ref_ne h1 h2

/-- Angles exist, so the hypotheses of the previous theorems can always be met. -/
theorem C08_angle_exists (a c : P2 ℝ) (ha : a ≠ 0) (hc : c ≠ 0) : ∃ θ, IsCcwAngle a c θ :=
  exists_ccwAngle ha hc

example : (⟨2, 1⟩ : P2 ℝ) ≠ 0 := by
  intro h; have := congrArg P2.x h; simp at this

/-- C08: the vector comparator is a strict weak ordering on non zero vectors. -/
theorem C08_vector_strictWeakOrder (ref : P2 ℝ) (href : ref ≠ 0) :
    StrictWeakOrderOn (fun v : P2 ℝ => v ≠ 0) (vectorAngleCompare Cmp.direct ref) where
  irrefl a ha := by
    obtain ⟨α, hα⟩ := exists_ccwAngle href ha
    rw [← Bool.not_eq_true, C08_vector_angle_compare ref a a α α href hα hα]
    exact lt_irrefl _
  trans a b c ha hb hc := by
    obtain ⟨α, hα⟩ := exists_ccwAngle href ha
    obtain ⟨β, hβ⟩ := exists_ccwAngle href hb
    obtain ⟨γ, hγ⟩ := exists_ccwAngle href hc
    rw [C08_vector_angle_compare ref a b α β href hα hβ,
      C08_vector_angle_compare ref b c β γ href hβ hγ,
      C08_vector_angle_compare ref a c α γ href hα hγ]
    exact lt_trans
  incomp_trans a b c ha hb hc := by
    obtain ⟨α, hα⟩ := exists_ccwAngle href ha
    obtain ⟨β, hβ⟩ := exists_ccwAngle href hb
    obtain ⟨γ, hγ⟩ := exists_ccwAngle href hc
    simp only [← Bool.not_eq_true, C08_vector_angle_compare ref _ _ _ _ href hα hβ,
      C08_vector_angle_compare ref _ _ _ _ href hβ hα,
      C08_vector_angle_compare ref _ _ _ _ href hβ hγ,
      C08_vector_angle_compare ref _ _ _ _ href hγ hβ,
      C08_vector_angle_compare ref _ _ _ _ href hα hγ,
      C08_vector_angle_compare ref _ _ _ _ href hγ hα, not_lt]
    rintro ⟨h1, h2⟩ ⟨h3, h4⟩
    exact ⟨h3.trans h1, h2.trans h4⟩

/-- C08: vectors that the comparator cannot separate point in the same direction, and conversely. -/
theorem C08_vector_equivalence (ref v1 v2 : P2 ℝ) (href : ref ≠ 0) (h1 : v1 ≠ 0) (h2 : v2 ≠ 0) :
    (vectorAngleCompare Cmp.direct ref v1 v2 = false ∧
      vectorAngleCompare Cmp.direct ref v2 v1 = false) ↔ SameDirection v1 v2 := by
  obtain ⟨α, hα⟩ := exists_ccwAngle href h1
  obtain ⟨β, hβ⟩ := exists_ccwAngle href h2
  simp only [← Bool.not_eq_true, C08_vector_angle_compare ref _ _ _ _ href hα hβ,
    C08_vector_angle_compare ref _ _ _ _ href hβ hα, not_lt]
  constructor
  · rintro ⟨hab, hba⟩
    have hEq : α = β := le_antisymm hba hab
    subst hEq
    obtain ⟨_, _, r, hr, rfl⟩ := hα
    obtain ⟨_, _, s, hs, rfl⟩ := hβ
    refine ⟨s / r, by positivity, ?_⟩
    ext <;> simp <;> field_simp
  · rintro ⟨q, hq, rfl⟩
    obtain ⟨a0, a1, r, hr, rfl⟩ := hα
    obtain ⟨b0, b1, s, hs, he⟩ := hβ
    have hn := normSq_pos href
    -- the angle between the two is zero
    have hc : cross (r • turn α ref) (s • turn β ref) = 0 := by
      rw [← he, cross_smul_right, cross_self, mul_zero]
    have hd : 0 ≤ dot (r • turn α ref) (s • turn β ref) := by
      rw [← he, dot_smul_right]
      have := normSq_nonneg (r • turn α ref)
      unfold normSq at this
      positivity
    rw [cross_smul_left, cross_smul_right, cross_turn] at hc
    rw [dot_smul_left, dot_smul_right, dot_turn] at hd
    have p3 : 0 < r * s * normSq ref := by positivity
    have hs0 : sin (β - α) = 0 := by
      have : r * s * normSq ref * sin (β - α) = 0 := by linear_combination hc
      rcases mul_eq_zero.mp this with h | h
      · exact absurd h p3.ne'
      · exact h
    have hc0 : 0 ≤ cos (β - α) := by
      have : 0 ≤ r * s * normSq ref * cos (β - α) := by linarith
      exact (mul_nonneg_iff_of_pos_left p3).mp this
    have := (aligned_iff' (x := β - α) (by linarith) (by linarith)).mp ⟨hs0, hc0⟩
    constructor <;> linarith

example : (⟨1, 0⟩ : P2 ℝ) ≠ 0 ∧ (⟨0, 1⟩ : P2 ℝ) ≠ 0 :=
  ⟨ref_ne, fun h => by have := congrArg P2.y h; simp at this⟩

/-- C08 for `pseudo_angle`: it rejects only the null vector, lies in `[0, 4)`, and orders vectors
exactly as the comparator with the reference `(1, 0)` does. -/
theorem C08_pseudo_angle (v w : P2 ℝ) (hv : v ≠ 0) (hw : w ≠ 0) :
    ∃ p q : ℝ, pseudoAngle v = .ok p ∧ pseudoAngle w = .ok q ∧ 0 ≤ p ∧ p < 4 ∧
      (p < q ↔ vectorAngleCompare Cmp.direct ⟨1, 0⟩ v w = true) := by
  have hpos : ∀ u : P2 ℝ, u ≠ 0 → 0 < |u.x| + |u.y| := by
    intro u hu
    rcases (P2.ne_zero_iff u).mp hu with h | h
    · have := abs_pos.mpr h; have := abs_nonneg u.y; linarith
    · have := abs_pos.mpr h; have := abs_nonneg u.x; linarith
  have hle : ∀ u : P2 ℝ, u ≠ 0 → |1 - u.x / (|u.x| + |u.y|)| = 1 - u.x / (|u.x| + |u.y|) := by
    intro u hu
    apply abs_of_nonneg
    have := hpos u hu
    rw [sub_nonneg, div_le_one this]
    have := le_abs_self u.x
    have := abs_nonneg u.y
    linarith
  simp only [pseudoAngle, hv, hw, if_false, hle v hv, hle w hw]
  refine ⟨_, _, rfl, rfl, ?_, ?_, ?_⟩
  · have h1 := hpos v hv
    split_ifs with h
    · have : -1 ≤ v.x / (|v.x| + |v.y|) := by
        rw [le_div_iff₀ h1]
        have := neg_abs_le v.x
        have := abs_nonneg v.y
        linarith
      linarith
    · have : v.x / (|v.x| + |v.y|) ≤ 1 := by
        rw [div_le_one h1]
        have := le_abs_self v.x
        have := abs_nonneg v.y
        linarith
      linarith
  · have h1 := hpos v hv
    split_ifs with h
    · have : v.x / (|v.x| + |v.y|) < 1 := by
        rw [div_lt_one h1]
        have := le_abs_self v.x
        have := abs_pos.mpr h.ne
        linarith
      linarith
    · have : -1 ≤ v.x / (|v.x| + |v.y|) := by
        rw [le_div_iff₀ h1]
        have := neg_abs_le v.x
        have := abs_nonneg v.y
        linarith
      linarith
  · have h1 := hpos v hv
    have h2 := hpos w hw
    set s := |v.x| + |v.y| with hs
    set t := |w.x| + |w.y| with ht
    have bv1 : v.x / s ≤ 1 := by
      rw [div_le_one h1]; have := le_abs_self v.x; have := abs_nonneg v.y; linarith
    have bv2 : -1 ≤ v.x / s := by
      rw [le_div_iff₀ h1]; have := neg_abs_le v.x; have := abs_nonneg v.y; linarith
    have bw1 : w.x / t ≤ 1 := by
      rw [div_le_one h2]; have := le_abs_self w.x; have := abs_nonneg w.y; linarith
    have bw2 : -1 ≤ w.x / t := by
      rw [le_div_iff₀ h2]; have := neg_abs_le w.x; have := abs_nonneg w.y; linarith
    have hdiv : w.x / t < v.x / s ↔ w.x * s < v.x * t := div_lt_div_iff₀ h2 h1
    simp only [vectorAngleCompare, cross, dot, one_mul, zero_mul, sub_zero, mul_one, mul_zero,
      add_zero, Bool.and_eq_true, direct_equals, direct_ge]
    have hvx : v.y = 0 → v.x ≠ 0 := fun h h' => hv (P2.ext h' h)
    have hwx : w.y = 0 → w.x ≠ 0 := fun h h' => hw (P2.ext h' h)
    by_cases c1 : w.y = 0 ∧ 0 ≤ w.x
    · rw [if_pos c1]
      have hwt : w.x / t = 1 := by
        rw [div_eq_one_iff_eq h2.ne', ht, c1.1, abs_zero, add_zero, abs_of_nonneg c1.2]
      simp only [c1.1, lt_irrefl, if_false, hwt, sub_self, Bool.false_eq_true, iff_false, not_lt]
      split_ifs <;> linarith
    · rw [if_neg c1]
      by_cases c2 : v.y = 0 ∧ 0 ≤ v.x
      · rw [if_pos c2]
        have hvt : v.x / s = 1 := by
          rw [div_eq_one_iff_eq h1.ne', hs, c2.1, abs_zero, add_zero, abs_of_nonneg c2.2]
        have hwt : w.x / t < 1 := by
          refine lt_of_le_of_ne bw1 (fun h => c1 ?_)
          rw [div_eq_one_iff_eq h2.ne'] at h
          have h5 := le_abs_self w.x
          have h6 := abs_nonneg w.y
          have h7 : |w.y| = 0 := by linarith
          have h8 : 0 ≤ w.x := by
            have := abs_nonneg w.x; linarith
          exact ⟨abs_eq_zero.mp h7, h8⟩
        simp only [c2.1, lt_irrefl, if_false, hvt, sub_self, iff_true]
        split_ifs <;> linarith
      · rw [if_neg c2]
        rcases lt_or_ge v.y 0 with hvy | hvy <;> rcases lt_or_ge w.y 0 with hwy | hwy
        · -- both below
          have hp : 0 ≤ v.y * w.y := by nlinarith
          rw [if_pos hp, direct_gt, if_pos hvy, if_pos hvy, if_pos hwy, if_pos hwy]
          have e : (4 + -(1 - v.x / s) < 4 + -(1 - w.x / t)) ↔ v.x / s < w.x / t := by
            constructor <;> intro h <;> linarith
          rw [e, div_lt_div_iff₀ h1 h2, hs, ht, abs_of_neg hvy, abs_of_neg hwy]
          rcases le_or_gt 0 v.x with a1 | a1 <;> rcases le_or_gt 0 w.x with a2 | a2 <;>
            first
            | rw [abs_of_nonneg a1] | rw [abs_of_neg a1]
          all_goals first
            | rw [abs_of_nonneg a2] | rw [abs_of_neg a2]
          all_goals constructor <;> intro h <;> nlinarith
        · -- v below, w above
          rw [if_pos hvy, if_pos hvy, if_neg (not_lt.mpr hwy), if_neg (not_lt.mpr hwy)]
          have hf : ¬ (4 + -(1 - v.x / s) < 1 - w.x / t) := by
            have hb : -1 < v.x / s := by
              rw [lt_div_iff₀ h1]
              have := neg_abs_le v.x
              have := abs_pos.mpr hvy.ne
              linarith
            linarith
          simp only [hf, false_iff]
          split_ifs with hp
          · rw [direct_gt]
            have hw0 : w.y = 0 := by nlinarith
            have : w.x < 0 := by
              by_contra hh; push Not at hh; exact c1 ⟨hw0, hh⟩
            rw [hw0]; nlinarith
          · rw [direct_gt]; linarith
        · -- v above, w below
          rw [if_neg (not_lt.mpr hvy), if_neg (not_lt.mpr hvy), if_pos hwy, if_pos hwy]
          have hf : (1 - v.x / s) < 4 + -(1 - w.x / t) := by
            have hb : -1 < w.x / t := by
              rw [lt_div_iff₀ h2]
              have := neg_abs_le w.x
              have := abs_pos.mpr hwy.ne
              linarith
            linarith
          simp only [hf, true_iff]
          split_ifs with hp
          · rw [direct_gt]
            have hv0 : v.y = 0 := by nlinarith
            have : v.x < 0 := by
              by_contra hh; push Not at hh; exact c2 ⟨hv0, hh⟩
            rw [hv0]; nlinarith
          · rw [direct_gt]
            refine lt_of_le_of_ne hvy (fun h => hp ?_)
            rw [← h]; simp
        · -- both above
          have hp : 0 ≤ v.y * w.y := by nlinarith
          rw [if_pos hp, direct_gt, if_neg (not_lt.mpr hvy), if_neg (not_lt.mpr hvy),
            if_neg (not_lt.mpr hwy), if_neg (not_lt.mpr hwy)]
          have e : (1 - v.x / s < 1 - w.x / t) ↔ w.x / t < v.x / s := by
            constructor <;> intro h <;> linarith
          rw [e, hdiv, hs, ht, abs_of_nonneg hvy, abs_of_nonneg hwy]
          rcases hvy.lt_or_eq with b1 | b1
          · rcases hwy.lt_or_eq with b2 | b2
            · rcases le_or_gt 0 v.x with a1 | a1 <;> rcases le_or_gt 0 w.x with a2 | a2 <;>
                first
                | rw [abs_of_nonneg a1] | rw [abs_of_neg a1]
              all_goals first
                | rw [abs_of_nonneg a2] | rw [abs_of_neg a2]
              all_goals constructor <;> intro h <;> nlinarith
            · have a2 : w.x < 0 := by
                by_contra hh; push Not at hh; exact c1 ⟨b2.symm, hh⟩
              rw [← b2, abs_of_neg a2]
              rcases le_or_gt 0 v.x with a1 | a1
              · rw [abs_of_nonneg a1]; constructor <;> intro h <;> nlinarith
              · rw [abs_of_neg a1]; constructor <;> intro h <;> nlinarith
          · have a1 : v.x < 0 := by
              by_contra hh; push Not at hh; exact c2 ⟨b1.symm, hh⟩
            rw [← b1, abs_of_neg a1]
            rcases le_or_gt 0 w.x with a2 | a2
            · rw [abs_of_nonneg a2]; constructor <;> intro h <;> nlinarith
            · rw [abs_of_neg a2]; constructor <;> intro h <;> nlinarith

/-! ## C07 -/

/-- C07: let `β` and `γ` be the counter-clockwise angles from `a` to `b` and to `c`. With bounds
excluded, `is_vector_between` answers whether `0 < γ < β`; with bounds included, whether `γ ≤ β`. -/
theorem C07_is_vector_between (a b c : P2 ℝ) (β γ : ℝ) (ha : a ≠ 0)
    (hb : IsCcwAngle a b β) (hc : IsCcwAngle a c γ) :
    (isVectorBetween Cmp.direct a b c false = true ↔ (0 < γ ∧ γ < β)) ∧
    (isVectorBetween Cmp.direct a b c true = true ↔ (0 ≤ γ ∧ γ ≤ β)) := by
  have hn := normSq_pos ha
  have hcmp := C08_vector_angle_compare a c b γ β ha hc hb
  obtain ⟨b0, b1, s, hs, rfl⟩ := hb
  obtain ⟨c0, c1, r, hr, rfl⟩ := hc
  have p1 : 0 < r * normSq a := by positivity
  have p2 : 0 < s * normSq a := by positivity
  have p3 : 0 < r * s * normSq a := by positivity
  -- the three alignment tests
  have q0 : (cross (r • turn γ a) (s • turn β a) = 0 ∧ 0 ≤ dot (s • turn β a) (r • turn γ a)) ↔
      γ = β := by
    rw [cross_smul_left, cross_smul_right, cross_turn, dot_comm_P2, dot_smul_left, dot_smul_right,
      dot_turn]
    have e1 : r * (s * (sin (β - γ) * normSq a)) = r * s * normSq a * sin (β - γ) := by ring
    have e2 : r * (s * (cos (β - γ) * normSq a)) = r * s * normSq a * cos (β - γ) := by ring
    rw [e1, e2, mul_eq_zero, or_iff_right p3.ne', mul_nonneg_iff_of_pos_left p3,
      aligned_iff' (by linarith) (by linarith), sub_eq_zero, eq_comm]
  have q1 : (cross a (r • turn γ a) = 0 ∧ 0 ≤ dot a (r • turn γ a)) ↔ γ = 0 := by
    rw [cross_smul_right, cross_turn', dot_smul_right, dot_turn']
    have e1 : r * (sin γ * normSq a) = r * normSq a * sin γ := by ring
    have e2 : r * (cos γ * normSq a) = r * normSq a * cos γ := by ring
    rw [e1, e2, mul_eq_zero, or_iff_right p1.ne', mul_nonneg_iff_of_pos_left p1,
      aligned_iff c0 c1]
  have q2 : (cross a (s • turn β a) = 0 ∧ 0 ≤ dot (s • turn β a) a) ↔ β = 0 := by
    rw [cross_smul_right, cross_turn', dot_comm_P2, dot_smul_right, dot_turn']
    have e1 : s * (sin β * normSq a) = s * normSq a * sin β := by ring
    have e2 : s * (cos β * normSq a) = s * normSq a * cos β := by ring
    rw [e1, e2, mul_eq_zero, or_iff_right p2.ne', mul_nonneg_iff_of_pos_left p2,
      aligned_iff b0 b1]
  -- relate the rest to the comparator
  have key : ∀ inc, isVectorBetween Cmp.direct a (s • turn β a) (r • turn γ a) inc = true ↔
      (if γ = β then inc = true else if γ = 0 then inc = true else γ < β) := by
    intro inc
    unfold isVectorBetween
    unfold vectorAngleCompare at hcmp
    simp only [Bool.and_eq_true, direct_equals, direct_ge] at hcmp ⊢
    rw [if_congr q0 rfl rfl, if_congr q1 rfl rfl]
    rw [dot_comm_P2 (r • turn γ a) a] at hcmp
    rw [if_congr q2 rfl rfl, if_congr q1 rfl rfl] at hcmp
    by_cases h1 : γ = β
    · rw [if_pos h1, if_pos h1]
    · rw [if_neg h1, if_neg h1]
      by_cases h2 : γ = 0
      · rw [if_pos h2, if_pos h2]
      · rw [if_neg h2, if_neg h2]
        rw [if_neg h2] at hcmp
        rw [if_congr q2 rfl rfl]
        exact hcmp
  rw [key, key]
  constructor
  · split_ifs with h1 h2
    · simp [h1]
    · simp [h2]
    · have : 0 < γ := lt_of_le_of_ne c0 (Ne.symm h2)
      simp [this]
  · split_ifs with h1 h2
    · subst h1; simp [c0]
    · subst h2; simp [b0]
    · simp only [c0, true_and]
      exact ⟨le_of_lt, fun h => lt_of_le_of_ne h h1⟩

example : IsCcwAngle ⟨1, 0⟩ ⟨0, 1⟩ (π / 2) ∧ IsCcwAngle ⟨1, 0⟩ ⟨-2, 0⟩ π :=
  ⟨⟨by positivity, by linarith [pi_pos], 1, by norm_num, by ext <;> simp [turn]⟩,
   ⟨by positivity, by linarith [pi_pos], 2, by norm_num, by ext <;> simp [turn]⟩⟩

end Geometrix
