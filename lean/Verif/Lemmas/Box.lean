import Verif.Spec.Box
import Verif.Lemmas.Vec

/-!
# Helper lemmas for boxes
-/

set_option linter.unusedSectionVars false

namespace Geometrix

open Spec

variable {K : Type*} [Field K] [LinearOrder K] [IsStrictOrderedRing K]

/-! ## One dimension -/

theorem axisClosest_mem {x lo hi : K} (h : lo ≤ hi) :
    lo ≤ axisClosest x lo hi ∧ axisClosest x lo hi ≤ hi := by
  unfold axisClosest
  constructor <;> grind

theorem axisClosest_le {x lo hi y : K} (h : lo ≤ hi) (h1 : lo ≤ y) (h2 : y ≤ hi) :
    (x - axisClosest x lo hi) ^ 2 ≤ (x - y) ^ 2 := by
  unfold axisClosest
  simp only [gt_iff_lt]
  split_ifs with h3 h4 h4
  · linarith
  · nlinarith
  · nlinarith
  · nlinarith [sq_nonneg (x - y)]

theorem axisDistSq_eq {x lo hi : K} (h : lo ≤ hi) :
    axisDistSq x lo hi = (x - axisClosest x lo hi) ^ 2 := by
  unfold axisDistSq axisClosest
  simp only [gt_iff_lt]
  split_ifs <;> first | (exfalso; linarith) | ring1

theorem axisGapSq_attained {l1 u1 l2 u2 : K} (h1 : l1 ≤ u1) (h2 : l2 ≤ u2) :
    ∃ a b, l1 ≤ a ∧ a ≤ u1 ∧ l2 ≤ b ∧ b ≤ u2 ∧ (a - b) ^ 2 = axisGapSq l1 u1 l2 u2 := by
  unfold axisGapSq
  simp only [gt_iff_lt]
  split_ifs with h3 h4
  · exact ⟨l1, u2, le_rfl, h1, h2, le_rfl, by ring⟩
  · exact ⟨u1, l2, h1, le_rfl, le_rfl, h2, by ring⟩
  · push Not at h3 h4
    refine ⟨max l1 l2, max l1 l2, le_max_left _ _, max_le h1 h4, le_max_right _ _,
      max_le h3 h2, by ring⟩

theorem axisGapSq_le {l1 u1 l2 u2 a b : K} (ha : l1 ≤ a) (ha' : a ≤ u1) (hb : l2 ≤ b)
    (hb' : b ≤ u2) : axisGapSq l1 u1 l2 u2 ≤ (a - b) ^ 2 := by
  unfold axisGapSq
  simp only [gt_iff_lt]
  split_ifs with h3 h4
  · nlinarith
  · nlinarith
  · positivity

theorem axisGapSq_comm {l1 u1 l2 u2 : K} (h1 : l1 ≤ u1) (h2 : l2 ≤ u2) :
    axisGapSq l1 u1 l2 u2 = axisGapSq l2 u2 l1 u1 := by
  unfold axisGapSq
  simp only [gt_iff_lt]
  split_ifs <;> first | (exfalso; linarith) | ring1

theorem axisGapSq_eq_zero {l1 u1 l2 u2 : K} :
    axisGapSq l1 u1 l2 u2 = 0 ↔ ¬ u2 < l1 ∧ ¬ u1 < l2 := by
  unfold axisGapSq
  simp only [gt_iff_lt]
  split_ifs with h3 h4
  · simp only [h3, not_true_eq_false, false_and, iff_false]
    intro h; rcases mul_self_eq_zero.mp h with h; linarith
  · simp only [h4, not_true_eq_false, and_false, iff_false]
    intro h; rcases mul_self_eq_zero.mp h with h; linarith
  · simp [h3, h4]

theorem axisGapSq_nonneg (l1 u1 l2 u2 : K) : 0 ≤ axisGapSq l1 u1 l2 u2 := by
  unfold axisGapSq
  split_ifs
  · exact mul_self_nonneg _
  · exact mul_self_nonneg _
  · exact le_rfl

theorem intersectsPoint_iff (b : Box K) (p : P2 K) :
    b.intersectsPoint Cmp.direct p = true ↔ InBox b p := by
  unfold Box.intersectsPoint InBox
  simp only [Bool.or_eq_true, direct_lt, direct_gt]
  split_ifs with h1 h2
  · simp only [false_iff]
    rintro ⟨_, _, h3, h4⟩; rcases h1 with h | h <;> linarith
  · simp only [false_iff]
    rintro ⟨h3, h4, _⟩; rcases h2 with h | h <;> linarith
  · push Not at h1 h2
    simp [h1, h2]

/-- The bounds after a non empty sequence. -/
theorem boundsFold (pts : List (P2 K)) (b : Box K) :
    ∃ r, pts.foldl (boundsStep Cmp.direct) (some b) = some r ∧
      (r.lo.x ≤ b.lo.x ∧ r.lo.y ≤ b.lo.y ∧ b.hi.x ≤ r.hi.x ∧ b.hi.y ≤ r.hi.y) ∧
      (∀ P ∈ pts, InBox r P) ∧
      (∀ k, k ≤ b.lo.x → (∀ P ∈ pts, k ≤ P.x) → k ≤ r.lo.x) ∧
      (∀ k, k ≤ b.lo.y → (∀ P ∈ pts, k ≤ P.y) → k ≤ r.lo.y) ∧
      (∀ k, b.hi.x ≤ k → (∀ P ∈ pts, P.x ≤ k) → r.hi.x ≤ k) ∧
      (∀ k, b.hi.y ≤ k → (∀ P ∈ pts, P.y ≤ k) → r.hi.y ≤ k) := by
  induction pts generalizing b with
  | nil => exact ⟨b, rfl, by simp, by simp, by simp, by simp, by simp, by simp⟩
  | cons p ps ih =>
    simp only [List.foldl_cons, boundsStep, direct_lt, direct_gt]
    obtain ⟨r, hr, ⟨h1, h2, h3, h4⟩, hm, k1, k2, k3, k4⟩ := ih
      ⟨⟨if p.x < b.lo.x then p.x else b.lo.x, if p.y < b.lo.y then p.y else b.lo.y⟩,
       ⟨if p.x > b.hi.x then p.x else b.hi.x, if p.y > b.hi.y then p.y else b.hi.y⟩⟩
    refine ⟨r, hr, ?_, ?_, ?_, ?_, ?_, ?_⟩
    · refine ⟨?_, ?_, ?_, ?_⟩ <;> grind
    · intro P hP
      rcases List.mem_cons.mp hP with rfl | hP
      · refine ⟨?_, ?_, ?_, ?_⟩ <;> grind
      · exact hm P hP
    · intro k hk hk'; apply k1 <;> grind
    · intro k hk hk'; apply k2 <;> grind
    · intro k hk hk'; apply k3 <;> grind
    · intro k hk hk'; apply k4 <;> grind

/-! ## Segments and boxes: intervals of the segment parameter -/

/-- The parameters `τ` in `[-1, 1]` at which `|m + τ d| ≤ e`, when this constrains `τ` at all. -/
def axisLo (m d e : K) : K := if d = 0 then -1 else -m / d - e / |d|

/-- See `axisLo`. -/
def axisHi (m d e : K) : K := if d = 0 then 1 else -m / d + e / |d|

theorem axis_mem {m d e τ : K} (hI : |m| ≤ e + |d|) (h1 : axisLo m d e ≤ τ) (h2 : τ ≤ axisHi m d e) :
    |m + τ * d| ≤ e := by
  unfold axisLo at h1
  unfold axisHi at h2
  by_cases hd : d = 0
  · simpa [hd] using hI
  · rw [if_neg hd] at h1 h2
    have hpos : 0 < |d| := abs_pos.mpr hd
    have h3 : |τ + m / d| ≤ e / |d| := by
      rw [abs_le]; constructor
      · have := neg_div d m; rw [this] at h1; linarith
      · have := neg_div d m; rw [this] at h2; linarith
    have h4 : m + τ * d = (τ + m / d) * d := by field_simp; ring
    rw [h4, abs_mul]
    calc |τ + m / d| * |d| ≤ e / |d| * |d| := mul_le_mul_of_nonneg_right h3 hpos.le
      _ = e := div_mul_cancel₀ e hpos.ne'

theorem axis_valid {m d e : K} (he : 0 ≤ e) : axisLo m d e ≤ axisHi m d e := by
  unfold axisLo axisHi
  split_ifs with hd
  · norm_num
  · have : 0 ≤ e / |d| := by positivity
    linarith

theorem axis_unit {m d e : K} (hI : |m| ≤ e + |d|) : axisLo m d e ≤ 1 ∧ -1 ≤ axisHi m d e := by
  unfold axisLo axisHi
  split_ifs with hd
  · constructor <;> norm_num
  · have hpos : 0 < |d| := abs_pos.mpr hd
    have h1 : |m / d| ≤ e / |d| + 1 := by
      rw [abs_div, div_le_iff₀ hpos, add_mul, div_mul_cancel₀ e hpos.ne', one_mul]; exact hI
    have h2 := abs_le.mp h1
    rw [neg_div]
    constructor <;> linarith [h2.1, h2.2]

theorem axis_pair {m d e m' d' e' : K} (hI : |m| ≤ e + |d|) (hI' : |m'| ≤ e' + |d'|)
    (h : |m * d' - m' * d| ≤ e * |d'| + e' * |d|) : axisLo m d e ≤ axisHi m' d' e' := by
  by_cases hd : d = 0
  · have : axisLo m d e = -1 := by simp [axisLo, hd]
    rw [this]; exact (axis_unit hI').2
  · by_cases hd' : d' = 0
    · have : axisHi m' d' e' = 1 := by simp [axisHi, hd']
      rw [this]; exact (axis_unit hI).1
    · unfold axisLo axisHi
      rw [if_neg hd, if_neg hd']
      have hp : 0 < |d| := abs_pos.mpr hd
      have hp' : 0 < |d'| := abs_pos.mpr hd'
      have h1 : |(m * d' - m' * d) / (d * d')| ≤ e / |d| + e' / |d'| := by
        rw [abs_div, abs_mul, div_le_iff₀ (by positivity)]
        have : (e / |d| + e' / |d'|) * (|d| * |d'|) = e * |d'| + e' * |d| := by field_simp
        rw [this]; exact h
      have h2 : (m * d' - m' * d) / (d * d') = m / d - m' / d' := by field_simp
      rw [h2] at h1
      have h3 := abs_le.mp h1
      rw [neg_div, neg_div]
      linarith [h3.1]

/-- Back from `τ` in `[-1, 1]` to the segment and the box, one dimension. -/
theorem axis_box {p0 p1 lo hi τ : K} :
    |(p0 - lo) + (p1 - hi) + τ * (p1 - p0)| ≤ hi - lo ↔
      (lo ≤ p0 + (τ + 1) / 2 * (p1 - p0) ∧ p0 + (τ + 1) / 2 * (p1 - p0) ≤ hi) := by
  rw [abs_le]
  constructor
  · rintro ⟨h1, h2⟩; constructor <;> linarith
  · rintro ⟨h1, h2⟩; constructor <;> linarith

theorem pair_of_mem {m d e m' d' e' τ : K} (h1 : |m + τ * d| ≤ e) (h2 : |m' + τ * d'| ≤ e') :
    |m * d' - m' * d| ≤ e * |d'| + e' * |d| := by
  have : m * d' - m' * d = (m + τ * d) * d' - (m' + τ * d') * d := by ring
  rw [this]
  calc |(m + τ * d) * d' - (m' + τ * d') * d| ≤ |(m + τ * d) * d'| + |(m' + τ * d') * d| :=
        abs_sub _ _
    _ = |m + τ * d| * |d'| + |m' + τ * d'| * |d| := by rw [abs_mul, abs_mul]
    _ ≤ e * |d'| + e' * |d| := by
        have a := mul_le_mul_of_nonneg_right h1 (abs_nonneg d')
        have b := mul_le_mul_of_nonneg_right h2 (abs_nonneg d)
        linarith

theorem unit_of_mem {m d e τ : K} (h : |m + τ * d| ≤ e) (h1 : -1 ≤ τ) (h2 : τ ≤ 1) :
    |m| ≤ e + |d| := by
  have h3 : |τ| ≤ 1 := abs_le.mpr ⟨h1, h2⟩
  have h4 : m = (m + τ * d) - τ * d := by ring
  rw [h4]
  calc |m + τ * d - τ * d| ≤ |m + τ * d| + |τ * d| := abs_sub _ _
    _ ≤ e + |d| := by
        rw [abs_mul]
        have := mul_le_mul_of_nonneg_right h3 (abs_nonneg d)
        linarith

/-! ## Rays and boxes -/

/-- The set of parameters a slab state stands for. -/
def Slab.mem (s : Slab K) (t : K) : Prop := s.tmin ≤ t ∧ ∀ m, s.tmax = some m → t ≤ m

/-- The state is not empty. -/
def Slab.ok (s : Slab K) : Prop := ∀ m, s.tmax = some m → s.tmin ≤ m

theorem slabStep_spec {p d lo hi : K} (hl : lo ≤ hi) (s : Slab K) (hs : s.ok) :
    ∃ r, slabStep Cmp.direct p d lo hi s = .ok r ∧
      (r = none → ∀ t, s.mem t → ¬ (lo ≤ p + t * d ∧ p + t * d ≤ hi)) ∧
      (∀ s', r = some s' → s'.ok ∧ (∀ t, s'.mem t ↔ s.mem t ∧ lo ≤ p + t * d ∧ p + t * d ≤ hi) ∧
        (d ≠ 0 → s'.tmax.isSome) ∧ (s.tmax.isSome → s'.tmax.isSome)) := by
  by_cases hd : d = 0
  · subst hd
    by_cases h : p < lo ∨ p > hi
    · refine ⟨none, by simp [slabStep, h], ?_, by simp⟩
      intro _ t _ h2
      simp only [mul_zero, add_zero] at h2
      rcases h with h | h <;> linarith [h2.1, h2.2]
    · refine ⟨some s, by simp [slabStep, h], by simp, ?_⟩
      intro s' hs'
      simp only [Option.some.injEq] at hs'
      subst hs'
      push Not at h
      refine ⟨hs, fun t => ?_, by simp, id⟩
      simp [h.1, h.2]
  · -- the slab as an interval
    obtain ⟨t1, t2, h12, hpair, hmem⟩ : ∃ t1 t2 : K, t1 ≤ t2 ∧
        (if (lo - p) * (1 / d) > (hi - p) * (1 / d) then ((hi - p) * (1 / d), (lo - p) * (1 / d))
          else ((lo - p) * (1 / d), (hi - p) * (1 / d))) = (t1, t2) ∧
        ∀ t, (lo ≤ p + t * d ∧ p + t * d ≤ hi) ↔ (t1 ≤ t ∧ t ≤ t2) := by
      rcases lt_or_gt_of_ne hd with h | h
      · have e : ∀ a t : K, (a - p) * (1 / d) ≤ t ↔ p + t * d ≤ a := by
          intro a t
          rw [mul_one_div, div_le_iff_of_neg h]; constructor <;> intro h <;> linarith
        have e' : ∀ a t : K, t ≤ (a - p) * (1 / d) ↔ a ≤ p + t * d := by
          intro a t
          rw [mul_one_div, le_div_iff_of_neg h]; constructor <;> intro h <;> linarith
        have hle : (hi - p) * (1 / d) ≤ (lo - p) * (1 / d) := by
          rw [mul_one_div, mul_one_div]; exact div_le_div_of_nonpos_of_le h.le (by linarith)
        rcases hle.lt_or_eq with h' | h'
        · refine ⟨_, _, hle, if_pos h', fun t => ?_⟩
          rw [e, e']; exact and_comm
        · have hlo : hi = lo := by
            have := mul_right_cancel₀ (one_div_ne_zero hd) h'
            linarith
          subst hlo
          refine ⟨_, _, le_rfl, if_neg (lt_irrefl _), fun t => ?_⟩
          rw [e, e']; exact and_comm
      · have e : ∀ a t : K, (a - p) * (1 / d) ≤ t ↔ a ≤ p + t * d := by
          intro a t
          rw [mul_one_div, div_le_iff₀ h]; constructor <;> intro h <;> linarith
        have e' : ∀ a t : K, t ≤ (a - p) * (1 / d) ↔ p + t * d ≤ a := by
          intro a t
          rw [mul_one_div, le_div_iff₀ h]; constructor <;> intro h <;> linarith
        have hle : (lo - p) * (1 / d) ≤ (hi - p) * (1 / d) := by
          rw [mul_one_div, mul_one_div]; exact div_le_div_of_nonneg_right (by linarith) h.le
        refine ⟨_, _, hle, if_neg (not_lt.mpr hle), fun t => ?_⟩
        rw [e, e']
    have hc : cdiv 1 d = .ok (1 / d) := by simp [cdiv, hd]
    have hrun : slabStep Cmp.direct p d lo hi s =
        let tmin := max s.tmin t1
        let tmax := match s.tmax with
          | none => t2
          | some m => min m t2
        if tmin > tmax then .ok none else .ok (some ⟨tmin, some tmax⟩) := by
      simp only [slabStep, direct_equals, hd, if_false, hc, hpair]
      rfl
    rw [hrun]
    simp only
    set tmax : K := match s.tmax with
      | none => t2
      | some m => min m t2 with htmax
    have hset : ∀ t, (max s.tmin t1 ≤ t ∧ t ≤ tmax) ↔
        s.mem t ∧ lo ≤ p + t * d ∧ p + t * d ≤ hi := by
      intro t
      rw [hmem]
      unfold Slab.mem
      cases hm : s.tmax with
      | none => simp only [htmax, hm]; simp; tauto
      | some m => simp only [htmax, hm]; simp; tauto
    by_cases hgt : max s.tmin t1 > tmax
    · refine ⟨none, by rw [if_pos hgt], ?_, by simp⟩
      intro _ t h1 h2
      have := (hset t).mpr ⟨h1, h2⟩
      linarith [this.1, this.2]
    · refine ⟨some ⟨max s.tmin t1, some tmax⟩, by rw [if_neg hgt], by simp, ?_⟩
      intro s' hs'
      simp only [Option.some.injEq] at hs'
      subst hs'
      refine ⟨?_, ?_, by simp, by simp⟩
      · intro m hm; simp only [Option.some.injEq] at hm; subst hm; exact not_lt.mp hgt
      · intro t
        rw [← hset t]
        simp [Slab.mem]

end Geometrix
