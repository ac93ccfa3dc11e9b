import Verif.Model.SegmentIntersection3
import Verif.Spec.Box
import Verif.Lemmas.Distance
import Mathlib.Tactic.LinearCombination
import Mathlib.Tactic.FieldSimp

/-!
# Helper lemmas about the intersection of two segments in space
-/

set_option linter.unusedSectionVars false

namespace Geometrix

open Spec

variable {K : Type*} [Field K] [LinearOrder K] [IsStrictOrderedRing K]

/-- The determinant of two vectors is the square of the length of the cross product. -/
theorem lagrange3 (u v : P3 K) : dot3 u u * dot3 v v - dot3 u v * dot3 u v = dot3 (cross3 u v) (cross3 u v) := by
  simp only [dot3, cross3]; ring

theorem dot3_self_eq {u : P3 K} (h : dot3 u u ≤ 0) : u = 0 := by
  simp only [dot3] at h
  have hx := mul_self_nonneg u.x
  have hy := mul_self_nonneg u.y
  have hz := mul_self_nonneg u.z
  ext
  · exact mul_self_eq_zero.1 (by linarith)
  · exact mul_self_eq_zero.1 (by linarith)
  · exact mul_self_eq_zero.1 (by linarith)

theorem dot3_self_pos {u : P3 K} (h : u ≠ 0) : 0 < dot3 u u := by
  by_contra hn
  exact h (dot3_self_eq (not_lt.1 hn))

/-- A vector that is orthogonal to two independent vectors and to their cross product. -/
theorem gram_zero {u v w : P3 K} (hd : 0 < dot3 u u * dot3 v v - dot3 u v * dot3 u v) (h1 : dot3 w u = 0)
    (h2 : dot3 w v = 0) (h3 : dot3 w (cross3 u v) = 0) : w = 0 := by
  rw [lagrange3] at hd
  simp only [dot3, cross3] at hd h1 h2 h3
  have ex : ∀ x : K, x * ((u.y * v.z - u.z * v.y) * (u.y * v.z - u.z * v.y) +
      (u.z * v.x - u.x * v.z) * (u.z * v.x - u.x * v.z) +
      (u.x * v.y - u.y * v.x) * (u.x * v.y - u.y * v.x)) = 0 → x = 0 := by
    intro x hx
    rcases mul_eq_zero.1 hx with h | h
    · exact h
    · exact absurd h hd.ne'
  ext
  · apply ex
    linear_combination (u.y * v.z - u.z * v.y) * h3 +
      (v.y * (u.x * v.y - u.y * v.x) - v.z * (u.z * v.x - u.x * v.z)) * h1 +
      ((u.z * v.x - u.x * v.z) * u.z - (u.x * v.y - u.y * v.x) * u.y) * h2
  · apply ex
    linear_combination (u.z * v.x - u.x * v.z) * h3 +
      (v.z * (u.y * v.z - u.z * v.y) - v.x * (u.x * v.y - u.y * v.x)) * h1 +
      ((u.x * v.y - u.y * v.x) * u.x - (u.y * v.z - u.z * v.y) * u.z) * h2
  · apply ex
    linear_combination (u.x * v.y - u.y * v.x) * h3 +
      (v.x * (u.z * v.x - u.x * v.z) - v.y * (u.y * v.z - u.z * v.y)) * h1 +
      ((u.y * v.z - u.z * v.y) * u.y - (u.z * v.x - u.x * v.z) * u.x) * h2

/-- The crossing of two lines that are not parallel and are in one plane. -/
theorem cross_lines3 {p1 p3 u v : P3 K} (hd : 0 < dot3 u u * dot3 v v - dot3 u v * dot3 u v)
    (hc : dot3 (p3 - p1) (cross3 u v) = 0) (s t : K) :
    p1 + s • u = p3 + t • v ↔
      s = (dot3 u v * dot3 v (p1 - p3) - dot3 v v * dot3 u (p1 - p3)) /
          (dot3 u u * dot3 v v - dot3 u v * dot3 u v) ∧
      t = (dot3 u u * dot3 v (p1 - p3) - dot3 u v * dot3 u (p1 - p3)) /
          (dot3 u u * dot3 v v - dot3 u v * dot3 u v) := by
  rw [eq_div_iff hd.ne', eq_div_iff hd.ne']
  constructor
  · intro h
    have hx := congrArg P3.x h
    have hy := congrArg P3.y h
    have hz := congrArg P3.z h
    simp only [P3.add_x, P3.add_y, P3.add_z, P3.smul_x, P3.smul_y, P3.smul_z] at hx hy hz
    have hu : s * dot3 u u - t * dot3 u v + dot3 u (p1 - p3) = 0 := by
      simp only [dot3, P3.sub_x, P3.sub_y, P3.sub_z]
      linear_combination u.x * hx + u.y * hy + u.z * hz
    have hv : s * dot3 u v - t * dot3 v v + dot3 v (p1 - p3) = 0 := by
      simp only [dot3, P3.sub_x, P3.sub_y, P3.sub_z]
      linear_combination v.x * hx + v.y * hy + v.z * hz
    constructor
    · linear_combination dot3 v v * hu - dot3 u v * hv
    · linear_combination dot3 u v * hu - dot3 u u * hv
  · rintro ⟨hs, ht⟩
    have hne := hd.ne'
    have hw : p1 + s • u - (p3 + t • v) = 0 := by
      apply gram_zero hd
      · have : dot3 (p1 + s • u - (p3 + t • v)) u = s * dot3 u u - t * dot3 u v + dot3 u (p1 - p3) := by
          simp only [dot3, P3.sub_x, P3.sub_y, P3.sub_z, P3.add_x, P3.add_y, P3.add_z, P3.smul_x, P3.smul_y, P3.smul_z]
          ring
        rw [this]
        apply mul_right_cancel₀ hne
        linear_combination dot3 u u * hs - dot3 u v * ht
      · have : dot3 (p1 + s • u - (p3 + t • v)) v = s * dot3 u v - t * dot3 v v + dot3 v (p1 - p3) := by
          simp only [dot3, P3.sub_x, P3.sub_y, P3.sub_z, P3.add_x, P3.add_y, P3.add_z, P3.smul_x, P3.smul_y, P3.smul_z]
          ring
        rw [this]
        apply mul_right_cancel₀ hne
        linear_combination dot3 u v * hs - dot3 v v * ht
      · simp only [dot3, cross3, P3.sub_x, P3.sub_y, P3.sub_z, P3.add_x, P3.add_y, P3.add_z, P3.smul_x, P3.smul_y,
          P3.smul_z] at hc ⊢
        linear_combination -hc
    have hx := congrArg P3.x hw
    have hy := congrArg P3.y hw
    have hz := congrArg P3.z hw
    simp only [P3.sub_x, P3.sub_y, P3.sub_z, P3.zero_x, P3.zero_y, P3.zero_z] at hx hy hz
    ext
    · exact sub_eq_zero.1 hx
    · exact sub_eq_zero.1 hy
    · exact sub_eq_zero.1 hz

/-- A vector that is parallel to another one. -/
theorem parallel3 {u w : P3 K} (hu : u ≠ 0) (h : cross3 u w = 0) : w = (dot3 u w / dot3 u u) • u := by
  have hp := dot3_self_pos hu
  have hx := congrArg P3.x h
  have hy := congrArg P3.y h
  have hz := congrArg P3.z h
  simp only [cross3, P3.zero_x, P3.zero_y, P3.zero_z] at hx hy hz
  ext
  · rw [P3.smul_x, div_mul_eq_mul_div, eq_div_iff hp.ne']
    simp only [dot3]; linear_combination u.z * hy - u.y * hz
  · rw [P3.smul_y, div_mul_eq_mul_div, eq_div_iff hp.ne']
    simp only [dot3]; linear_combination u.x * hz - u.z * hx
  · rw [P3.smul_z, div_mul_eq_mul_div, eq_div_iff hp.ne']
    simp only [dot3]; linear_combination u.y * hx - u.x * hy

theorem param3_inj {p u : P3 K} (hu : u ≠ 0) {s t : K} : p + s • u = p + t • u ↔ s = t := by
  constructor
  · intro h
    have hp := dot3_self_pos hu
    have hx := congrArg P3.x h
    have hy := congrArg P3.y h
    have hz := congrArg P3.z h
    simp only [P3.add_x, P3.add_y, P3.add_z, P3.smul_x, P3.smul_y, P3.smul_z] at hx hy hz
    have : (s - t) * dot3 u u = 0 := by
      simp only [dot3]; linear_combination u.x * hx + u.y * hy + u.z * hz
    rcases mul_eq_zero.1 this with h | h
    · linarith
    · exact absurd h hp.ne'
  · rintro rfl; rfl

/-- Points of a segment that is given by parameters on a line. -/
theorem onSegment3_param {p u : P3 K} (x y : K) (P : P3 K) :
    OnSegment3 (p + x • u) (p + y • u) P ↔ ∃ z, min x y ≤ z ∧ z ≤ max x y ∧ P = p + z • u := by
  constructor
  · rintro ⟨t, h0, h1, rfl⟩
    refine ⟨x + t * (y - x), ?_, ?_, ?_⟩
    · rcases le_total x y with h | h
      · rw [min_eq_left h]; nlinarith
      · rw [min_eq_right h]; nlinarith
    · rcases le_total x y with h | h
      · rw [max_eq_right h]; nlinarith
      · rw [max_eq_left h]; nlinarith
    · ext <;> simp <;> ring
  · rintro ⟨z, h0, h1, rfl⟩
    by_cases hxy : x = y
    · subst hxy
      rw [min_self] at h0
      rw [max_self] at h1
      have : z = x := le_antisymm h1 h0
      exact ⟨0, le_refl _, zero_le_one, by rw [this]; ext <;> simp⟩
    · have hne : y - x ≠ 0 := fun h => hxy (by linarith)
      refine ⟨(z - x) / (y - x), ?_, ?_, ?_⟩
      · rcases lt_or_gt_of_ne hxy with h | h
        · rw [min_eq_left h.le] at h0
          exact div_nonneg (by linarith) (by linarith)
        · rw [max_eq_left h.le] at h1
          exact div_nonneg_of_nonpos (by linarith) (by linarith)
      · rcases lt_or_gt_of_ne hxy with h | h
        · rw [max_eq_right h.le] at h1
          rw [div_le_one (by linarith)]; linarith
        · rw [min_eq_right h.le] at h0
          rw [div_le_one_of_neg (by linarith)]; linarith
      · ext <;> simp <;> field_simp <;> ring

/-- The branch for two segments on one line. -/
theorem collinear3_spec {p u : P3 K} (hu : u ≠ 0) {l h : K} (hlh : l ≤ h) :
    let C := fun P => OnSegment3 p (p + u) P ∧ OnSegment3 (p + l • u) (p + h • u) P
    (collinear3 p u l h = (.nonCrossing, []) ∧ ∀ P, ¬ C P) ∨
    (∃ P, collinear3 p u l h = (.endpoint, [P]) ∧ (P = p ∨ P = p + u) ∧ ∀ Q, C Q ↔ Q = P) ∨
    ∃ P Q, collinear3 p u l h = (.overlapping, [P, Q]) ∧ (l ≠ h → P ≠ Q) ∧ ∀ R, C R ↔ OnSegment3 P Q R := by
  intro C
  have e0 : p + (0 : K) • u = p := by ext <;> simp
  have e1 : p + (1 : K) • u = p + u := by ext <;> simp
  have hC : ∀ P, C P ↔ ∃ z, 0 ≤ z ∧ z ≤ 1 ∧ l ≤ z ∧ z ≤ h ∧ P = p + z • u := by
    intro P
    simp only [C]
    rw [onSegment3_param, ← e1]
    nth_rewrite 1 [← e0]
    rw [onSegment3_param, min_eq_left hlh, max_eq_right hlh, min_eq_left zero_le_one, max_eq_right zero_le_one]
    constructor
    · rintro ⟨⟨z, a1, a2, rfl⟩, w, b1, b2, b3⟩
      rw [param3_inj hu] at b3
      subst b3
      exact ⟨z, a1, a2, b1, b2, rfl⟩
    · rintro ⟨z, a1, a2, b1, b2, rfl⟩
      exact ⟨⟨z, a1, a2, rfl⟩, z, b1, b2, rfl⟩
  unfold collinear3
  by_cases h1 : 1 < l ∨ 0 > h
  · rw [if_pos h1]
    refine Or.inl ⟨rfl, fun P hP => ?_⟩
    obtain ⟨z, a1, a2, b1, b2, -⟩ := (hC P).1 hP
    rcases h1 with h1 | h1 <;> linarith
  · rw [if_neg h1]
    push Not at h1
    by_cases h2 : 1 > l
    · rw [if_pos h2]
      by_cases h3 : 0 < h
      · rw [if_pos h3]
        refine Or.inr (Or.inr ⟨_, _, rfl, ?_, fun R => ?_⟩)
        · intro hne
          have hlt : l < h := lt_of_le_of_ne hlh hne
          split_ifs with k1 k2 k2
          · rw [Ne, param3_inj hu]; exact hlt.ne
          · rw [← e1, Ne, param3_inj hu]; exact h2.ne
          · nth_rewrite 1 [← e0]; rw [Ne, param3_inj hu]; exact h3.ne
          · rw [← e1]; nth_rewrite 1 [← e0]; rw [Ne, param3_inj hu]; exact zero_ne_one
        · have f1 : (if 0 < l then p + l • u else p) = p + max 0 l • u := by
            split_ifs with k
            · rw [max_eq_right k.le]
            · rw [max_eq_left (not_lt.1 k), e0]
          have f2 : (if 1 > h then p + h • u else p + u) = p + min 1 h • u := by
            split_ifs with k
            · rw [min_eq_right (le_of_lt k)]
            · rw [min_eq_left (not_lt.1 k), e1]
          have f3 : max 0 l ≤ min 1 h := by
            rw [max_le_iff, le_min_iff, le_min_iff]
            exact ⟨⟨zero_le_one, h3.le⟩, h2.le, hlh⟩
          rw [f1, f2, onSegment3_param, min_eq_left f3, max_eq_right f3, hC]
          simp only [max_le_iff, le_min_iff]
          constructor
          · rintro ⟨z, a1, a2, b1, b2, c⟩
            exact ⟨z, ⟨a1, b1⟩, ⟨a2, b2⟩, c⟩
          · rintro ⟨z, ⟨a1, b1⟩, ⟨a2, b2⟩, c⟩
            exact ⟨z, a1, a2, b1, b2, c⟩
      · rw [if_neg h3]
        refine Or.inr (Or.inl ⟨_, rfl, Or.inl rfl, fun Q => ?_⟩)
        rw [hC]
        constructor
        · rintro ⟨z, a1, a2, b1, b2, rfl⟩
          have : z = 0 := by linarith
          rw [this, e0]
        · rintro rfl
          exact ⟨0, le_refl _, zero_le_one, by linarith, by linarith, e0.symm⟩
    · rw [if_neg h2]
      refine Or.inr (Or.inl ⟨_, rfl, Or.inr rfl, fun Q => ?_⟩)
      rw [hC]
      constructor
      · rintro ⟨z, a1, a2, b1, b2, rfl⟩
        have : z = 1 := by linarith
        rw [this, e1]
      · rintro rfl
        exact ⟨1, zero_le_one, le_refl _, by linarith, by linarith, e1.symm⟩

theorem paramClass_none (s : K) : paramClass Cmp.direct s = none ↔ ¬ (0 ≤ s ∧ s ≤ 1) := by
  unfold paramClass
  simp only [Cmp.direct, Bool.or_eq_true, decide_eq_true_eq, Bool.and_eq_true]
  split_ifs with h1 h2
  · simp only [true_iff]; rintro ⟨a, b⟩; rcases h1 with h | h <;> linarith
  · simp only [reduceCtorEq, false_iff, not_not]; push Not at h1; exact h1
  · simp only [reduceCtorEq, false_iff, not_not]; push Not at h1; exact h1

theorem paramClass_some {s : K} {i : IType} (h : paramClass Cmp.direct s = some i) : (0 ≤ s ∧ s ≤ 1) ∧
    ((i = .crossing ∧ 0 < s ∧ s < 1) ∨ (i = .endpoint ∧ (s = 0 ∨ s = 1))) := by
  have h0 : 0 ≤ s ∧ s ≤ 1 := by
    by_contra hn
    rw [(paramClass_none s).2 hn] at h
    cases h
  refine ⟨h0, ?_⟩
  unfold paramClass at h
  simp only [Cmp.direct, Bool.or_eq_true, decide_eq_true_eq, Bool.and_eq_true] at h
  split_ifs at h with h1 h2
  · left
    simp only [Option.some.injEq] at h
    exact ⟨h.symm, h2.1, h2.2⟩
  · right
    simp only [Option.some.injEq] at h
    refine ⟨h.symm, ?_⟩
    by_contra hn
    push Not at hn
    exact h2 ⟨lt_of_le_of_ne h0.1 (Ne.symm hn.1), lt_of_le_of_ne h0.2 hn.2⟩

/-- What the function answers. -/
theorem segSeg3_spec {p1 p2 p3 p4 : P3 K} (h12 : p1 ≠ p2) :
    let C := fun P => OnSegment3 p1 p2 P ∧ OnSegment3 p3 p4 P
    (segSegIntersection3 Cmp.direct p1 p2 p3 p4 = .ok (.nonCrossing, []) ∧ ∀ P, ¬ C P) ∨
    (∃ P, segSegIntersection3 Cmp.direct p1 p2 p3 p4 = .ok (.crossing, [P]) ∧
      cross3 (p2 - p1) (p4 - p3) ≠ 0 ∧ P ≠ p3 ∧ P ≠ p4 ∧ ∀ Q, C Q ↔ Q = P) ∨
    (∃ P, segSegIntersection3 Cmp.direct p1 p2 p3 p4 = .ok (.endpoint, [P]) ∧
      (cross3 (p2 - p1) (p4 - p3) ≠ 0 → P = p3 ∨ P = p4) ∧
      (cross3 (p2 - p1) (p4 - p3) = 0 → P = p1 ∨ P = p2) ∧ ∀ Q, C Q ↔ Q = P) ∨
    ∃ P Q, segSegIntersection3 Cmp.direct p1 p2 p3 p4 = .ok (.overlapping, [P, Q]) ∧
      cross3 (p2 - p1) (p4 - p3) = 0 ∧ (p3 ≠ p4 → P ≠ Q) ∧ ∀ R, C R ↔ OnSegment3 P Q R := by
  intro C
  have hu : p2 - p1 ≠ 0 := fun h => h12 (by
    have hx := congrArg P3.x h
    have hy := congrArg P3.y h
    have hz := congrArg P3.z h
    simp only [P3.sub_x, P3.sub_y, P3.sub_z, P3.zero_x, P3.zero_y, P3.zero_z] at hx hy hz
    ext <;> linarith)
  have e4 : ∀ A B : P3 K, A + (B - A) = B := fun A B => by ext <;> simp
  have e5 : ∀ A B : P3 K, A + (1 : K) • (B - A) = B := fun A B => by ext <;> simp
  have e6 : ∀ A B : P3 K, A + (0 : K) • (B - A) = A := fun A B => by ext <;> simp
  have hg : ∀ a b : K, Cmp.direct.gt a b = decide (a > b) := fun _ _ => rfl
  have hq : ∀ a b : K, Cmp.direct.equals a b = decide (a = b) := fun _ _ => rfl
  generalize hres : segSegIntersection3 Cmp.direct p1 p2 p3 p4 = res
  unfold segSegIntersection3 isCoplanar at hres
  simp only [hg, hq, decide_eq_true_eq, Bool.not_eq_true', decide_eq_false_iff_not] at hres
  clear hg hq
  by_cases hc : dot3 (p3 - p1) (cross3 (p2 - p1) (p4 - p3)) = 0
  swap
  · rw [if_pos hc] at hres
    refine Or.inl ⟨hres.symm, ?_⟩
    rintro P ⟨⟨s, -, -, rfl⟩, t, -, -, h⟩
    apply hc
    have hx := congrArg P3.x h
    have hy := congrArg P3.y h
    have hz := congrArg P3.z h
    simp only [P3.add_x, P3.add_y, P3.add_z, P3.smul_x, P3.smul_y, P3.smul_z, P3.sub_x, P3.sub_y, P3.sub_z] at hx hy hz
    generalize hn : cross3 (p2 - p1) (p4 - p3) = n
    have n1 : dot3 (p2 - p1) n = 0 := by rw [← hn]; simp only [dot3, cross3]; ring
    have n2 : dot3 (p4 - p3) n = 0 := by rw [← hn]; simp only [dot3, cross3]; ring
    simp only [dot3, P3.sub_x, P3.sub_y, P3.sub_z] at n1 n2 ⊢
    linear_combination -n.x * hx - n.y * hy - n.z * hz + s * n1 - t * n2
  rw [if_neg (not_not.2 hc)] at hres
  by_cases hd : 0 < dot3 (p2 - p1) (p2 - p1) * dot3 (p4 - p3) (p4 - p3) -
      dot3 (p2 - p1) (p4 - p3) * dot3 (p2 - p1) (p4 - p3)
  · rw [if_pos hd] at hres
    have hcr : cross3 (p2 - p1) (p4 - p3) ≠ 0 := by
      intro h
      rw [lagrange3, h] at hd
      simp [dot3] at hd
    have hv : p4 - p3 ≠ 0 := by
      intro h
      apply hcr
      rw [h]; ext <;> simp [cross3]
    have hl := cross_lines3 (p1 := p1) (p3 := p3) hd hc
    rw [cdiv_ok hd.ne', cdiv_ok hd.ne'] at hres
    generalize (dot3 (p2 - p1) (p4 - p3) * dot3 (p4 - p3) (p1 - p3) -
      dot3 (p4 - p3) (p4 - p3) * dot3 (p2 - p1) (p1 - p3)) / _ = s at *
    generalize (dot3 (p2 - p1) (p2 - p1) * dot3 (p4 - p3) (p1 - p3) -
      dot3 (p2 - p1) (p4 - p3) * dot3 (p2 - p1) (p1 - p3)) / _ = t at *
    have hP : p1 + s • (p2 - p1) = p3 + t • (p4 - p3) := (hl s t).2 ⟨rfl, rfl⟩
    have hCq : ∀ Q, C Q ↔ Q = p1 + s • (p2 - p1) ∧ (0 ≤ s ∧ s ≤ 1) ∧ 0 ≤ t ∧ t ≤ 1 := by
      intro Q
      constructor
      · rintro ⟨⟨s', a1, a2, rfl⟩, t', b1, b2, h⟩
        obtain ⟨rfl, rfl⟩ := (hl s' t').1 h
        exact ⟨rfl, ⟨a1, a2⟩, b1, b2⟩
      · rintro ⟨rfl, ⟨a1, a2⟩, b1, b2⟩
        exact ⟨⟨s, a1, a2, rfl⟩, t, b1, b2, hP⟩
    dsimp only at hres
    cases hs : paramClass Cmp.direct s with
    | none =>
      rw [hs] at hres
      have := (paramClass_none s).1 hs
      exact Or.inl ⟨hres.symm, fun P hC => this ((hCq P).1 hC).2.1⟩
    | some i =>
      rw [hs] at hres
      cases ht : paramClass Cmp.direct t with
      | none =>
        rw [ht] at hres
        have := (paramClass_none t).1 ht
        exact Or.inl ⟨hres.symm, fun P hC => this ((hCq P).1 hC).2.2⟩
      | some j =>
        rw [ht] at hres
        obtain ⟨hs0, -⟩ := paramClass_some hs
        obtain ⟨ht0, hj⟩ := paramClass_some ht
        have hu' : ∀ Q, C Q ↔ Q = p1 + s • (p2 - p1) := fun Q => by
          rw [hCq]; exact ⟨fun h => h.1, fun h => ⟨h, hs0, ht0⟩⟩
        rcases hj with ⟨rfl, k1, k2⟩ | ⟨rfl, k⟩
        · refine Or.inr (Or.inl ⟨_, hres.symm, hcr, ?_, ?_, hu'⟩)
          · rw [hP]; intro h
            exact k1.ne' ((param3_inj hv).1 (h.trans (e6 p3 p4).symm))
          · rw [hP]; intro h
            exact k2.ne ((param3_inj hv).1 (h.trans (e5 p3 p4).symm))
        · refine Or.inr (Or.inr (Or.inl ⟨_, hres.symm, fun _ => ?_, fun h => absurd h hcr, hu'⟩))
          rw [hP]
          rcases k with rfl | rfl
          · left; exact e6 p3 p4
          · right; exact e5 p3 p4
  · rw [if_neg hd] at hres
    rw [lagrange3, not_lt] at hd
    have hcr := dot3_self_eq hd
    by_cases hq : cross3 (p2 - p1) (p3 - p1) = 0
    swap
    · rw [if_pos hq] at hres
      refine Or.inl ⟨hres.symm, ?_⟩
      rintro P ⟨⟨s, -, -, rfl⟩, t, -, -, h⟩
      apply hq
      have hx := congrArg P3.x h
      have hy := congrArg P3.y h
      have hz := congrArg P3.z h
      have cx := congrArg P3.x hcr
      have cy := congrArg P3.y hcr
      have cz := congrArg P3.z hcr
      simp only [cross3, P3.add_x, P3.add_y, P3.add_z, P3.smul_x, P3.smul_y, P3.smul_z, P3.sub_x, P3.sub_y, P3.sub_z,
        P3.zero_x, P3.zero_y, P3.zero_z] at hx hy hz cx cy cz
      ext
      · simp only [cross3, P3.sub_x, P3.sub_y, P3.sub_z, P3.zero_x]
        linear_combination (p2.z - p1.z) * hy - (p2.y - p1.y) * hz - t * cx
      · simp only [cross3, P3.sub_x, P3.sub_y, P3.sub_z, P3.zero_y]
        linear_combination (p2.x - p1.x) * hz - (p2.z - p1.z) * hx - t * cy
      · simp only [cross3, P3.sub_x, P3.sub_y, P3.sub_z, P3.zero_z]
        linear_combination (p2.y - p1.y) * hx - (p2.x - p1.x) * hy - t * cz
    rw [if_neg (not_not.2 hq)] at hres
    have hpos := dot3_self_pos hu
    rw [cdiv_ok hpos.ne', cdiv_ok hpos.ne'] at hres
    have h3 := parallel3 hu hq
    have h4 := parallel3 hu hcr
    generalize dot3 (p2 - p1) (p3 - p1) / dot3 (p2 - p1) (p2 - p1) = s0 at *
    generalize dot3 (p2 - p1) (p4 - p3) / dot3 (p2 - p1) (p2 - p1) = x at *
    have E3 : p3 = p1 + s0 • (p2 - p1) := by rw [← h3, e4]
    have E4 : p4 = p1 + (s0 + x) • (p2 - p1) := by
      have hx := congrArg P3.x h4
      have hy := congrArg P3.y h4
      have hz := congrArg P3.z h4
      have kx := congrArg P3.x E3
      have ky := congrArg P3.y E3
      have kz := congrArg P3.z E3
      simp only [P3.add_x, P3.add_y, P3.add_z, P3.smul_x, P3.smul_y, P3.smul_z, P3.sub_x, P3.sub_y, P3.sub_z]
        at hx hy hz kx ky kz
      ext <;> simp only [P3.add_x, P3.add_y, P3.add_z, P3.smul_x, P3.smul_y, P3.smul_z, P3.sub_x, P3.sub_y, P3.sub_z]
      · linear_combination hx + kx
      · linear_combination hy + ky
      · linear_combination hz + kz
    dsimp only at hres
    have sym : ∀ A B P : P3 K, OnSegment3 A B P ↔ OnSegment3 B A P := by
      intro A B P
      constructor <;>
      · rintro ⟨t, h0, h1, rfl⟩
        exact ⟨1 - t, by linarith, by linarith, by ext <;> simp <;> ring⟩
    have fin : ∀ l h : K, l ≤ h → (∀ P, OnSegment3 p3 p4 P ↔ OnSegment3 (p1 + l • (p2 - p1)) (p1 + h • (p2 - p1)) P) →
        (p3 ≠ p4 → l ≠ h) →
        ((Except.ok (collinear3 p1 (p2 - p1) l h) : Res (IType × List (P3 K))) = .ok (.nonCrossing, []) ∧ ∀ P, ¬ C P) ∨
        (∃ P, (Except.ok (collinear3 p1 (p2 - p1) l h) : Res (IType × List (P3 K))) = .ok (.crossing, [P]) ∧
          cross3 (p2 - p1) (p4 - p3) ≠ 0 ∧ P ≠ p3 ∧ P ≠ p4 ∧ ∀ Q, C Q ↔ Q = P) ∨
        (∃ P, (Except.ok (collinear3 p1 (p2 - p1) l h) : Res (IType × List (P3 K))) = .ok (.endpoint, [P]) ∧
          (cross3 (p2 - p1) (p4 - p3) ≠ 0 → P = p3 ∨ P = p4) ∧
          (cross3 (p2 - p1) (p4 - p3) = 0 → P = p1 ∨ P = p2) ∧ ∀ Q, C Q ↔ Q = P) ∨
        ∃ P Q, (Except.ok (collinear3 p1 (p2 - p1) l h) : Res (IType × List (P3 K))) = .ok (.overlapping, [P, Q]) ∧
          cross3 (p2 - p1) (p4 - p3) = 0 ∧ (p3 ≠ p4 → P ≠ Q) ∧ ∀ R, C R ↔ OnSegment3 P Q R := by
      intro l h hlh hon hne
      have := collinear3_spec (p := p1) hu hlh
      simp only [e4, ← hon] at this
      rcases this with ⟨a, b⟩ | ⟨P, a, b, c⟩ | ⟨P, Q, a, b, c⟩
      · exact Or.inl ⟨by rw [a], b⟩
      · exact Or.inr (Or.inr (Or.inl ⟨P, by rw [a], fun h => absurd hcr h, fun _ => b, c⟩))
      · exact Or.inr (Or.inr (Or.inr ⟨P, Q, by rw [a], hcr, fun h => b (hne h), c⟩))
    split_ifs at hres with hlt
    · rw [← hres]
      refine fin _ _ hlt.le (fun P => ?_) (fun _ => hlt.ne)
      nth_rewrite 1 [E4]
      nth_rewrite 1 [E3]
      exact sym _ _ _
    · rw [← hres]
      refine fin _ _ (not_lt.1 hlt) (fun P => ?_) (fun hne h => hne ?_)
      · nth_rewrite 1 [E4]
        nth_rewrite 1 [E3]
        exact Iff.rfl
      · rw [E4, ← h, ← E3]

end Geometrix
