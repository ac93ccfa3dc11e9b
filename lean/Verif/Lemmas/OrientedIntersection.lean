import Verif.Lemmas.CollinearSegments
import Verif.Lemmas.Orientation

/-!
# Lemmas on `oriented_intersection`
-/

set_option linter.unusedSectionVars false

namespace Geometrix

open Spec

variable {K : Type*} [Field K] [LinearOrder K] [IsStrictOrderedRing K]

/-- The area is affine in its last point. -/
theorem area2_along (A B P Q : P2 K) (t : K) :
    area2 A B (P + t • (Q - P)) = (1 - t) * area2 A B P + t * area2 A B Q := by
  simp only [area2, P2.add_x, P2.add_y, P2.smul_x, P2.smul_y, P2.sub_x, P2.sub_y]; ring

theorem area2_onSegment {A B P : P2 K} (h : OnSegment A B P) : area2 A B P = 0 := by
  obtain ⟨t, _, _, rfl⟩ := h
  simp only [area2, P2.add_x, P2.add_y, P2.smul_x, P2.smul_y, P2.sub_x, P2.sub_y]; ring

/-- Points on the same side of a line: no common point. -/
theorem no_common_same_side {p1 p2 p3 p4 : P2 K} (h : 0 < area2 p3 p4 p1 * area2 p3 p4 p2) :
    ¬ ∃ P, Common p1 p2 p3 p4 P := by
  rintro ⟨P, ⟨t, h0, h1, rfl⟩, hP⟩
  have h2 := area2_onSegment hP
  rw [area2_along] at h2
  have h3 : 0 < (area2 p3 p4 p1) ^ 2 := by
    have : area2 p3 p4 p1 ≠ 0 := by
      intro hz; rw [hz, zero_mul] at h; exact lt_irrefl _ h
    positivity
  have h4 : (1 - t) * (area2 p3 p4 p1) ^ 2 + t * (area2 p3 p4 p1 * area2 p3 p4 p2) = 0 := by
    linear_combination area2 p3 p4 p1 * h2
  have h5 : 0 ≤ (1 - t) * (area2 p3 p4 p1) ^ 2 := mul_nonneg (by linarith) h3.le
  have h6 : 0 ≤ t * (area2 p3 p4 p1 * area2 p3 p4 p2) := mul_nonneg h0 h.le
  have h7 : t * (area2 p3 p4 p1 * area2 p3 p4 p2) = 0 := by linarith
  have h8 : (1 - t) * (area2 p3 p4 p1) ^ 2 = 0 := by linarith
  rcases mul_eq_zero.1 h7 with h | h'
  · rw [h] at h8; linarith
  · linarith

/-- Points on different sides of a line: there is a common point exactly if the ends of the other segment are
not strictly on the same side of the first. -/
theorem common_iff_opposite {p1 p2 p3 p4 : P2 K} (h : area2 p3 p4 p1 * area2 p3 p4 p2 < 0) :
    (∃ P, Common p1 p2 p3 p4 P) ↔ area2 p1 p2 p3 * area2 p1 p2 p4 ≤ 0 := by
  constructor
  · rintro ⟨P, h1, h2⟩
    by_contra hc
    rw [not_le] at hc
    exact no_common_same_side hc ⟨P, h2, h1⟩
  · intro hc
    set a1 := area2 p3 p4 p1 with ha1
    set a2 := area2 p3 p4 p2 with ha2
    set b3 := area2 p1 p2 p3 with hb3
    set b4 := area2 p1 p2 p4 with hb4
    have key : b4 - b3 = -(a2 - a1) := by
      rw [ha1, ha2, hb3, hb4]; simp only [area2]; ring
    have hd : a1 - a2 ≠ 0 := by
      intro hz
      have : a1 = a2 := sub_eq_zero.1 hz
      rw [this] at h
      nlinarith [mul_self_nonneg a2]
    have hbd : b4 - b3 ≠ 0 := by rw [key]; intro hz; exact hd (by linarith)
    have range : ∀ u v : K, u * v ≤ 0 → u - v ≠ 0 → 0 ≤ u / (u - v) ∧ u / (u - v) ≤ 1 := by
      intro u v huv hne
      rcases lt_or_gt_of_ne hne with hlt | hgt
      · have hu : u ≤ 0 := by
          by_contra hu; rw [not_le] at hu; nlinarith
        have hv : 0 ≤ v := by
          by_contra hv; rw [not_le] at hv; nlinarith
        exact ⟨div_nonneg_of_nonpos hu hlt.le, by rw [div_le_one_of_neg hlt]; linarith⟩
      · have hu : 0 ≤ u := by
          by_contra hu; rw [not_le] at hu; nlinarith
        have hv : v ≤ 0 := by
          by_contra hv; rw [not_le] at hv; nlinarith
        exact ⟨div_nonneg hu hgt.le, by rw [div_le_one hgt]; linarith⟩
    obtain ⟨t0, t1⟩ := range a1 a2 h.le hd
    have hbd' : b3 - b4 ≠ 0 := by intro hz; exact hbd (by linarith)
    obtain ⟨s0, s1⟩ := range b3 b4 hc hbd'
    refine ⟨p1 + (a1 / (a1 - a2)) • (p2 - p1), ⟨_, t0, t1, rfl⟩, b3 / (b3 - b4), s0, s1, ?_⟩
    have e : b3 - b4 = -(a1 - a2) := by linarith
    rw [e]
    ext
    · simp only [P2.add_x, P2.smul_x, P2.sub_x]
      field_simp
      rw [ha1, ha2, hb3]; simp only [area2]; ring
    · simp only [P2.add_y, P2.smul_y, P2.sub_y]
      field_simp
      rw [ha1, ha2, hb3]; simp only [area2]; ring

/-- Open betweenness of scalars. -/
def SBtw (p q r : K) : Prop := (p < r ∧ r < q) ∨ (q < r ∧ r < p)

instance (p q r : K) : Decidable (SBtw p q r) := by unfold SBtw; infer_instance

theorem isBetween_open_param {o v : P2 K} (hv : v ≠ 0) {p q r : K} (hpq : p ≠ q) :
    isBetween Cmp.direct (o + p • v) (o + q • v) (o + r • v) false = decide (SBtw p q r) := by
  have hne : o + p • v ≠ o + q • v := fun h => hpq ((param_inj hv).1 h)
  have hqp : q - p ≠ 0 := sub_ne_zero.2 (Ne.symm hpq)
  have e : o + r • v = (o + p • v) + ((r - p) / (q - p)) • ((o + q • v) - (o + p • v)) := by
    ext
    · simp only [P2.add_x, P2.smul_x, P2.sub_x]; field_simp; ring
    · simp only [P2.add_y, P2.smul_y, P2.sub_y]; field_simp; ring
  unfold isBetween
  rw [isCollinear_param, Bool.true_and, Bool.eq_iff_iff, decide_eq_true_iff, e, (betweenCore_param hne _).2]
  unfold SBtw
  rcases lt_or_gt_of_ne hpq with h | h
  · rw [div_lt_one (by linarith), div_pos_iff_of_pos_right (by linarith)]
    constructor
    · rintro ⟨h1, h2⟩; left; constructor <;> linarith
    · rintro (⟨h1, h2⟩ | ⟨h1, h2⟩)
      · constructor <;> linarith
      · exact absurd (h1.trans h2) (not_lt.2 h.le)
  · rw [div_lt_one_of_neg (by linarith), div_pos_iff]
    constructor
    · rintro ⟨⟨h1, h2⟩ | ⟨h1, h2⟩, h3⟩
      · linarith
      · right; constructor <;> linarith
    · rintro (⟨h1, h2⟩ | ⟨h1, h2⟩)
      · exact absurd (h1.trans h2) (not_lt.2 (le_of_lt h))
      · exact ⟨Or.inr ⟨by linarith, by linarith⟩, by linarith⟩

theorem getOrientation_ne_collinear {A B C : P2 K} (h : area2 A B C ≠ 0) :
    getOrientation Cmp.direct A B C ≠ .collinear := fun hc => h ((orientation_sign A B C).2.2.1 hc)

theorem orient_mul_nonpos (A B C D : P2 K) :
    (getOrientation Cmp.direct A B C).toInt * (getOrientation Cmp.direct A B D).toInt ≤ 0 ↔
      area2 A B C * area2 A B D ≤ 0 := by
  obtain ⟨c1, c2, c3⟩ := orientation_sign A B C
  obtain ⟨d1, d2, d3⟩ := orientation_sign A B D
  cases hC : getOrientation Cmp.direct A B C <;> cases hD : getOrientation Cmp.direct A B D <;>
    simp only [hC, hD, Orient.toInt, reduceCtorEq, false_iff, true_iff] at *
  · constructor
    · intro h; norm_num at h
    · intro h; nlinarith
  · simp [d3]
  · constructor
    · intro _; nlinarith
    · intro _; norm_num
  · simp [c3]
  · simp [c3]
  · simp [c3]
  · constructor
    · intro _; nlinarith
    · intro _; norm_num
  · simp [d3]
  · constructor
    · intro h; norm_num at h
    · intro h; nlinarith

theorem insideSegment_symm {A B P : P2 K} (h : InsideSegment A B P) : InsideSegment B A P := by
  obtain ⟨t, h0, h1, rfl⟩ := h
  refine ⟨1 - t, by linarith, by linarith, ?_⟩
  ext <;> simp <;> ring

theorem not_inside_start {A B : P2 K} (h : A ≠ B) : ¬ InsideSegment A B A := by
  rintro ⟨t, h0, h1, e⟩
  have e' : A + (0 : K) • (B - A) = A + t • (B - A) := by rw [P2.add_zero_param]; exact e
  rw [param_inj (sub_ne_zero_P2 h)] at e'
  exact h0.ne e'

theorem not_inside_end {A B : P2 K} (h : A ≠ B) : ¬ InsideSegment A B B :=
  fun hi => not_inside_start h.symm (insideSegment_symm hi)

theorem not_inside_both {A B C : P2 K} (h : A ≠ B) (h1 : InsideSegment A B C) : ¬ InsideSegment A C B := by
  rintro ⟨s, s0, s1, e⟩
  obtain ⟨t, t0, t1, rfl⟩ := h1
  have e' : A + (1 : K) • (B - A) = A + (s * t) • (B - A) := by
    rw [P2.add_sub_cancel_param]
    conv_lhs => rw [e]
    ext <;> simp <;> ring
  rw [param_inj (sub_ne_zero_P2 h)] at e'
  nlinarith

theorem isBetween_open_iff {A B C : P2 K} (h : A ≠ B) :
    isBetween Cmp.direct A B C false = true ↔ InsideSegment A B C := by
  unfold isBetween
  rw [Bool.and_eq_true, collinear_iff_onLine h]
  constructor
  · rintro ⟨⟨t, rfl⟩, hb⟩
    obtain ⟨h0, h1⟩ := (betweenCore_param h t).2.mp hb
    exact ⟨t, h0, h1, rfl⟩
  · rintro ⟨t, h0, h1, rfl⟩
    exact ⟨⟨t, rfl⟩, (betweenCore_param h t).2.mpr ⟨h0, h1⟩⟩

theorem isBetween_open_eq {A B C : P2 K} (h : A ≠ B) (hn : ¬ InsideSegment A B C) :
    isBetween Cmp.direct A B C false = false := by
  rw [← Bool.not_eq_true, isBetween_open_iff h]; exact hn

theorem seqEquals_eq_decide [DecidableEq (P2 K)] (A B : P2 K) : seqEquals Cmp.direct A B = decide (A = B) := by
  rw [Bool.eq_iff_iff, seqEquals_direct, decide_eq_true_iff]

/-- The branch of the code for a point of the first segment on the line of the second. -/
theorem orientedIntersection_on_line {p1 p2 p3 p4 : P2 K} (h : area2 p3 p4 p1 = 0 ∨ area2 p3 p4 p2 = 0) :
    orientedIntersection Cmp.direct p1 p2 p3 p4 =
      (let p3b := isBetween Cmp.direct p1 p2 p3 false
      let p4b := isBetween Cmp.direct p1 p2 p4 false
      let p1b := isBetween Cmp.direct p3 p4 p1 false
      let p2b := isBetween Cmp.direct p3 p4 p2 false
      if (p3b && p4b) || (p1b && p2b) || (p3b && p2b) || (p3b && p1b) || (p4b && p2b) || (p4b && p1b) then .overlapping
      else if (p1 = p3 ∧ p2 = p4) ∨ (p1 = p4 ∧ p2 = p3) then .overlapping
      else if p1 = p3 ∨ p1 = p4 ∨ p2 = p3 ∨ p2 = p4 then .endpoint
      else .nonCrossing) := by
  have hc : (decide (getOrientation Cmp.direct p3 p4 p1 ≠ .collinear) &&
      decide (getOrientation Cmp.direct p3 p4 p2 ≠ .collinear)) = false := by
    rcases h with h | h
    · rw [(orientation_sign p3 p4 p1).2.2.2 h]; simp
    · rw [(orientation_sign p3 p4 p2).2.2.2 h]; simp
  unfold orientedIntersection
  simp only [hc, Bool.false_eq_true, if_false, seqEquals_eq_decide]
  generalize isBetween Cmp.direct p1 p2 p3 false = b3
  generalize isBetween Cmp.direct p1 p2 p4 false = b4
  generalize isBetween Cmp.direct p3 p4 p1 false = b1
  generalize isBetween Cmp.direct p3 p4 p2 false = b2
  by_cases e1 : p1 = p3 <;> by_cases e2 : p1 = p4 <;> by_cases e3 : p2 = p3 <;> by_cases e4 : p2 = p4 <;>
    simp only [e1, e2, e3, e4, decide_true, decide_false] <;>
    cases b1 <;> cases b2 <;> cases b3 <;> cases b4 <;> simp

theorem exists_common_param {o v : P2 K} (hv : v ≠ 0) (a b c d : K) :
    (∃ P, Common (o + a • v) (o + b • v) (o + c • v) (o + d • v) P) ↔ ∃ x, Btw a b x ∧ Btw c d x := by
  constructor
  · rintro ⟨P, h1, h2⟩
    obtain ⟨x, rfl, hx⟩ := (onSegment_segAt hv (a, b) P).1 h1
    exact ⟨x, hx, (onSegment_param hv _ _ _).1 h2⟩
  · rintro ⟨x, h1, h2⟩
    exact ⟨o + x • v, (onSegment_param hv _ _ _).2 h1, (onSegment_param hv _ _ _).2 h2⟩

end Geometrix
