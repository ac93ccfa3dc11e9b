import Verif.Lemmas.OrientedIntersection
import Verif.Spec.Intersection

/-!
# C51: `oriented_intersection`
-/

set_option linter.unusedSectionVars false

namespace Geometrix

open Spec

variable {K : Type*} [Field K] [LinearOrder K] [IsStrictOrderedRing K]

/-- When neither end of the first segment is on the line of the second, the answer is right: the segments are
reported not to cross exactly if they have no common point, and otherwise the answer says from which side to
which side of the line from `p3` to `p4` the first segment runs. -/
theorem C51_crossing_partial (p1 p2 p3 p4 : P2 K) (h1 : area2 p3 p4 p1 ≠ 0) (h2 : area2 p3 p4 p2 ≠ 0) :
    (orientedIntersection Cmp.direct p1 p2 p3 p4 = .nonCrossing ↔ ¬ ∃ P, Common p1 p2 p3 p4 P) ∧
    (orientedIntersection Cmp.direct p1 p2 p3 p4 = .leftRight ↔
      (∃ P, Common p1 p2 p3 p4 P) ∧ 0 < area2 p3 p4 p1 ∧ area2 p3 p4 p2 < 0) ∧
    (orientedIntersection Cmp.direct p1 p2 p3 p4 = .rightLeft ↔
      (∃ P, Common p1 p2 p3 p4 P) ∧ area2 p3 p4 p1 < 0 ∧ 0 < area2 p3 p4 p2) := by
  have n1 := getOrientation_ne_collinear h1
  have n2 := getOrientation_ne_collinear h2
  obtain ⟨c1, c2, -⟩ := orientation_sign p3 p4 p1
  obtain ⟨d1, d2, -⟩ := orientation_sign p3 p4 p2
  have hm := orient_mul_nonpos p1 p2 p3 p4
  have hs := no_common_same_side (p1 := p1) (p2 := p2) (p3 := p3) (p4 := p4)
  have ho := common_iff_opposite (p1 := p1) (p2 := p2) (p3 := p3) (p4 := p4)
  unfold orientedIntersection
  simp only [n1, n2, ne_eq, not_false_eq_true, decide_true, Bool.and_self, if_true]
  rcases lt_or_gt_of_ne h1 with s1 | s1 <;> rcases lt_or_gt_of_ne h2 with s2 | s2
  · have := hs (mul_pos_of_neg_of_neg s1 s2)
    rw [c2.2 s1, d2.2 s2]
    simp [Orient.toInt, this]
  · have := ho (mul_neg_of_neg_of_pos s1 s2)
    rw [← hm] at this
    rw [c2.2 s1, d1.2 s2, this]
    generalize Orient.toInt _ * Orient.toInt _ = m at this ⊢
    by_cases hm : m ≤ 0 <;> simp [Orient.toInt, s1, s2, s1.not_gt, s2.not_gt, hm]
  · have := ho (mul_neg_of_pos_of_neg s1 s2)
    rw [← hm] at this
    rw [c1.2 s1, d2.2 s2, this]
    generalize Orient.toInt _ * Orient.toInt _ = m at this ⊢
    by_cases hm : m ≤ 0 <;> simp [Orient.toInt, s1, s2, s1.not_gt, s2.not_gt, hm]
  · have := hs (mul_pos s1 s2)
    rw [c1.2 s1, d1.2 s2]
    simp [Orient.toInt, this]

/-- A segment that crosses the other from left to right, and one that ends before it. -/
example : area2 (⟨0, 0⟩ : P2 ℚ) ⟨2, 0⟩ ⟨1, 1⟩ ≠ 0 ∧ area2 (⟨0, 0⟩ : P2 ℚ) ⟨2, 0⟩ ⟨1, -1⟩ ≠ 0 ∧
    orientedIntersection Cmp.direct (⟨1, 1⟩ : P2 ℚ) ⟨1, -1⟩ ⟨0, 0⟩ ⟨2, 0⟩ = .leftRight ∧
    orientedIntersection Cmp.direct (⟨1, -1⟩ : P2 ℚ) ⟨0, 1⟩ ⟨0, 0⟩ ⟨2, 0⟩ = .rightLeft ∧
    orientedIntersection Cmp.direct (⟨1, 1⟩ : P2 ℚ) ⟨5, -1⟩ ⟨0, 0⟩ ⟨2, 0⟩ = .nonCrossing := by
  decide +kernel

/-- When all four points are on a line and no two ends are equal, the answer is right: the segments overlap
exactly if they have a common point. -/
theorem C51_collinear_partial (p1 p2 p3 p4 : P2 K) (h12 : p1 ≠ p2) (h34 : p3 ≠ p4) (h3 : OnLine p1 p2 p3)
    (h4 : OnLine p1 p2 p4) (n13 : p1 ≠ p3) (n14 : p1 ≠ p4) (n23 : p2 ≠ p3) (n24 : p2 ≠ p4) :
    (orientedIntersection Cmp.direct p1 p2 p3 p4 = .overlapping ↔ ∃ P, Common p1 p2 p3 p4 P) ∧
    (orientedIntersection Cmp.direct p1 p2 p3 p4 = .nonCrossing ↔ ¬ ∃ P, Common p1 p2 p3 p4 P) := by
  obtain ⟨c, hc⟩ := h3
  obtain ⟨d, hd⟩ := h4
  have hv := sub_ne_zero_P2 h12
  have e1 : p1 = p1 + (0 : K) • (p2 - p1) := (P2.add_zero_param _ _).symm
  have e2 : p2 = p1 + (1 : K) • (p2 - p1) := (P2.add_sub_cancel_param _ _).symm
  have ha : area2 p3 p4 p1 = 0 := by
    rw [hc, hd]; simp only [area2, P2.add_x, P2.add_y, P2.smul_x, P2.smul_y, P2.sub_x, P2.sub_y]; ring
  have hcd : c ≠ d := fun h => h34 (by rw [hc, hd, h])
  have c0 : c ≠ 0 := fun h => n13 (by rw [hc, h]; exact e1)
  have d0 : d ≠ 0 := fun h => n14 (by rw [hd, h]; exact e1)
  have c1 : c ≠ 1 := fun h => n23 (by rw [hc, h]; exact e2)
  have d1 : d ≠ 1 := fun h => n24 (by rw [hd, h]; exact e2)
  have h01 : (0 : K) < 1 := zero_lt_one
  have b3 : isBetween Cmp.direct p1 p2 p3 false = decide (SBtw 0 1 c) := by
    rw [← isBetween_open_param (o := p1) hv (zero_ne_one), ← e1, ← e2, ← hc]
  have b4 : isBetween Cmp.direct p1 p2 p4 false = decide (SBtw 0 1 d) := by
    rw [← isBetween_open_param (o := p1) hv (zero_ne_one), ← e1, ← e2, ← hd]
  have b1 : isBetween Cmp.direct p3 p4 p1 false = decide (SBtw c d 0) := by
    rw [← isBetween_open_param (o := p1) hv hcd, ← e1, ← hc, ← hd]
  have b2 : isBetween Cmp.direct p3 p4 p2 false = decide (SBtw c d 1) := by
    rw [← isBetween_open_param (o := p1) hv hcd, ← e2, ← hc, ← hd]
  have hcom : (∃ P, Common p1 p2 p3 p4 P) ↔ ∃ x, Btw 0 1 x ∧ Btw c d x := by
    rw [← exists_common_param (o := p1) hv, ← e1, ← e2, ← hc, ← hd]
  rw [orientedIntersection_on_line (Or.inl ha), hcom]
  simp only [b1, b2, b3, b4, n13, n14, n23, n24, false_and, or_self, if_false, Bool.or_eq_true, Bool.and_eq_true,
    decide_eq_true_iff]
  have key : (∃ x, Btw 0 1 x ∧ Btw c d x) ↔
      ((((((SBtw 0 1 c ∧ SBtw 0 1 d) ∨ SBtw c d 0 ∧ SBtw c d 1) ∨ SBtw 0 1 c ∧ SBtw c d 1) ∨
        SBtw 0 1 c ∧ SBtw c d 0) ∨ SBtw 0 1 d ∧ SBtw c d 1) ∨ SBtw 0 1 d ∧ SBtw c d 0) := by
    constructor
    · rintro ⟨x, hx⟩
      simp only [Btw, SBtw] at *; grind
    · intro h
      by_cases hc01 : SBtw 0 1 c
      · exact ⟨c, by simp only [Btw, SBtw] at *; grind, btw_self _ _⟩
      · by_cases hd01 : SBtw 0 1 d
        · exact ⟨d, by simp only [Btw, SBtw] at *; grind, by simp only [Btw]; grind⟩
        · exact ⟨0, btw_self _ _, by simp only [Btw, SBtw] at *; grind⟩
  rw [key]
  split_ifs with h
  · exact ⟨⟨fun _ => h, fun _ => rfl⟩, ⟨fun hh => by simp at hh, fun hh => absurd h hh⟩⟩
  · exact ⟨⟨fun hh => by simp at hh, fun hh => absurd hh h⟩, ⟨fun _ => h, fun _ => rfl⟩⟩

/-- Collinear segments that overlap, and some that do not. -/
example : OnLine (⟨0, 0⟩ : P2 ℚ) ⟨2, 2⟩ ⟨1, 1⟩ ∧ OnLine (⟨0, 0⟩ : P2 ℚ) ⟨2, 2⟩ ⟨3, 3⟩ ∧
    orientedIntersection Cmp.direct (⟨0, 0⟩ : P2 ℚ) ⟨2, 2⟩ ⟨1, 1⟩ ⟨3, 3⟩ = .overlapping ∧
    orientedIntersection Cmp.direct (⟨0, 0⟩ : P2 ℚ) ⟨2, 2⟩ ⟨4, 4⟩ ⟨3, 3⟩ = .nonCrossing := by
  refine ⟨⟨1 / 2, by decide +kernel⟩, ⟨3 / 2, by decide +kernel⟩, by decide +kernel, by decide +kernel⟩

/-- When the segments share an end, `overlapping` is reported exactly if they are the same segment, in the same
or the opposite direction, and otherwise `endpoint`. Missing: an answer `overlapping` also for segments with a
common end that overlap. -/
theorem C51_shared_end_partial (p1 p2 p3 p4 : P2 K) (h12 : p1 ≠ p2) (h34 : p3 ≠ p4)
    (h : p1 = p3 ∨ p1 = p4 ∨ p2 = p3 ∨ p2 = p4) :
    orientedIntersection Cmp.direct p1 p2 p3 p4 =
      if (p1 = p3 ∧ p2 = p4) ∨ (p1 = p4 ∧ p2 = p3) then .overlapping else .endpoint := by
  have z1 : ∀ A B : P2 K, area2 A B A = 0 := fun A B => by simp only [area2]; ring
  have z2 : ∀ A B : P2 K, area2 A B B = 0 := fun A B => by simp only [area2]; ring
  have ha : area2 p3 p4 p1 = 0 ∨ area2 p3 p4 p2 = 0 := by
    rcases h with rfl | rfl | rfl | rfl
    · exact Or.inl (z1 _ _)
    · exact Or.inl (z2 _ _)
    · exact Or.inr (z1 _ _)
    · exact Or.inr (z2 _ _)
  rw [orientedIntersection_on_line ha]
  simp only [Bool.or_eq_true, Bool.and_eq_true, isBetween_open_iff h12, isBetween_open_iff h34]
  rw [if_neg]
  · rw [if_pos h]
  · rcases h with rfl | rfl | rfl | rfl
    · have a1 := not_inside_start h12
      have a2 := not_inside_start h34
      have a3 := fun g => not_inside_both (C := p4) h12 g
      simp only [Bool.or_eq_true, Bool.and_eq_true, isBetween_open_iff h12, isBetween_open_iff h34]
      tauto
    · have a1 := not_inside_start h12
      have a2 := not_inside_end h34
      have a3 : InsideSegment p1 p2 p3 → ¬ InsideSegment p3 p1 p2 :=
        fun g g' => not_inside_both h12 g (insideSegment_symm g')
      simp only [Bool.or_eq_true, Bool.and_eq_true, isBetween_open_iff h12, isBetween_open_iff h34]
      tauto
    · have a1 := not_inside_end h12
      have a2 := not_inside_start h34
      have a3 : InsideSegment p1 p2 p4 → ¬ InsideSegment p2 p4 p1 :=
        fun g g' => not_inside_both h12.symm (insideSegment_symm g) g'
      simp only [Bool.or_eq_true, Bool.and_eq_true, isBetween_open_iff h12, isBetween_open_iff h34]
      tauto
    · have a1 := not_inside_end h12
      have a2 := not_inside_end h34
      have a3 : InsideSegment p1 p2 p3 → ¬ InsideSegment p3 p2 p1 :=
        fun g g' => not_inside_both h12.symm (insideSegment_symm g) (insideSegment_symm g')
      simp only [Bool.or_eq_true, Bool.and_eq_true, isBetween_open_iff h12, isBetween_open_iff h34]
      tauto

example : orientedIntersection Cmp.direct (⟨0, 0⟩ : P2 ℚ) ⟨2, 2⟩ ⟨5, 1⟩ ⟨2, 2⟩ = .endpoint ∧
    orientedIntersection Cmp.direct (⟨0, 0⟩ : P2 ℚ) ⟨2, 2⟩ ⟨2, 2⟩ ⟨0, 0⟩ = .overlapping := by decide +kernel

/-- When exactly one end of the first segment is on the line of the second and is not an end of it, the answer is
always that there is no crossing. This is right only if that end is outside the second segment. -/
theorem C51_touching_partial (p1 p2 p3 p4 : P2 K) (h12 : p1 ≠ p2) (h34 : p3 ≠ p4)
    (h : area2 p3 p4 p1 = 0 ∧ area2 p3 p4 p2 ≠ 0 ∨ area2 p3 p4 p1 ≠ 0 ∧ area2 p3 p4 p2 = 0)
    (n13 : p1 ≠ p3) (n14 : p1 ≠ p4) (n23 : p2 ≠ p3) (n24 : p2 ≠ p4) :
    orientedIntersection Cmp.direct p1 p2 p3 p4 = .nonCrossing := by
  rw [orientedIntersection_on_line (h.imp And.left And.right)]
  simp only [Bool.or_eq_true, Bool.and_eq_true, isBetween_open_iff h12, isBetween_open_iff h34, n13, n14, n23, n24,
    false_and, or_self, if_false]
  rw [if_neg]
  have hb : ∀ q, area2 p3 p4 q = 0 → ¬ InsideSegment p1 p2 q := by
    rintro q hq ⟨t, t0, t1, rfl⟩
    rw [area2_along] at hq
    rcases h with ⟨h1, h2⟩ | ⟨h1, h2⟩
    · rw [h1, mul_zero, zero_add] at hq
      exact (mul_ne_zero t0.ne' h2) hq
    · rw [h2, mul_zero, add_zero] at hq
      exact (mul_ne_zero (by linarith) h1) hq
  have a3 := hb p3 (by simp only [area2]; ring)
  have a4 := hb p4 (by simp only [area2]; ring)
  have ho : ∀ q, InsideSegment p3 p4 q → area2 p3 p4 q = 0 := by
    rintro q ⟨t, t0, t1, rfl⟩
    exact area2_onSegment ⟨t, t0.le, t1.le, rfl⟩
  have o1 := ho p1
  have o2 := ho p2
  simp only [Bool.or_eq_true, Bool.and_eq_true, isBetween_open_iff h12, isBetween_open_iff h34]
  tauto

/-- C51 is false when an end of the first segment is inside the second: the segments touch in one point, which
is reported as no crossing. The same pair with the arguments exchanged is reported to cross. -/
theorem C51_touching_refuted :
    orientedIntersection Cmp.direct (⟨1, 0⟩ : P2 ℚ) ⟨1, 1⟩ ⟨0, 0⟩ ⟨2, 0⟩ = .nonCrossing ∧
    Common (⟨1, 0⟩ : P2 ℚ) ⟨1, 1⟩ ⟨0, 0⟩ ⟨2, 0⟩ ⟨1, 0⟩ ∧
    orientedIntersection Cmp.direct (⟨0, 0⟩ : P2 ℚ) ⟨2, 0⟩ ⟨1, 0⟩ ⟨1, 1⟩ = .leftRight := by
  refine ⟨by decide +kernel, ⟨⟨0, by norm_num, by norm_num, by decide +kernel⟩,
    ⟨1 / 2, by norm_num, by norm_num, by decide +kernel⟩⟩, by decide +kernel⟩

/-- C51 is false for collinear segments with a common end: these overlap, which is reported as an endpoint. -/
theorem C51_shared_end_refuted :
    orientedIntersection Cmp.direct (⟨0, 0⟩ : P2 ℚ) ⟨2, 0⟩ ⟨0, 0⟩ ⟨1, 0⟩ = .endpoint ∧
    ∀ t : ℚ, 0 ≤ t → t ≤ 1 → Common (⟨0, 0⟩ : P2 ℚ) ⟨2, 0⟩ ⟨0, 0⟩ ⟨1, 0⟩ ⟨t, 0⟩ := by
  refine ⟨by decide +kernel, fun t h0 h1 => ⟨⟨t / 2, by linarith, by linarith, ?_⟩, ⟨t, h0, h1, ?_⟩⟩⟩
  · ext <;> simp
  · ext <;> simp

end Geometrix
