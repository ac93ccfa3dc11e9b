import Verif.Lemmas.Sphere

/-!
# C13: intersection of two circles
-/

set_option linter.unusedSectionVars false

namespace Geometrix

open Spec

/-- The report on two circles is true: the state has the meaning its declaration gives it, and the
points reported are exactly the common points of the circles. The call never divides by zero and never
takes the root of a negative number. -/
theorem C13_circle_circle (cA cB : P2 ℝ) (rA rB : ℝ) (hA : 0 ≤ rA) (hB : 0 ≤ rB) :
    ∃ res, circleCircle Cmp.direct cA rA cB rB = .ok res ∧ IsCircleReport cA rA cB rB res := by
  have hdd := sq_dist cA cB
  have hd0 := Real.sqrt_nonneg (distSq cA cB)
  have hmeet := discs_meet (cA := cA) (cB := cB) hA hB
  have hclose := fun P => dist_le_of_discs (cA := cA) (cB := cB) (P := P) hA hB
  have hinA := disc_inside (cA := cA) (cB := cB) (rA := rA) hB
  have hinB := disc_inside (cA := cB) (cB := cA) (rA := rB) hA
  rw [distSq_comm cB cA] at hinB
  unfold circleCircle
  set d := Real.sqrt (distSq cA cB)
  simp only [direct_gt, direct_lt, direct_equals]
  -- the circles are one inside the other
  have hcirc : d < |rA - rB| →
      ((∀ P, InDisc cA rA P → InDisc cB rB P) ∨ (∀ P, InDisc cB rB P → InDisc cA rA P)) ∧
      ¬ ∃ P, OnCircle cA rA P ∧ OnCircle cB rB P := by
    intro h
    rcases le_total rA rB with hr | hr
    · rw [abs_of_nonpos (by linarith)] at h
      obtain ⟨k1, k2⟩ := hinB (by linarith)
      exact ⟨Or.inl k1, fun ⟨P, p1, p2⟩ => k2 ⟨P, p2, p1⟩⟩
    · rw [abs_of_nonneg (by linarith)] at h
      obtain ⟨k1, k2⟩ := hinA (by linarith)
      exact ⟨Or.inr k1, k2⟩
  have hsame : d = 0 → cA = cB := by
    intro h
    rw [h] at hdd
    ext <;> nlinarith [mul_self_nonneg (cB.x - cA.x), mul_self_nonneg (cB.y - cA.y)]
  have hsame' : cA = cB → d = 0 := by
    intro h
    subst h
    simp at hdd
    exact hdd
  by_cases h1 : rA + rB < d
  · rw [if_pos h1]
    have hno : ¬ ∃ P, InDisc cA rA P ∧ InDisc cB rB P := by
      rintro ⟨P, p1, p2⟩
      have := hclose P p1 p2
      linarith
    refine ⟨_, rfl, ⟨by simp only [true_iff]; exact hno, ?_, ?_, by simp, by simp⟩⟩
    · simp only [reduceCtorEq, false_iff]
      rintro ⟨h | h, -⟩
      · exact hno ⟨cA, inDisc_center, h _ inDisc_center⟩
      · exact hno ⟨cB, h _ inDisc_center, inDisc_center⟩
    · simp only [reduceCtorEq, false_iff]
      rintro ⟨h, -⟩
      have := hsame' h
      linarith
  rw [if_neg h1]
  have hm := hmeet (not_lt.mp h1)
  by_cases h2 : d < |rA - rB|
  · rw [if_pos h2]
    refine ⟨_, rfl, ⟨?_, by simp only [true_iff]; exact hcirc h2, ?_, by simp, by simp⟩⟩
    · simp only [reduceCtorEq, false_iff, not_not]; exact hm
    · simp only [reduceCtorEq, false_iff]
      rintro ⟨-, h⟩
      rw [h] at h2
      simp at h2
      linarith
  rw [if_neg h2]
  have h2' := not_lt.mp h2
  by_cases h3 : d = 0
  · rw [if_pos h3]
    have hr : rA = rB := by
      rw [h3] at h2'
      have := abs_nonpos_iff.mp h2'
      linarith
    refine ⟨_, rfl, ⟨?_, ?_, ?_, by simp, by simp⟩⟩
    · simp only [reduceCtorEq, false_iff, not_not]; exact hm
    · simp only [reduceCtorEq, false_iff]
      rintro ⟨-, h⟩
      refine h ⟨⟨cA.x + rA, cA.y⟩, onCircle_self_right, ?_⟩
      rw [← hsame h3, ← hr]; exact onCircle_self_right
    · simp only [true_iff]; exact ⟨hsame h3, hr⟩
  rw [if_neg h3]
  have hd : 0 < d := lt_of_le_of_ne hd0 (Ne.symm h3)
  have hq := circle_quantities hd (not_lt.mp h1) h2'
  rw [cdiv_ok (by positivity : (2 * d) ≠ 0)]
  simp only [bind, Except.bind]
  rw [csqrt_ok hq, cdiv_ok h3]
  simp only []
  have hh0 := Real.sqrt_nonneg (rA * rA - (rA * rA - rB * rB + d * d) / (2 * d) *
    ((rA * rA - rB * rB + d * d) / (2 * d)))
  have hh := Real.mul_self_sqrt hq
  have ha : 2 * ((rA * rA - rB * rB + d * d) / (2 * d)) * d = rA * rA - rB * rB + d * d := by
    field_simp
  set a := (rA * rA - rB * rB + d * d) / (2 * d)
  set h := Real.sqrt (rA * rA - a * a)
  have hinv : d * (1 / d) = 1 := by field_simp
  set dinv := 1 / d
  have hdinv : 0 < dinv := by positivity
  have core := fun X : P2 ℝ => circle_core (v := cB - cA) (w := X - cA) hd (by simpa using hdd) hinv
    ha hh
  have core' : ∀ X : P2 ℝ, (OnCircle cA rA X ∧ OnCircle cB rB X) ↔
      X = cA + (a * dinv) • (cB - cA) + (h * dinv) • rightNormal (cB - cA) ∨
      X = cA + (a * dinv) • (cB - cA) + (h * dinv) • leftNormal (cB - cA) := by
    intro X
    have := core X
    simp only [P2.sub_x, P2.sub_y] at this
    have e : (X.x - cA.x - (cB.x - cA.x)) ^ 2 + (X.y - cA.y - (cB.y - cA.y)) ^ 2 =
      (X.x - cB.x) ^ 2 + (X.y - cB.y) ^ 2 := by ring
    rw [e] at this
    unfold OnCircle
    rw [this, P2.ext_iff, P2.ext_iff]
    simp only [P2.add_x, P2.add_y, P2.smul_x, P2.smul_y, P2.sub_x, P2.sub_y, rightNormal, leftNormal]
    constructor
    · rintro (⟨e1, e2⟩ | ⟨e1, e2⟩)
      · left; constructor <;> linarith
      · right; constructor <;> linarith
    · rintro (⟨e1, e2⟩ | ⟨e1, e2⟩)
      · left; constructor <;> linarith
      · right; constructor <;> linarith
  have hcommon := (core' _).mpr (Or.inl rfl)
  have hnot : ¬ (((∀ P, InDisc cA rA P → InDisc cB rB P) ∨
      (∀ P, InDisc cB rB P → InDisc cA rA P)) ∧ ¬ ∃ P, OnCircle cA rA P ∧ OnCircle cB rB P) := by
    rintro ⟨-, k⟩
    exact k ⟨_, hcommon⟩
  by_cases h4 : h = 0
  · rw [if_pos h4]
    refine ⟨_, rfl, ⟨?_, ?_, ?_, ?_, by simp⟩⟩
    · simp only [reduceCtorEq, false_iff, not_not]; exact hm
    · simp only [reduceCtorEq, false_iff]; exact hnot
    · simp only [reduceCtorEq, false_iff]
      rintro ⟨k, -⟩
      exact h3 (hsame' k)
    · intro _
      refine ⟨_, rfl, fun X => ?_⟩
      rw [core' X]
      constructor
      · rintro (e | e)
        · exact e
        · rw [e]
          ext <;> simp [h4]
      · exact Or.inl
  · rw [if_neg h4]
    refine ⟨_, rfl, ⟨?_, ?_, ?_, by simp, ?_⟩⟩
    · simp only [reduceCtorEq, false_iff, not_not]; exact hm
    · simp only [reduceCtorEq, false_iff]; exact hnot
    · simp only [reduceCtorEq, false_iff]
      rintro ⟨k, -⟩
      exact h3 (hsame' k)
    · intro _
      refine ⟨_, _, rfl, rfl, ?_, core'⟩
      intro e
      rw [P2.ext_iff] at e
      simp only [P2.add_x, P2.add_y, P2.smul_x, P2.smul_y, P2.sub_x, P2.sub_y, rightNormal,
        leftNormal] at e
      have hp : h * dinv ≠ 0 := mul_ne_zero h4 hdinv.ne'
      have e1 : h * dinv * (cB.y - cA.y) = 0 := by linarith [e.1]
      have e2 : h * dinv * (cB.x - cA.x) = 0 := by linarith [e.2]
      have k1 := (mul_eq_zero.mp e1).resolve_left hp
      have k2 := (mul_eq_zero.mp e2).resolve_left hp
      rw [k1, k2] at hdd
      nlinarith

/-- The reported number of points is the number of common points: with the report above each state is
decided by the centres and radii alone. -/
theorem C13_states (cA cB : P2 ℝ) (rA rB : ℝ) (hA : 0 ≤ rA) (hB : 0 ≤ rB) (res : CircleResult)
    (h : circleCircle Cmp.direct cA rA cB rB = .ok res) :
    (res.state = .one ∨ res.state = .two ∨ res.state = .coincident) ↔
      ∃ P, OnCircle cA rA P ∧ OnCircle cB rB P := by
  obtain ⟨res', e, rep⟩ := C13_circle_circle cA cB rA rB hA hB
  rw [e] at h
  obtain rfl := Except.ok.inj h
  rcases hs : res'.state with _ | _ | _ | _ | _
  · simp only [reduceCtorEq, or_self, false_iff]
    rintro ⟨P, p1, p2⟩
    exact rep.disjoint.mp hs ⟨P, onCircle_inDisc p1, onCircle_inDisc p2⟩
  · simp only [reduceCtorEq, or_self, false_iff]
    exact (rep.inside.mp hs).2
  · simp only [true_or, true_iff]
    obtain ⟨P, -, k⟩ := rep.one hs
    exact ⟨P, (k P).mpr rfl⟩
  · simp only [true_or, or_true, true_iff]
    obtain ⟨P, Q, -, -, -, k⟩ := rep.two hs
    exact ⟨P, (k P).mpr (Or.inl rfl)⟩
  · simp only [or_true, true_iff]
    obtain ⟨rfl, rfl⟩ := rep.same.mp hs
    exact ⟨_, onCircle_self_right, onCircle_self_right⟩

/-- Two circles with two common points, `(4, 3)` and `(4, -3)`. -/
example : ∃ res, circleCircle Cmp.direct ⟨0, 0⟩ 5 ⟨8, 0⟩ 5 = .ok res ∧ res.state = .two := by
  obtain ⟨res, e, rep⟩ := C13_circle_circle ⟨0, 0⟩ ⟨8, 0⟩ 5 5 (by norm_num) (by norm_num)
  refine ⟨res, e, ?_⟩
  have k := (C13_states ⟨0, 0⟩ ⟨8, 0⟩ 5 5 (by norm_num) (by norm_num) res e).mpr
    ⟨⟨4, 3⟩, by norm_num [OnCircle], by norm_num [OnCircle]⟩
  rcases k with k | k | k
  · obtain ⟨P, -, kP⟩ := rep.one k
    have k1 := (kP ⟨4, 3⟩).mp ⟨by norm_num [OnCircle], by norm_num [OnCircle]⟩
    have k2 := (kP ⟨4, -3⟩).mp ⟨by norm_num [OnCircle], by norm_num [OnCircle]⟩
    rw [← k2] at k1
    norm_num [P2.ext_iff] at k1
  · exact k
  · have := (rep.same.mp k).1
    norm_num [P2.ext_iff] at this

end Geometrix
