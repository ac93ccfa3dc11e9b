import Verif.Model.Orientation
import Verif.Spec.Geometry
import Verif.Spec.Policy

/-!
# Helper lemmas about plane vectors
-/

set_option linter.unusedSectionVars false

namespace Geometrix

open Spec

variable {K : Type*} [Field K] [LinearOrder K] [IsStrictOrderedRing K]

theorem seqEquals_direct (A B : P2 K) : seqEquals Cmp.direct A B = true ↔ A = B := by
  simp [seqEquals, P2.ext_iff, and_comm]

theorem P2.ne_zero_iff (v : P2 K) : v ≠ 0 ↔ (v.x ≠ 0 ∨ v.y ≠ 0) := by
  rw [Ne, P2.ext_iff, not_and_or]; simp

theorem normSq_pos {v : P2 K} (h : v ≠ 0) : 0 < normSq v := by
  rw [P2.ne_zero_iff] at h
  unfold normSq dot
  rcases h with h | h
  · have := mul_self_pos.mpr h; nlinarith [mul_self_nonneg v.y]
  · have := mul_self_pos.mpr h; nlinarith [mul_self_nonneg v.x]

theorem normSq_nonneg (v : P2 K) : 0 ≤ normSq v := by
  unfold normSq dot; nlinarith [mul_self_nonneg v.x, mul_self_nonneg v.y]

theorem normSq_eq_zero {v : P2 K} : normSq v = 0 ↔ v = 0 := by
  constructor
  · intro h
    by_contra hv
    exact (normSq_pos hv).ne' h
  · rintro rfl; simp [normSq, dot]

theorem sub_ne_zero_P2 {A B : P2 K} (h : A ≠ B) : B - A ≠ 0 := by
  intro h0
  apply h
  have hx : B.x - A.x = 0 := congrArg P2.x h0
  have hy : B.y - A.y = 0 := congrArg P2.y h0
  ext
  · linarith
  · linarith

theorem sub_eq_zero_P2 {A B : P2 K} : B - A = 0 ↔ A = B := by
  constructor
  · intro h; by_contra hn; exact sub_ne_zero_P2 hn h
  · rintro rfl; ext <;> simp

theorem distSq_eq_sqDist (A B : P2 K) : distSq A B = sqDist A B := by
  simp only [distSq, normSq, dot, sqDist, P2.sub_x, P2.sub_y]; ring

theorem sqDist_nonneg (A B : P2 K) : 0 ≤ sqDist A B := by
  unfold sqDist; positivity

theorem sqDist_comm (A B : P2 K) : sqDist A B = sqDist B A := by
  unfold sqDist; ring

theorem sqDist_eq_zero {A B : P2 K} : sqDist A B = 0 ↔ A = B := by
  rw [← distSq_eq_sqDist, distSq, normSq_eq_zero, sub_eq_zero_P2]

/-- Parallel to a non zero vector means being a multiple of it. -/
theorem cross_eq_zero_iff {a b : P2 K} (ha : a ≠ 0) : cross a b = 0 ↔ ∃ r : K, b = r • a := by
  constructor
  · intro h
    have hn := normSq_pos ha
    refine ⟨dot a b / normSq a, ?_⟩
    have hn' := hn.ne'
    unfold cross at h
    ext
    · simp only [P2.smul_x]
      rw [div_mul_eq_mul_div, eq_div_iff hn']
      unfold normSq dot
      linear_combination a.y * (-1) * h
    · simp only [P2.smul_y]
      rw [div_mul_eq_mul_div, eq_div_iff hn']
      unfold normSq dot
      linear_combination a.x * h
  · rintro ⟨r, rfl⟩
    simp only [cross, P2.smul_x, P2.smul_y]; ring

/-- Collinear and not opposed means a positive multiple. -/
theorem sameDirection_iff {a b : P2 K} (ha : a ≠ 0) (hb : b ≠ 0) :
    SameDirection a b ↔ cross a b = 0 ∧ 0 ≤ dot a b := by
  constructor
  · rintro ⟨r, hr, rfl⟩
    refine ⟨by simp only [cross, P2.smul_x, P2.smul_y]; ring, ?_⟩
    have : dot a (r • a) = r * normSq a := by
      simp only [dot, normSq, P2.smul_x, P2.smul_y]; ring
    rw [this]
    have := normSq_nonneg a
    positivity
  · rintro ⟨h, hd⟩
    obtain ⟨r, rfl⟩ := (cross_eq_zero_iff ha).mp h
    refine ⟨r, ?_, rfl⟩
    have h1 : dot a (r • a) = r * normSq a := by
      simp only [dot, normSq, P2.smul_x, P2.smul_y]; ring
    rw [h1] at hd
    have hn := normSq_pos ha
    have hr : 0 ≤ r := by
      by_contra hlt
      push Not at hlt
      nlinarith
    rcases hr.lt_or_eq with h | h
    · exact h
    · exfalso; apply hb; rw [← h]; ext <;> simp

theorem cross_smul_left (r : K) (a b : P2 K) : cross (r • a) b = r * cross a b := by
  simp only [cross, P2.smul_x, P2.smul_y]; ring

theorem cross_smul_right (r : K) (a b : P2 K) : cross a (r • b) = r * cross a b := by
  simp only [cross, P2.smul_x, P2.smul_y]; ring

theorem cross_swap (a b : P2 K) : cross b a = -cross a b := by
  simp only [cross]; ring

theorem cross_self (a : P2 K) : cross a a = 0 := by
  simp only [cross]; ring

theorem dot_comm_P2 (a b : P2 K) : dot a b = dot b a := by
  simp only [dot]; ring

/-- Lagrange's identity. -/
theorem lagrange (a b : P2 K) : dot a b ^ 2 + cross a b ^ 2 = normSq a * normSq b := by
  simp only [dot, cross, normSq]; ring

end Geometrix
