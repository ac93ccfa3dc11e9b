import Verif.Lemmas.MovingSpheres

/-!
# C64: two moving spheres

The full statement, for discs with `0 ≤ r0` and `0 ≤ r1`:
`∃ o, movingSpheres Cmp.direct c0 r0 c1 r1 v0 v1 = .ok o ∧ IsMovingDiscsAnswer c0 r0 c1 r1 v0 v1 o`.
-/

set_option linter.unusedSectionVars false

namespace Geometrix

open Spec

/-- Two discs that are apart at the start, or touch and approach each other. Missing from the full statement: discs
that overlap at the start, discs that touch at the start and do not approach each other, and two discs of radius
zero. -/
theorem C64_apart_partial (c0 c1 v0 v1 : P2 ℝ) (r0 r1 : ℝ) (h0 : 0 ≤ r0) (h1 : 0 ≤ r1) (hr : 0 < r0 + r1)
    (hs : (r0 + r1) ^ 2 < sqDist c0 c1 ∨ (r0 + r1) ^ 2 = sqDist c0 c1 ∧ dot (v1 - v0) (c1 - c0) < 0) :
    ∃ o, movingSpheres Cmp.direct c0 r0 c1 r1 v0 v1 = .ok o ∧ IsMovingDiscsAnswer c0 r0 c1 r1 v0 v1 o := by
  obtain ⟨o, ho, hf, hq⟩ := movingSpheres_spec c0 c1 v0 v1 r0 r1 h0 h1 hr hs
  refine ⟨o, ho, isFirst_congr hf (fun _ => Iff.rfl) (fun t _ => discs_meet_iff h0 h1), fun t q h => (hq t q h).2⟩

/-- Two discs that are apart and meet later. -/
example : (0 : ℝ) < 1 + 2 ∧ ((1 : ℝ) + 2) ^ 2 < sqDist (⟨0, 0⟩ : P2 ℝ) ⟨5, 1⟩ ∧
    ∃ P, InDisc ((⟨0, 0⟩ : P2 ℝ) + (3 : ℝ) • ⟨1, 0⟩) 1 P ∧ InDisc ((⟨5, 1⟩ : P2 ℝ) + (3 : ℝ) • ⟨0, 0⟩) 2 P := by
  refine ⟨by norm_num, by simp only [sqDist]; norm_num, ⟨4, 0⟩, ?_, ?_⟩ <;>
    simp only [InDisc, P2.add_x, P2.add_y, P2.smul_x, P2.smul_y] <;> norm_num

/-- Two discs that overlap at the start: the time is zero, which is right, but the point is not written. -/
theorem C64_overlap_partial (c0 c1 v0 v1 : P2 ℝ) (r0 r1 : ℝ) (h0 : 0 ≤ r0) (h1 : 0 ≤ r1)
    (hs : sqDist c0 c1 < (r0 + r1) ^ 2) :
    movingSpheres Cmp.direct c0 r0 c1 r1 v0 v1 = .ok (some (0, none)) ∧
      IsFirst (0 ≤ ·) (fun t => ∃ P, InDisc (c0 + t • v0) r0 P ∧ InDisc (c1 + t • v1) r1 P) (some 0) := by
  have e : dot (c1 - c0) (c1 - c0) - (r1 + r0) * (r1 + r0) < 0 := by
    simp only [sqDist] at hs
    simp only [dot, P2.sub_x, P2.sub_y]
    nlinarith
  refine ⟨?_, le_refl _, ?_, fun t ht _ => ht⟩
  · unfold movingSpheres
    simp only [direct_lt, decide_eq_true_eq]
    rw [if_pos e]
  · refine (discs_meet_iff h0 h1).2 ?_
    simp only [sqDist, P2.add_x, P2.add_y, P2.smul_x, P2.smul_y, zero_mul, add_zero] at hs ⊢
    exact hs.le

example : sqDist (⟨0, 0⟩ : P2 ℝ) ⟨2, 0⟩ < ((1 : ℝ) + 2) ^ 2 := by simp only [sqDist]; norm_num

/-- Whenever two discs that are apart or touch are at rest or do not approach each other, the answer is `false`. -/
theorem C64_receding_partial (c0 c1 v0 v1 : P2 ℝ) (r0 r1 : ℝ) (hs : (r0 + r1) ^ 2 ≤ sqDist c0 c1)
    (hv : 0 ≤ dot (v1 - v0) (c1 - c0)) : movingSpheres Cmp.direct c0 r0 c1 r1 v0 v1 = .ok none := by
  have e : ¬ dot (c1 - c0) (c1 - c0) - (r1 + r0) * (r1 + r0) < 0 := by
    simp only [sqDist] at hs
    simp only [dot, P2.sub_x, P2.sub_y]
    nlinarith
  unfold movingSpheres
  simp only [direct_lt, direct_ge, decide_eq_true_eq]
  rw [if_neg e, if_neg (not_lt.2 (dot_self_nonneg _)), if_pos hv]

example : ((1 : ℝ) + 1) ^ 2 ≤ sqDist (⟨0, 0⟩ : P2 ℝ) ⟨2, 0⟩ ∧
    (0 : ℝ) ≤ dot ((⟨1, 0⟩ : P2 ℝ) - ⟨0, 1⟩) (⟨2, 0⟩ - ⟨0, 0⟩) := by
  refine ⟨by simp only [sqDist]; norm_num, by simp [dot]⟩

/-- Two unit discs that touch and are at rest have a common point at every time, but the answer is `false`. -/
theorem C64_touching_refuted : ∃ (c0 c1 v0 v1 : P2 ℝ) (r0 r1 : ℝ), 0 < r0 ∧ 0 < r1 ∧
    (∀ t : ℝ, ∃ P, InDisc (c0 + t • v0) r0 P ∧ InDisc (c1 + t • v1) r1 P) ∧
    movingSpheres Cmp.direct c0 r0 c1 r1 v0 v1 = .ok none ∧
    ¬ ∃ o, movingSpheres Cmp.direct c0 r0 c1 r1 v0 v1 = .ok o ∧ IsMovingDiscsAnswer c0 r0 c1 r1 v0 v1 o := by
  have hm : ∀ t : ℝ, ∃ P, InDisc ((⟨0, 0⟩ : P2 ℝ) + t • ⟨0, 0⟩) 1 P ∧ InDisc ((⟨2, 0⟩ : P2 ℝ) + t • ⟨0, 0⟩) 1 P := by
    intro t
    refine ⟨⟨1, 0⟩, ?_, ?_⟩ <;> simp only [InDisc, P2.add_x, P2.add_y, P2.smul_x, P2.smul_y] <;> norm_num
  have hn : movingSpheres Cmp.direct ⟨0, 0⟩ 1 ⟨2, 0⟩ 1 ⟨0, 0⟩ ⟨0, 0⟩ = .ok none :=
    C64_receding_partial _ _ _ _ _ _ (by simp only [sqDist]; norm_num) (by simp [dot])
  refine ⟨⟨0, 0⟩, ⟨2, 0⟩, ⟨0, 0⟩, ⟨0, 0⟩, 1, 1, by norm_num, by norm_num, hm, hn, ?_⟩
  rintro ⟨o, ho, hf, -⟩
  rw [hn] at ho
  cases ho
  exact hf 0 (le_refl _) (hm 0)

/-- For discs that overlap at the start the point is not written. -/
theorem C64_overlap_refuted : ∃ (c0 c1 v0 v1 : P2 ℝ) (r0 r1 : ℝ), 0 < r0 ∧ 0 < r1 ∧
    (∃ P, OnCircle c0 r0 P ∧ OnCircle c1 r1 P) ∧
    ¬ ∃ o, movingSpheres Cmp.direct c0 r0 c1 r1 v0 v1 = .ok o ∧ IsMovingDiscsAnswer c0 r0 c1 r1 v0 v1 o := by
  have hn : movingSpheres Cmp.direct ⟨0, 0⟩ 5 ⟨8, 0⟩ 5 ⟨0, 0⟩ ⟨0, 0⟩ = .ok (some (0, none)) :=
    (C64_overlap_partial _ _ _ _ _ _ (by norm_num) (by norm_num) (by simp only [sqDist]; norm_num)).1
  refine ⟨⟨0, 0⟩, ⟨8, 0⟩, ⟨0, 0⟩, ⟨0, 0⟩, 5, 5, by norm_num, by norm_num, ⟨⟨4, 3⟩, ?_, ?_⟩, ?_⟩
  · simp only [OnCircle]; norm_num
  · simp only [OnCircle]; norm_num
  · rintro ⟨o, ho, -, hq⟩
    rw [hn] at ho
    cases ho
    obtain ⟨Q, h, -⟩ := hq 0 none rfl
    cases h

/-- Two points that meet: the direction from one to the other is normalized although it is zero, which fails an
assertion. -/
theorem C64_points_refuted : ∃ (c0 c1 v0 v1 : P2 ℝ),
    movingSpheres Cmp.direct c0 0 c1 0 v0 v1 = .error .assertFailed := by
  refine ⟨⟨0, 0⟩, ⟨1, 0⟩, ⟨1, 0⟩, ⟨0, 0⟩, ?_⟩
  unfold movingSpheres
  norm_num [dot, csqrt, cdiv, normalize2, normSq]

end Geometrix
