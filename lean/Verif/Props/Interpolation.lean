import Verif.Lemmas.Interpolation

/-!
# C96: interpolation between vectors and projection

`dotN` is the scalar product of vectors of any dimension.
-/

set_option linter.unusedSectionVars false

namespace Geometrix

variable {n : Nat}

/-- C96: `slerp` of two unit vectors that are not opposite: the result is a unit vector in their plane at the angle `t θ` from
the first and `(1 - t) θ` from the second, `θ` being the angle between them; for `t` between 0 and 1 it is between them.

Partial: opposite vectors are excluded (`C96_slerp_opposite_refuted`). -/
theorem C96_slerp_partial (u v : Fin n → ℝ) (hu : dotN u u = 1) (hv : dotN v v = 1) (hd : v ≠ -u) (t : ℝ) :
    ∃ (w : Fin n → ℝ) (a b : ℝ), slerpN u v t = .ok w ∧ w = a • u + b • v ∧ dotN w w = 1 ∧
      dotN u w = Real.cos (t * Real.arccos (dotN u v)) ∧ dotN w v = Real.cos ((1 - t) * Real.arccos (dotN u v)) ∧
      (0 ≤ t → t ≤ 1 → 0 ≤ a ∧ 0 ≤ b) :=
  slerpN_spec hu hv (fun h => hd (unit_dot_neg hu hv h)) t

example : dotN (![1, 0, 0] : Fin 3 → ℝ) ![1, 0, 0] = 1 ∧ dotN (![0, 3 / 5, 4 / 5] : Fin 3 → ℝ) ![0, 3 / 5, 4 / 5] = 1 ∧
    (![0, 3 / 5, 4 / 5] : Fin 3 → ℝ) ≠ -![1, 0, 0] := by
  refine ⟨by norm_num [dotN, Fin.sum_univ_succ], by norm_num [dotN, Fin.sum_univ_succ], fun h => ?_⟩
  have := congrFun h 0
  norm_num at this

/-- C96: at the ends `slerp` gives the two vectors. -/
theorem C96_slerp_ends (u v : Fin n → ℝ) (hu : dotN u u = 1) (hv : dotN v v = 1) (hd : v ≠ -u) :
    slerpN u v 0 = .ok u ∧ slerpN u v 1 = .ok v := by
  constructor
  · obtain ⟨w, a, b, e, -, h1, h2, -⟩ := C96_slerp_partial u v hu hv hd 0
    rw [zero_mul, Real.cos_zero] at h2
    rw [e, unit_dot_one hu h1 h2]
  · obtain ⟨w, a, b, e, -, h1, -, h2, -⟩ := C96_slerp_partial u v hu hv hd 1
    rw [sub_self, zero_mul, Real.cos_zero] at h2
    rw [e, unit_dot_one h1 hv h2]

example : dotN (![1, 0] : Fin 2 → ℝ) ![1, 0] = 1 ∧ dotN (![0, 1] : Fin 2 → ℝ) ![0, 1] = 1 ∧
    (![0, 1] : Fin 2 → ℝ) ≠ -![1, 0] := by
  refine ⟨by norm_num [dotN, Fin.sum_univ_two], by norm_num [dotN, Fin.sum_univ_two], fun h => ?_⟩
  have := congrFun h 0
  norm_num at this

/-- C96 refuted: `slerp` of opposite unit vectors divides by zero for every `t`, also for 0 and 1. -/
theorem C96_slerp_opposite_refuted (u : Fin n → ℝ) (hu : dotN u u = 1) (t : ℝ) :
    slerpN u (-u) t = .error .divByZero := by
  have e : dotN u (-u) = -1 := by
    have : (-u : Fin n → ℝ) = (-1 : ℝ) • u := by simp
    rw [this, dotN_comm, dotN_smul, hu]; norm_num
  unfold slerpN
  simp only [e]
  norm_num [cdiv]

example : dotN (![1, 0] : Fin 2 → ℝ) ![1, 0] = 1 := by norm_num [dotN, Fin.sum_univ_two]

/-- C96: `lerp` gives the unit vector in the direction of `u + t (v - u)`, and the assertion fails exactly when this is zero. -/
theorem C96_lerp (u v : Fin n → ℝ) (t : ℝ) :
    (u + t • (v - u) = 0 → lerpN u v t = .error .assertFailed) ∧
    (u + t • (v - u) ≠ 0 → ∃ (w : Fin n → ℝ) (k : ℝ), lerpN u v t = .ok w ∧ 0 < k ∧ w = k • (u + t • (v - u)) ∧
      dotN w w = 1) := by
  constructor
  · intro h
    unfold lerpN normalizeN
    rw [h]
    simp [dotN]
  · intro h
    obtain ⟨k, hk, e, h1, -⟩ := normalizeN_ok h
    exact ⟨_, k, e, hk, rfl, h1⟩

/-- C96: `vector_projection` onto a vector other than zero: the multiple of it that is closest to the first vector, and the
difference is orthogonal to it. -/
theorem C96_projection (v1 v2 : Fin n → ℝ) (h : v2 ≠ 0) :
    ∃ (w : Fin n → ℝ) (k : ℝ), projectN v1 v2 = .ok w ∧ w = k • v2 ∧ dotN (v1 - w) v2 = 0 ∧
      ∀ s : ℝ, dotN (v1 - w) (v1 - w) ≤ dotN (v1 - s • v2) (v1 - s • v2) :=
  projectN_spec v1 h

example : (![1, 2] : Fin 2 → ℝ) ≠ 0 := by
  intro h
  have := congrFun h 0
  norm_num at this

end Geometrix
