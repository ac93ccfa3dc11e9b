import Verif.Model.RayIntersection
import Verif.Lemmas.LineIntersection
import Verif.Lemmas.Orientation

/-!
# Helper lemmas for rays
-/

set_option linter.unusedSectionVars false

namespace Geometrix

open Spec

variable {K : Type*} [Field K] [LinearOrder K] [IsStrictOrderedRing K]

theorem dot_leftNormal (a v : P2 K) : dot a (leftNormal v) = cross v a := by
  simp only [dot, leftNormal, cross]; ring

/-- The computed ray and segment parameters solve the intersection equation. -/
theorem ray_solves {O v A w : P2 K} (h : cross v w ≠ 0) :
    O + (cross w (O - A) / cross v w) • v = A + (cross v (O - A) / cross v w) • w := by
  ext
  · simp only [P2.add_x, P2.smul_x]
    rw [div_mul_eq_mul_div, div_mul_eq_mul_div]
    have e : O.x - A.x = (cross v (O - A) * w.x - cross w (O - A) * v.x) / cross v w := by
      rw [eq_div_iff h]; simp only [cross, P2.sub_x, P2.sub_y]; ring
    rw [sub_div] at e
    linear_combination e
  · simp only [P2.add_y, P2.smul_y]
    rw [div_mul_eq_mul_div, div_mul_eq_mul_div]
    have e : O.y - A.y = (cross v (O - A) * w.y - cross w (O - A) * v.y) / cross v w := by
      rw [eq_div_iff h]; simp only [cross, P2.sub_x, P2.sub_y]; ring
    rw [sub_div] at e
    linear_combination e

theorem ray_unique {O v A w : P2 K} (h : cross v w ≠ 0) {s t : K}
    (he : O + s • v = A + t • w) :
    s = cross w (O - A) / cross v w ∧ t = cross v (O - A) / cross v w := by
  have hx := congrArg P2.x he
  have hy := congrArg P2.y he
  simp only [P2.add_x, P2.smul_x, P2.add_y, P2.smul_y] at hx hy
  constructor
  · rw [eq_div_iff h]
    simp only [cross, P2.sub_x, P2.sub_y]
    linear_combination w.y * hx - w.x * hy
  · rw [eq_div_iff h]
    simp only [cross, P2.sub_x, P2.sub_y]
    linear_combination v.y * hx - v.x * hy

theorem orient_collinear_iff {A B O : P2 K} (hAB : A ≠ B) :
    getOrientation Cmp.direct A B O = .collinear ↔ OnLine A B O := by
  rw [(orientation_sign A B O).2.2]
  have : area2 A B O = cross (B - A) (O - A) := by
    simp only [area2, cross, P2.sub_x, P2.sub_y]
  rw [this, cross_eq_zero_iff (sub_ne_zero_P2 hAB)]
  constructor
  · rintro ⟨r, hr⟩; refine ⟨r, ?_⟩; rw [← hr]; ext <;> simp
  · rintro ⟨r, rfl⟩; exact ⟨r, by ext <;> simp⟩

theorem orientV_collinear_iff (u w : P2 K) :
    getOrientationV Cmp.direct u w = .collinear ↔ cross u w = 0 := by
  have h := (orientation_sign (0 : P2 K) u w).2.2
  have e1 : getOrientation Cmp.direct (0 : P2 K) u w = getOrientationV Cmp.direct u w := by
    have h0 : ∀ p : P2 K, p - 0 = p := by intro p; ext <;> simp
    simp only [getOrientation, h0]
  have e2 : area2 (0 : P2 K) u w = cross u w := by
    simp [area2, cross]
  rw [e1, e2] at h
  exact h

theorem unit_ne_zero {v : P2 K} (hv : dot v v = 1) : v ≠ 0 := by
  rintro rfl; simp [dot] at hv

end Geometrix
