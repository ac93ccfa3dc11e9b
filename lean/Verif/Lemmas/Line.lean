import Verif.Model.Line
import Verif.Spec.Line
import Verif.Lemmas.PolylineSplit

/-!
# Helper lemmas about lines
-/

set_option linter.unusedSectionVars false

namespace Geometrix

open Spec

theorem dist_swap_arg (A B : P2 ℝ) : Spec.dist B A = Spec.dist A B := dist_comm' B A

theorem makeLine_ok {a b : P2 ℝ} (h : a ≠ b) : makeLine a b = .ok
    ⟨a, (1 / Spec.dist a b) • (b - a), leftNormal ((1 / Spec.dist a b) • (b - a)),
      dot a (leftNormal ((1 / Spec.dist a b) • (b - a)))⟩ := by
  have hd : Spec.dist a b ≠ 0 := fun h' => h (dist_eq_zero'.mp h')
  unfold makeLine makeLineV normalize2
  rw [sqrt_normSq_sub, dist_comm' b a, if_neg hd]

theorem makeLine_same (a : P2 ℝ) : makeLine a a = .error .assertFailed := by
  have : a - a = 0 := by ext <;> simp
  simp [makeLine, makeLineV, normalize2, this, normSq, dot]

theorem dist_sq' (A B : P2 ℝ) : Spec.dist A B ^ 2 = (B.x - A.x) ^ 2 + (B.y - A.y) ^ 2 := by
  unfold Spec.dist; rw [Real.sq_sqrt (by positivity)]

theorem signedDist_eq {a b : P2 ℝ} (h : a ≠ b) {l : Line2} (hl : makeLine a b = .ok l) (p : P2 ℝ) :
    signedPointLineDist p l = area2 a b p / Spec.dist a b := by
  rw [makeLine_ok h] at hl
  obtain rfl := Except.ok.inj hl
  simp only [signedPointLineDist, dot, leftNormal, area2, P2.sub_x, P2.sub_y, P2.smul_x, P2.smul_y]
  ring

theorem lineDistance_spec {a b : P2 ℝ} (h : a ≠ b) {l : Line2} (hl : makeLine a b = .ok l) (p : P2 ℝ) :
    IsLineDistance a b p (pointLineDist p l) := by
  have hd : 0 < Spec.dist a b :=
    lt_of_le_of_ne (dist_nonneg' a b) (fun h' => h (dist_eq_zero'.mp h'.symm))
  have hd2 := dist_sq' a b
  set D := Spec.dist a b with hD
  set c := area2 a b p with hc
  set e := (b.x - a.x) * (p.x - a.x) + (b.y - a.y) * (p.y - a.y) with he
  have key : ∀ t : ℝ, (p.x - (a.x + t * (b.x - a.x))) ^ 2 + (p.y - (a.y + t * (b.y - a.y))) ^ 2 =
      (c / D) ^ 2 + ((e - t * D ^ 2) / D) ^ 2 := by
    intro t
    rw [div_pow, div_pow, ← add_div, eq_div_iff (by positivity)]
    rw [show (e - t * D ^ 2) ^ 2 = (e - t * ((b.x - a.x) ^ 2 + (b.y - a.y) ^ 2)) ^ 2 by rw [hd2]]
    rw [show ((p.x - (a.x + t * (b.x - a.x))) ^ 2 + (p.y - (a.y + t * (b.y - a.y))) ^ 2) * D ^ 2 =
      ((p.x - (a.x + t * (b.x - a.x))) ^ 2 + (p.y - (a.y + t * (b.y - a.y))) ^ 2) *
        ((b.x - a.x) ^ 2 + (b.y - a.y) ^ 2) by rw [hd2]]
    rw [hc, he]; unfold area2; ring
  have hdist : ∀ t : ℝ, Spec.dist p (a + t • (b - a)) =
      Real.sqrt ((c / D) ^ 2 + ((e - t * D ^ 2) / D) ^ 2) := by
    intro t
    rw [← key t]
    unfold Spec.dist
    congr 1
    simp only [P2.add_x, P2.add_y, P2.smul_x, P2.smul_y, P2.sub_x, P2.sub_y]; ring
  have hval : pointLineDist p l = Real.sqrt ((c / D) ^ 2) := by
    rw [pointLineDist, signedDist_eq h hl, Real.sqrt_sq_eq_abs]
  constructor
  · refine ⟨a + (e / D ^ 2) • (b - a), ⟨_, rfl⟩, ?_⟩
    rw [hdist, hval, show e - e / D ^ 2 * D ^ 2 = 0 by field_simp; ring]
    simp
  · rintro Q ⟨t, rfl⟩
    rw [hdist, hval]
    exact Real.sqrt_le_sqrt (le_add_of_nonneg_right (sq_nonneg _))

end Geometrix
