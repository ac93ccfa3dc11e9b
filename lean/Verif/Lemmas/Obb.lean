import Verif.Spec.Obb
import Verif.Lemmas.Distance
import Mathlib.Analysis.Convex.Radon
import Mathlib.LinearAlgebra.Dimension.Constructions

set_option linter.unusedSectionVars false

namespace Geometrix

open Spec

variable {K : Type*} [Field K] [LinearOrder K] [IsStrictOrderedRing K]

theorem frame {u v : P2 K} (hu : dot u u = 1) (hv : dot v v = 1) (huv : dot u v = 0) :
    ∃ δ : K, δ * δ = 1 ∧ v.x = -(δ * u.y) ∧ v.y = δ * u.x := by
  refine ⟨cross u v, ?_, ?_, ?_⟩
  · have : cross u v * cross u v = dot u u * dot v v - dot u v * dot u v := by
      simp only [cross, dot]; ring
    rw [this, hu, hv, huv]; ring
  · simp only [dot, cross] at *
    linear_combination (-v.x) * hu + u.x * huv
  · simp only [dot, cross] at *
    linear_combination (-v.y) * hu + u.y * huv

/-- Coordinates in an orthonormal frame. -/
theorem frame_coords {u v : P2 K} (hu : dot u u = 1) (hv : dot v v = 1) (huv : dot u v = 0)
    (d : P2 K) : d = dot d u • u + dot d v • v := by
  obtain ⟨δ, h1, h2, h3⟩ := frame hu hv huv
  simp only [dot] at hu
  ext
  · simp only [dot, P2.add_x, P2.smul_x, h2, h3]
    linear_combination (-d.x) * hu - (d.x * u.y * u.y - d.y * u.x * u.y) * (h1 )
  · simp only [dot, P2.add_y, P2.smul_y, h2, h3]
    linear_combination (-d.y) * hu - (d.y * u.x * u.x - d.x * u.x * u.y) * (h1)

theorem inObb_iff {o : Obb K} (h : ValidObb o) (P : P2 K) :
    InObb o P ↔ |dot (P - o.center) o.u| ≤ o.hu ∧ |dot (P - o.center) o.v| ≤ o.hv := by
  obtain ⟨h1, h2, h3, h4, h5⟩ := h
  constructor
  · rintro ⟨s, t, hs, ht, rfl⟩
    have e1 : dot (o.center + s • o.u + t • o.v - o.center) o.u = s := by
      simp only [dot, P2.add_x, P2.add_y, P2.sub_x, P2.sub_y, P2.smul_x, P2.smul_y] at *
      linear_combination s * h1 + t * h3
    have e2 : dot (o.center + s • o.u + t • o.v - o.center) o.v = t := by
      simp only [dot, P2.add_x, P2.add_y, P2.sub_x, P2.sub_y, P2.smul_x, P2.smul_y] at *
      linear_combination t * h2 + s * h3
    rw [e1, e2]; exact ⟨hs, ht⟩
  · rintro ⟨hs, ht⟩
    refine ⟨_, _, hs, ht, ?_⟩
    have := frame_coords h1 h2 h3 (P - o.center)
    have hx := congrArg P2.x this
    have hy := congrArg P2.y this
    simp only [P2.add_x, P2.add_y, P2.sub_x, P2.sub_y, P2.smul_x, P2.smul_y] at hx hy
    ext
    · simp only [P2.add_x, P2.smul_x]; linear_combination hx
    · simp only [P2.add_y, P2.smul_y]; linear_combination hy

/-- A box meets a strip whenever the projections overlap. -/
theorem obb_strip {o : Obb K} (hu : 0 ≤ o.hu) (hv : 0 ≤ o.hv) (n : P2 K) (k w : K)
    (hw : 0 ≤ w)
    (h : |dot o.center n - k| ≤ w + (o.hu * |dot n o.u| + o.hv * |dot n o.v|)) :
    ∃ P, InObb o P ∧ |dot P n - k| ≤ w := by
  obtain ⟨σ, hσ1, hσ2⟩ : ∃ σ : K, |σ| ≤ 1 ∧ σ * dot n o.u = |dot n o.u| := by
    rcases le_total 0 (dot n o.u) with h0 | h0
    · exact ⟨1, by simp, by rw [abs_of_nonneg h0, one_mul]⟩
    · exact ⟨-1, by simp, by rw [abs_of_nonpos h0]; ring⟩
  obtain ⟨τ, hτ1, hτ2⟩ : ∃ τ : K, |τ| ≤ 1 ∧ τ * dot n o.v = |dot n o.v| := by
    rcases le_total 0 (dot n o.v) with h0 | h0
    · exact ⟨1, by simp, by rw [abs_of_nonneg h0, one_mul]⟩
    · exact ⟨-1, by simp, by rw [abs_of_nonpos h0]; ring⟩
  set D := dot o.center n - k with hD
  set R := o.hu * |dot n o.u| + o.hv * |dot n o.v| with hR
  have hR0 : 0 ≤ R := add_nonneg (mul_nonneg hu (abs_nonneg _)) (mul_nonneg hv (abs_nonneg _))
  obtain ⟨l, hl1, hl2⟩ : ∃ l : K, |l| ≤ 1 ∧ |D + l * R| ≤ w := by
    rcases le_total |D| R with hDR | hDR
    · rcases hR0.eq_or_lt with h0 | h0
      · refine ⟨0, by simp, ?_⟩
        rw [← h0] at hDR
        rw [zero_mul, add_zero, abs_nonpos_iff.mp hDR, abs_zero]; exact hw
      · refine ⟨-(D / R), ?_, ?_⟩
        · rw [abs_neg, abs_div, abs_of_pos h0, div_le_one h0]; exact hDR
        · have : D + -(D / R) * R = 0 := by field_simp; ring
          rw [this, abs_zero]; exact hw
    · rcases le_total 0 D with h0 | h0
      · rw [abs_of_nonneg h0] at h hDR
        refine ⟨-1, by simp, ?_⟩
        rw [abs_of_nonneg (by linarith)]; linarith
      · rw [abs_of_nonpos h0] at h hDR
        refine ⟨1, by simp, ?_⟩
        rw [abs_of_nonpos (by linarith)]; linarith
  have hbound : ∀ (a h : K), |a| ≤ 1 → 0 ≤ h → |l * a * h| ≤ h := by
    intro a h ha hh
    rw [abs_mul, abs_mul, abs_of_nonneg hh]
    have : |l| * |a| ≤ 1 := mul_le_one₀ hl1 (abs_nonneg _) ha
    calc |l| * |a| * h ≤ 1 * h := mul_le_mul_of_nonneg_right this hh
      _ = h := one_mul _
  refine ⟨_, ⟨l * σ * o.hu, l * τ * o.hv, hbound _ _ hσ1 hu, hbound _ _ hτ1 hv, rfl⟩, ?_⟩
  have e : dot (o.center + (l * σ * o.hu) • o.u + (l * τ * o.hv) • o.v) n - k = D + l * R := by
    rw [hD, hR, ← hσ2, ← hτ2]
    simp only [dot, P2.add_x, P2.add_y, P2.smul_x, P2.smul_y]
    ring
  rw [e]; exact hl2

/-- Four strips of the plane meet if every three of them do. -/
theorem four_strips (n : Fin 4 → P2 K) (k w : Fin 4 → K)
    (h : ∀ i, ∃ P : P2 K, ∀ j, j ≠ i → |dot P (n j) - k j| ≤ w j) :
    ∃ P : P2 K, ∀ j, |dot P (n j) - k j| ≤ w j := by
  let F : Fin 4 → Set (K × K) := fun j => {z | |z.1 * (n j).x + z.2 * (n j).y - k j| ≤ w j}
  have hconv : ∀ i ∈ (Finset.univ : Finset (Fin 4)), Convex K (F i) := by
    intro i _ a ha b hb s t hs ht hst
    simp only [F, Set.mem_ofPred_eq, Prod.fst_add, Prod.snd_add, Prod.smul_fst, Prod.smul_snd,
      smul_eq_mul] at *
    rw [abs_le] at *
    have e : (s * a.1 + t * b.1) * (n i).x + (s * a.2 + t * b.2) * (n i).y - k i =
        s * (a.1 * (n i).x + a.2 * (n i).y - k i) + t * (b.1 * (n i).x + b.2 * (n i).y - k i) := by
      linear_combination k i * hst
    have ew : w i = s * w i + t * w i := by linear_combination (-(w i)) * hst
    rw [e]
    constructor
    · nlinarith [mul_le_mul_of_nonneg_left ha.1 hs, mul_le_mul_of_nonneg_left hb.1 ht]
    · nlinarith [mul_le_mul_of_nonneg_left ha.2 hs, mul_le_mul_of_nonneg_left hb.2 ht]
  have hrank : Module.finrank K (K × K) = 2 := by simp
  have := Convex.helly_theorem (𝕜 := K) (F := F) (s := Finset.univ) (by rw [hrank]; simp) hconv (by
    intro I _ hI
    rw [hrank] at hI
    obtain ⟨i, hi⟩ : ∃ i, i ∉ I := by
      by_contra hc
      push Not at hc
      have : I = Finset.univ := Finset.eq_univ_iff_forall.mpr hc
      rw [this] at hI
      simp at hI
    obtain ⟨P, hP⟩ := h i
    refine ⟨(P.x, P.y), ?_⟩
    simp only [Set.mem_iInter]
    intro j hj
    exact hP j (fun hji => hi (hji ▸ hj)))
  obtain ⟨z, hz⟩ := this
  simp only [Set.mem_iInter] at hz
  exact ⟨⟨z.1, z.2⟩, fun j => hz j (Finset.mem_univ _)⟩

theorem obbExcess_eq (d h : K) (hh : 0 ≤ h) : obbExcess d h = d - obbClamp d h := by
  unfold obbExcess obbClamp; grind

theorem obbClamp_mem (d h : K) (hh : 0 ≤ h) : |obbClamp d h| ≤ h := by
  rw [abs_le]; unfold obbClamp; grind

theorem obbClamp_best (d h s : K) (hh : 0 ≤ h) (hs : |s| ≤ h) :
    (d - obbClamp d h) ^ 2 ≤ (d - s) ^ 2 := by
  rw [abs_le] at hs
  obtain ⟨h1, h2⟩ := hs
  unfold obbClamp
  simp only
  split_ifs with k1 k2 k2
  · linarith
  · nlinarith
  · nlinarith
  · rw [sub_self]; nlinarith [sq_nonneg (d - s)]

theorem sqDist_obb {o : Obb K} (h : ValidObb o) (p : P2 K) (s t : K) :
    sqDist p (o.center + s • o.u + t • o.v) =
      (dot (p - o.center) o.u - s) ^ 2 + (dot (p - o.center) o.v - t) ^ 2 := by
  obtain ⟨h1, h2, h3, -, -⟩ := h
  have hc := frame_coords h1 h2 h3 (p - o.center)
  set a := dot (p - o.center) o.u
  set b := dot (p - o.center) o.v
  have hx := congrArg P2.x hc
  have hy := congrArg P2.y hc
  simp only [P2.add_x, P2.add_y, P2.sub_x, P2.sub_y, P2.smul_x, P2.smul_y] at hx hy
  have ex : p.x - (o.center.x + s * o.u.x + t * o.v.x) = (a - s) * o.u.x + (b - t) * o.v.x := by
    linear_combination hx
  have ey : p.y - (o.center.y + s * o.u.y + t * o.v.y) = (a - s) * o.u.y + (b - t) * o.v.y := by
    linear_combination hy
  simp only [sqDist, P2.add_x, P2.add_y, P2.smul_x, P2.smul_y, ex, ey]
  simp only [dot] at h1 h2 h3
  linear_combination (a - s) ^ 2 * h1 + (b - t) ^ 2 * h2 + 2 * (a - s) * (b - t) * h3

end Geometrix
