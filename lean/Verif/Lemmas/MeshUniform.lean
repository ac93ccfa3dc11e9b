import Verif.Lemmas.Mesh
import Verif.Lemmas.SimpleArea
import Mathlib.MeasureTheory.Function.Jacobian
import Mathlib.MeasureTheory.Measure.Lebesgue.Basic
import Mathlib.Analysis.SpecialFunctions.Sqrt
import Mathlib.LinearAlgebra.Matrix.ToLin
import Mathlib.Topology.Algebra.Module.FiniteDimension

/-!
# Helper lemmas: the distribution of random positions in a mesh
-/

set_option linter.unusedSectionVars false

namespace Geometrix

open Spec MeasureTheory

/-- The position in a triangle as a map of the plane. -/
noncomputable def posMap (t : MeshTri ℝ) (r : ℝ × ℝ) : ℝ × ℝ :=
  (t.a.x + Real.sqrt r.1 * ((t.b.x - t.a.x) + r.2 * (t.c.x - t.b.x)), t.a.y + Real.sqrt r.1 * ((t.b.y - t.a.y) + r.2 * (t.c.y - t.b.y)))

theorem posMap_eq (t : MeshTri ℝ) (r : ℝ × ℝ) :
    posMap t r = ((triPosition t (Real.sqrt r.1) r.2).x, (triPosition t (Real.sqrt r.1) r.2).y) := by
  ext <;> simp only [posMap, triPosition, P2.add_x, P2.add_y, P2.smul_x, P2.smul_y] <;> ring

/-- Its derivative. -/
noncomputable def posDeriv (t : MeshTri ℝ) (r : ℝ × ℝ) : ℝ × ℝ →L[ℝ] ℝ × ℝ :=
  LinearMap.toContinuousLinearMap (Matrix.toLin (Module.Basis.finTwoProd ℝ) (Module.Basis.finTwoProd ℝ)
    !![((t.b.x - t.a.x) + r.2 * (t.c.x - t.b.x)) / (2 * Real.sqrt r.1), Real.sqrt r.1 * (t.c.x - t.b.x);
      ((t.b.y - t.a.y) + r.2 * (t.c.y - t.b.y)) / (2 * Real.sqrt r.1), Real.sqrt r.1 * (t.c.y - t.b.y)])

theorem posMap_part {r : ℝ × ℝ} (hr : 0 < r.1) (a u w : ℝ) :
    HasFDerivAt (fun r : ℝ × ℝ => a + Real.sqrt r.1 * (u + r.2 * w))
      (((u + r.2 * w) / (2 * Real.sqrt r.1)) • ContinuousLinearMap.fst ℝ ℝ ℝ + (Real.sqrt r.1 * w) • ContinuousLinearMap.snd ℝ ℝ ℝ) r := by
  have h1 : HasFDerivAt (fun r : ℝ × ℝ => Real.sqrt r.1) ((1 / (2 * Real.sqrt r.1)) • ContinuousLinearMap.fst ℝ ℝ ℝ) r :=
    (Real.hasDerivAt_sqrt hr.ne').comp_hasFDerivAt r hasFDerivAt_fst
  have h2 : HasFDerivAt (fun r : ℝ × ℝ => u + r.2 * w) (w • ContinuousLinearMap.snd ℝ ℝ ℝ) r :=
    (hasFDerivAt_snd.mul_const w).const_add u
  refine ((h1.mul h2).const_add a).congr_fderiv ?_
  ext <;> simp <;> ring

theorem posMap_deriv (t : MeshTri ℝ) {r : ℝ × ℝ} (hr : 0 < r.1) : HasFDerivAt (posMap t) (posDeriv t r) r := by
  unfold posDeriv
  rw [Matrix.toLin_finTwoProd_toContinuousLinearMap]
  exact (posMap_part hr _ _ _).prodMk (posMap_part hr _ _ _)

theorem posDeriv_det (t : MeshTri ℝ) {r : ℝ × ℝ} (hr : 0 < r.1) : (posDeriv t r).det = area2 t.a t.b t.c / 2 := by
  have : Real.sqrt r.1 ≠ 0 := (Real.sqrt_pos.2 hr).ne'
  unfold posDeriv
  simp only [LinearMap.det_toContinuousLinearMap, LinearMap.det_toLin, Matrix.det_fin_two_of]
  unfold area2
  field_simp
  ring

theorem posMap_continuous (t : MeshTri ℝ) : Continuous (posMap t) := by unfold posMap; fun_prop

/-- The numbers for which the position is not the first vertex. -/
def posSquare : Set (ℝ × ℝ) := Set.Ioc 0 1 ×ˢ Set.Icc 0 1

theorem posSquare_measurable : MeasurableSet posSquare := measurableSet_Ioc.prod measurableSet_Icc

theorem posMap_injOn {t : MeshTri ℝ} (ht : area2 t.a t.b t.c ≠ 0) : Set.InjOn (posMap t) posSquare := by
  rintro ⟨r1, r2⟩ ⟨⟨h1, h2⟩, h3, h4⟩ ⟨q1, q2⟩ ⟨⟨k1, k2⟩, k3, k4⟩ he
  simp only at h1 h2 h3 h4 k1 k2 k3 k4
  have hx := congrArg Prod.fst he
  have hy := congrArg Prod.snd he
  simp only [posMap] at hx hy
  have s1 := Real.sqrt_pos.2 h1
  have s2 := Real.sqrt_pos.2 k1
  have e1 : Real.sqrt r1 = Real.sqrt q1 := by
    apply mul_left_cancel₀ ht
    unfold area2
    linear_combination (t.c.y - t.b.y) * hx - (t.c.x - t.b.x) * hy
  have e2 : Real.sqrt r1 * r2 = Real.sqrt q1 * q2 := by
    apply mul_left_cancel₀ ht
    unfold area2
    linear_combination (t.b.x - t.a.x) * hy - (t.b.y - t.a.y) * hx
  rw [e1] at e2
  have e3 := mul_left_cancel₀ s2.ne' e2
  rw [Real.sqrt_inj h1.le k1.le] at e1
  rw [e1, e3]

theorem posMap_image (t : MeshTri ℝ) :
    {z : ℝ × ℝ | InTriangle t.a t.b t.c ⟨z.1, z.2⟩} = posMap t '' posSquare ∪ {(t.a.x, t.a.y)} := by
  ext z
  constructor
  · rintro ⟨α, β, γ, h1, h2, h3, hs, hz⟩
    have hx := congrArg P2.x hz
    have hy := congrArg P2.y hz
    simp only [P2.add_x, P2.add_y, P2.smul_x, P2.smul_y] at hx hy
    have hα : α = 1 - β - γ := by linarith
    rcases (add_nonneg h2 h3).eq_or_lt with h | h
    · right
      have hβ : β = 0 := by linarith
      have hγ : γ = 0 := by linarith
      rw [hα, hβ, hγ] at hx hy
      simp only [Set.mem_singleton_iff]
      ext
      · simp only; linarith
      · simp only; linarith
    · left
      refine ⟨((β + γ) ^ 2, γ / (β + γ)), ⟨⟨by positivity, ?_⟩, by positivity, ?_⟩, ?_⟩
      · exact pow_le_one₀ h.le (by linarith)
      · simp only; rw [div_le_one h]; linarith
      · simp only [posMap, Real.sqrt_sq h.le]
        ext
        · simp only; rw [hx, hα]; field_simp; ring
        · simp only; rw [hy, hα]; field_simp; ring
  · rintro (⟨r, ⟨⟨h1, h2⟩, h3, h4⟩, rfl⟩ | rfl)
    · rw [posMap_eq]
      exact triPosition_mem t (Real.sqrt_nonneg _) (Real.sqrt_le_one.2 h2) h3 h4
    · exact ⟨1, 0, 0, by simp, by simp, by simp, by simp, by ext <;> simp⟩

theorem plane_haar : (volume : Measure (ℝ × ℝ)).IsAddHaarMeasure := Measure.prod.instIsAddHaarMeasure _ _

theorem posMap_volume (t : MeshTri ℝ) {S : Set (ℝ × ℝ)} (hS : MeasurableSet S) :
    ENNReal.ofReal (triArea t) * volume (posSquare ∩ posMap t ⁻¹' S) = volume (S ∩ {z : ℝ × ℝ | InTriangle t.a t.b t.c ⟨z.1, z.2⟩}) := by
  haveI := plane_haar
  have hE : MeasurableSet (posSquare ∩ posMap t ⁻¹' S) := posSquare_measurable.inter ((posMap_continuous t).measurable hS)
  have hd : ∀ r ∈ posSquare, HasFDerivWithinAt (posMap t) (posDeriv t r) posSquare r := fun r hr => (posMap_deriv t hr.1.1).hasFDerivWithinAt
  have himg : posMap t '' (posSquare ∩ posMap t ⁻¹' S) = S ∩ posMap t '' posSquare := by
    rw [Set.image_inter_preimage, Set.inter_comm]
  have hpt : volume (S ∩ {z : ℝ × ℝ | InTriangle t.a t.b t.c ⟨z.1, z.2⟩}) = volume (S ∩ posMap t '' posSquare) := by
    rw [posMap_image, Set.inter_union_distrib_left]
    refine le_antisymm ((measure_union_le _ _).trans ?_) (measure_mono Set.subset_union_left)
    have : volume (S ∩ {(t.a.x, t.a.y)}) = 0 := measure_mono_null Set.inter_subset_right (measure_singleton _)
    rw [this, add_zero]
  rw [hpt]
  by_cases ht : area2 t.a t.b t.c = 0
  · have h0 : triArea t = 0 := by unfold triArea; rw [ht]; simp
    rw [h0, ENNReal.ofReal_zero, zero_mul]
    symm
    refine measure_mono_null Set.inter_subset_right ?_
    exact addHaar_image_eq_zero_of_det_fderivWithin_eq_zero volume hd fun r hr => by rw [posDeriv_det t hr.1.1, ht, zero_div]
  · rw [← himg, ← lintegral_abs_det_fderiv_eq_addHaar_image volume hE
      (fun r hr => (hd r hr.1).mono Set.inter_subset_left) ((posMap_injOn ht).mono Set.inter_subset_left)]
    rw [setLIntegral_congr_fun hE (g := fun _ => ENNReal.ofReal (triArea t)) (fun r hr => by
      simp only [posDeriv_det t hr.1.1.1, triArea, abs_div, abs_two])]
    rw [setLIntegral_const]

theorem closedSquare_volume (t : MeshTri ℝ) (S : Set (ℝ × ℝ)) :
    volume ((Set.Icc (0 : ℝ) 1 ×ˢ Set.Icc (0 : ℝ) 1) ∩ posMap t ⁻¹' S) = volume (posSquare ∩ posMap t ⁻¹' S) := by
  have h0 : volume (({0} : Set ℝ) ×ˢ (Set.univ : Set ℝ)) = 0 := by
    rw [Measure.volume_eq_prod, Measure.prod_prod]; simp
  refine le_antisymm ?_ (measure_mono (Set.inter_subset_inter_left _ (Set.prod_mono Set.Ioc_subset_Icc_self le_rfl)))
  have hsub : (Set.Icc (0 : ℝ) 1 ×ˢ Set.Icc (0 : ℝ) 1) ∩ posMap t ⁻¹' S ⊆ (posSquare ∩ posMap t ⁻¹' S) ∪ (({0} : Set ℝ) ×ˢ (Set.univ : Set ℝ)) := by
    rintro r ⟨⟨⟨h1, h2⟩, h3⟩, h4⟩
    rcases h1.eq_or_lt with h | h
    · right; exact ⟨h.symm, trivial⟩
    · left; exact ⟨⟨⟨h, h2⟩, h3⟩, h4⟩
  refine (measure_mono hsub).trans ((measure_union_le _ _).trans ?_)
  rw [h0, add_zero]

/-- The numbers that select a triangle. -/
def selects (ts : List (MeshTri ℝ)) (n : Nat) : Set ℝ :=
  {x | 0 ≤ x ∧ (areaShare ts n < x ∨ n = 0) ∧ x ≤ areaShare ts (n + 1)}

theorem selects_eq (ts : List (MeshTri ℝ)) (n : Nat) :
    selects ts n = if n = 0 then Set.Icc (areaShare ts n) (areaShare ts (n + 1)) else Set.Ioc (areaShare ts n) (areaShare ts (n + 1)) := by
  have h0 : 0 ≤ areaShare ts n := by rw [← areaShare_zero ts]; exact areaShare_mono _ (Nat.zero_le _)
  split_ifs with h
  · subst h; ext x; simp [selects, areaShare_zero]
  · ext x
    simp only [selects, h, or_false, Set.mem_setOf_eq, Set.mem_Ioc]
    exact ⟨fun h => ⟨h.2.1, h.2.2⟩, fun h => ⟨h0.trans h.1.le, h.1, h.2⟩⟩

theorem selects_measurable (ts : List (MeshTri ℝ)) (n : Nat) : MeasurableSet (selects ts n) := by
  rw [selects_eq]; split_ifs
  · exact measurableSet_Icc
  · exact measurableSet_Ioc

theorem selects_volume {ts : List (MeshTri ℝ)} {n : Nat} {t : MeshTri ℝ} (h : ts[n]? = some t) :
    volume (selects ts n) = ENNReal.ofReal (triArea t / areaTotal ts) := by
  rw [selects_eq, ← areaShare_succ h]; split_ifs
  · exact Real.volume_Icc
  · exact Real.volume_Ioc

theorem selects_unique {ts : List (MeshTri ℝ)} {m n : Nat} {x : ℝ} (hm : x ∈ selects ts m) (hn : x ∈ selects ts n) : m = n := by
  by_contra hne
  have key : ∀ {m n : Nat}, x ∈ selects ts m → x ∈ selects ts n → m < n → False := by
    intro m n hm hn h
    have h1 := areaShare_mono ts (show m + 1 ≤ n by omega)
    rcases hn.2.1 with h2 | h2
    · exact absurd (hm.2.2.trans h1) (not_le.2 h2)
    · omega
  rcases Nat.lt_or_gt_of_ne hne with h | h
  · exact key hm hn h
  · exact key hn hm h

/-- The numbers whose position is in a set. -/
theorem position_cells {pts : List (P2 ℝ)} {ts : List (MeshTri ℝ)} (h : areaTotal ts ≠ 0) (S : Set (ℝ × ℝ)) :
    {r : ℝ × ℝ × ℝ | (0 ≤ r.1 ∧ r.1 ≤ 1) ∧ (0 ≤ r.2.1 ∧ r.2.1 ≤ 1) ∧ (0 ≤ r.2.2 ∧ r.2.2 ≤ 1) ∧
      ∃ X, randomPosition ⟨pts, ts, (List.range ts.length).map fun n => areaShare ts (n + 1)⟩ r.1 r.2.1 r.2.2 = .ok X ∧ (X.x, X.y) ∈ S} =
    ⋃ i : Fin ts.length, selects ts i ×ˢ ((Set.Icc (0 : ℝ) 1 ×ˢ Set.Icc (0 : ℝ) 1) ∩ posMap ts[i] ⁻¹' S) := by
  ext ⟨rT, r1, r2⟩
  simp only [Set.mem_setOf_eq, Set.mem_iUnion, Set.mem_prod, Set.mem_inter_iff, Set.mem_Icc, Set.mem_preimage]
  constructor
  · rintro ⟨⟨a0, a1⟩, ⟨b0, b1⟩, ⟨c0, c1⟩, X, hX, hS⟩
    obtain ⟨n, t, e1, e2, e3, e4⟩ := randomPosition_ok (pts := pts) h a0 a1 b0 c0
    obtain ⟨hl, rfl⟩ := List.getElem?_eq_some_iff.1 e1
    refine ⟨⟨n, hl⟩, ⟨a0, e2, e3⟩, ⟨⟨b0, b1⟩, c0, c1⟩, ?_⟩
    rw [e4] at hX
    rw [posMap_eq]
    rw [← Except.ok.inj hX] at hS
    exact hS
  · rintro ⟨i, hi, ⟨⟨b0, b1⟩, c0, c1⟩, hS⟩
    have a1 : rT ≤ 1 := by
      refine hi.2.2.trans ?_
      rw [← areaShare_length h]
      exact areaShare_mono _ i.2
    obtain ⟨n, t, e1, e2, e3, e4⟩ := randomPosition_ok (pts := pts) h hi.1 a1 b0 c0
    have hn : n = i := selects_unique ⟨hi.1, e2, e3⟩ hi
    subst hn
    obtain ⟨hl, rfl⟩ := List.getElem?_eq_some_iff.1 e1
    refine ⟨⟨hi.1, a1⟩, ⟨b0, b1⟩, ⟨c0, c1⟩, _, e4, ?_⟩
    rw [posMap_eq] at hS
    exact hS

theorem position_volume {pts : List (P2 ℝ)} {ts : List (MeshTri ℝ)} (h : areaTotal ts ≠ 0) {S : Set (ℝ × ℝ)} (hS : MeasurableSet S) :
    volume {r : ℝ × ℝ × ℝ | (0 ≤ r.1 ∧ r.1 ≤ 1) ∧ (0 ≤ r.2.1 ∧ r.2.1 ≤ 1) ∧ (0 ≤ r.2.2 ∧ r.2.2 ≤ 1) ∧
      ∃ X, randomPosition ⟨pts, ts, (List.range ts.length).map fun n => areaShare ts (n + 1)⟩ r.1 r.2.1 r.2.2 = .ok X ∧ (X.x, X.y) ∈ S} =
    (ts.map fun t => volume (S ∩ {z : ℝ × ℝ | InTriangle t.a t.b t.c ⟨z.1, z.2⟩})).sum / ENNReal.ofReal (ts.map triArea).sum := by
  have htot : 0 < areaTotal ts := lt_of_le_of_ne (areaTotal_nonneg ts) (Ne.symm h)
  rw [position_cells h S, measure_iUnion, tsum_fintype, sum_map_fin, ENNReal.div_eq_inv_mul, Finset.mul_sum]
  · refine Finset.sum_congr rfl fun i _ => ?_
    rw [Measure.volume_eq_prod, Measure.prod_prod, closedSquare_volume, selects_volume (List.getElem?_eq_getElem i.2), ← posMap_volume _ hS,
      ENNReal.ofReal_div_of_pos htot, ENNReal.div_eq_inv_mul, mul_assoc]
    rfl
  · intro i j hij
    rw [Function.onFun, Set.disjoint_left]
    rintro r ⟨hr, -⟩ ⟨hr', -⟩
    exact hij (Fin.ext (selects_unique hr hr'))
  · intro i
    exact (selects_measurable ts i).prod ((measurableSet_Icc.prod measurableSet_Icc).inter ((posMap_continuous _).measurable hS))

theorem triangle_measurable (t : MeshTri ℝ) : MeasurableSet {z : ℝ × ℝ | InTriangle t.a t.b t.c ⟨z.1, z.2⟩} := by
  have : {z : ℝ × ℝ | InTriangle t.a t.b t.c ⟨z.1, z.2⟩} = posMap t '' (Set.Icc (0 : ℝ) 1 ×ˢ Set.Icc (0 : ℝ) 1) := by
    apply Set.Subset.antisymm
    · rw [posMap_image]
      rintro z (⟨r, hr, rfl⟩ | rfl)
      · exact ⟨r, ⟨Set.Ioc_subset_Icc_self hr.1, hr.2⟩, rfl⟩
      · exact ⟨(0, 0), by simp, by simp [posMap]⟩
    · rintro z ⟨r, ⟨⟨h1, h2⟩, h3, h4⟩, rfl⟩
      rw [posMap_eq]
      exact triPosition_mem t (Real.sqrt_nonneg _) (Real.sqrt_le_one.2 h2) h3 h4
  rw [this]
  exact ((isCompact_Icc.prod isCompact_Icc).image (posMap_continuous t)).isClosed.measurableSet

theorem triangle_volume (t : MeshTri ℝ) : volume {z : ℝ × ℝ | InTriangle t.a t.b t.c ⟨z.1, z.2⟩} = ENNReal.ofReal (triArea t) := by
  have h := posMap_volume t MeasurableSet.univ
  rw [Set.univ_inter, Set.preimage_univ, Set.inter_univ] at h
  rw [← h, posSquare, Measure.volume_eq_prod, Measure.prod_prod]
  simp

/-- Triangles that overlap in sets of area zero only. -/
theorem triangles_volume {ts : List (MeshTri ℝ)}
    (hd : ts.Pairwise fun s t => volume ({z : ℝ × ℝ | InTriangle s.a s.b s.c ⟨z.1, z.2⟩} ∩ {z | InTriangle t.a t.b t.c ⟨z.1, z.2⟩}) = 0)
    {S : Set (ℝ × ℝ)} (hS : MeasurableSet S) :
    (ts.map fun t => volume (S ∩ {z : ℝ × ℝ | InTriangle t.a t.b t.c ⟨z.1, z.2⟩})).sum =
      volume (S ∩ {z : ℝ × ℝ | ∃ t ∈ ts, InTriangle t.a t.b t.c ⟨z.1, z.2⟩}) := by
  induction ts with
  | nil => simp
  | cons t ts ih =>
    rw [List.pairwise_cons] at hd
    rw [List.map_cons, List.sum_cons, ih hd.2]
    have hU : S ∩ {z : ℝ × ℝ | ∃ u ∈ t :: ts, InTriangle u.a u.b u.c ⟨z.1, z.2⟩} =
        (S ∩ {z : ℝ × ℝ | InTriangle t.a t.b t.c ⟨z.1, z.2⟩}) ∪ (S ∩ {z : ℝ × ℝ | ∃ u ∈ ts, InTriangle u.a u.b u.c ⟨z.1, z.2⟩}) := by
      ext z
      simp only [List.mem_cons, exists_eq_or_imp, Set.mem_inter_iff, Set.mem_setOf_eq, Set.mem_union]
      tauto
    have h0 : volume ((S ∩ {z : ℝ × ℝ | InTriangle t.a t.b t.c ⟨z.1, z.2⟩}) ∩
        (S ∩ {z : ℝ × ℝ | ∃ u ∈ ts, InTriangle u.a u.b u.c ⟨z.1, z.2⟩})) = 0 := by
      have hc : volume (⋃ u ∈ {u | u ∈ ts}, ({z : ℝ × ℝ | InTriangle t.a t.b t.c ⟨z.1, z.2⟩} ∩ {z | InTriangle u.a u.b u.c ⟨z.1, z.2⟩})) = 0 := by
        rw [measure_biUnion_null_iff ts.finite_toSet.countable]
        exact hd.1
      refine measure_mono_null ?_ hc
      rintro z ⟨⟨_, h1⟩, _, u, hu, h2⟩
      exact Set.mem_biUnion hu ⟨h1, h2⟩
    rw [hU]
    symm
    refine measure_union₀' ?_ h0
    exact (hS.inter (triangle_measurable t)).nullMeasurableSet

end Geometrix
