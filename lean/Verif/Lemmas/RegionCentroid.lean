import Verif.Lemmas.RegionArea
import Mathlib.MeasureTheory.Integral.Prod

/-!
# The centre of the inside of a simple polygon
-/

set_option linter.unusedSectionVars false

namespace Geometrix

open Spec MeasureTheory

theorem quad_integral (A B C a b : ℝ) : ∫ y in a..b, (A + B * (y - a) + C * (y - a) ^ 2) =
    A * (b - a) + B * (b - a) ^ 2 / 2 + C * (b - a) ^ 3 / 3 := by
  rw [intervalIntegral.integral_eq_sub_of_hasDerivAt
    (f := fun y => A * (y - a) + B / 2 * (y - a) ^ 2 + C / 3 * (y - a) ^ 3)]
  · ring
  · intro y _
    have h0 : HasDerivAt (fun y : ℝ => y - a) 1 y := (hasDerivAt_id y).sub_const a
    have h1 := h0.const_mul A
    have h2 := (h0.fun_pow 2).const_mul (B / 2)
    have h3 := (h0.fun_pow 3).const_mul (C / 3)
    have h4 := (h1.fun_add h2).fun_add h3
    convert h4 using 1
    push_cast
    ring
  · exact Continuous.intervalIntegrable (by fun_prop) _ _

/-- The integral of a function of the crossings of one side. -/
theorem side_moment {F : ℝ → ℝ → ℝ} (hF : Continuous fun z : ℝ × ℝ => F z.1 z.2) {I : P2 ℝ → P2 ℝ → ℝ}
    (hI : ∀ p q, I q p = -I p q) (hI0 : ∀ p q, p.y = q.y → I p q = 0)
    (hint : ∀ p q, p.y < q.y → ∫ y in p.y..q.y, F y (sideX y p q) = I p q) (e : P2 ℝ × P2 ℝ) :
    Integrable (fun y : ℝ => if PassesAt y e then upSign e * F y (sideX y e.1 e.2) else 0) ∧
      ∫ y : ℝ, (if PassesAt y e then upSign e * F y (sideX y e.1 e.2) else 0) = I e.1 e.2 := by
  obtain ⟨p, q⟩ := e
  have hc : ∀ p q : P2 ℝ, Continuous fun y => F y (sideX y p q) := fun p q =>
    hF.comp (continuous_id.prodMk (sideX_continuous p q))
  have key : ∀ p q : P2 ℝ, p.y < q.y → Integrable (Set.indicator (Set.Ioo p.y q.y) fun y => F y (sideX y p q)) ∧
      ∫ y : ℝ, Set.indicator (Set.Ioo p.y q.y) (fun y => F y (sideX y p q)) y = I p q := by
    intro p q h
    constructor
    · rw [integrable_indicator_iff measurableSet_Ioo]
      exact (hc p q).integrableOn_Icc.mono_set Set.Ioo_subset_Icc_self
    · rw [integral_indicator measurableSet_Ioo, ← integral_Ioc_eq_integral_Ioo, ← intervalIntegral.integral_of_le h.le,
        hint p q h]
  rcases lt_trichotomy p.y q.y with h | h | h
  · have e : (fun y : ℝ => if PassesAt y (p, q) then upSign (p, q) * F y (sideX y p q) else 0) =
        Set.indicator (Set.Ioo p.y q.y) fun y => F y (sideX y p q) := by
      funext y
      simp only [Set.indicator, Set.mem_Ioo, upSign, if_pos h, one_mul, PassesAt]
      congr 1
      exact propext ⟨fun k => k.elim id fun k => by linarith [k.1, k.2], Or.inl⟩
    simp only at e ⊢
    rw [e]; exact key p q h
  · have e : (fun y : ℝ => if PassesAt y (p, q) then upSign (p, q) * F y (sideX y p q) else 0) = fun _ => 0 := by
      funext y
      rw [if_neg]
      rintro (k | k) <;> linarith [k.1, k.2]
    simp only at e ⊢
    rw [e]
    exact ⟨integrable_zero _ _ _, by simp [hI0 p q h]⟩
  · have e : (fun y : ℝ => if PassesAt y (p, q) then upSign (p, q) * F y (sideX y p q) else 0) =
        fun y => -Set.indicator (Set.Ioo q.y p.y) (fun y => F y (sideX y q p)) y := by
      funext y
      simp only [Set.indicator, Set.mem_Ioo, upSign, if_neg h.le.not_gt, PassesAt, sideX_swap h.ne']
      by_cases k : q.y < y ∧ y < p.y
      · rw [if_pos (Or.inr k), if_pos k]; ring
      · rw [if_neg, if_neg k, neg_zero]
        rintro (k' | k')
        · linarith [k'.1, k'.2]
        · exact k k'
    simp only at e ⊢
    rw [e]
    obtain ⟨k1, k2⟩ := key q p h
    refine ⟨k1.neg, ?_⟩
    rw [integral_neg, k2, hI]; ring

/-- The integral over the inside of the line where an odd number of crossings is further on. -/
theorem alternating_integral {f G : ℝ → ℝ} (hf : Continuous f) (hG : ∀ x, HasDerivAt G (f x) x) : ∀ (n : Nat) (T : Finset ℝ),
    T.card = 2 * n → MeasurableSet {x : ℝ | Odd (T.filter (fun y => x < y)).card} ∧
      IntegrableOn f {x : ℝ | Odd (T.filter (fun y => x < y)).card} ∧
      ∫ x in {x : ℝ | Odd (T.filter (fun y => x < y)).card}, f x =
        ∑ x ∈ T, (if Odd (T.filter (fun y => x ≤ y)).card then 1 else -1) * G x := by
  intro n
  induction n with
  | zero =>
    intro T hT
    have : T = ∅ := Finset.card_eq_zero.1 (by simpa using hT)
    subst this
    simp
  | succ n ih =>
    intro T hT
    obtain ⟨a, b, T', hab, hc2, hset, hdis, hsum⟩ := alternating_split n T hT
    obtain ⟨h1, h2, h3⟩ := ih T' hc2
    have hi : IntegrableOn f (Set.Ico a b) := hf.integrableOn_Icc.mono_set Set.Ico_subset_Icc_self
    rw [hset]
    refine ⟨measurableSet_Ico.union h1, hi.union h2, ?_⟩
    rw [setIntegral_union hdis h1 hi h2, h3, hsum, integral_Ico_eq_integral_Ioc, ← intervalIntegral.integral_of_le hab.le,
      intervalIntegral.integral_eq_sub_of_hasDerivAt (fun x _ => hG x) (hf.intervalIntegrable _ _)]

theorem region_bounded (poly : List (P2 ℝ)) : ∃ a b c d : ℝ, region poly ⊆ Set.Icc a b ×ˢ Set.Icc c d := by
  obtain ⟨a, ha⟩ := (poly.map P2.x).toFinset.bddBelow
  obtain ⟨b, hb⟩ := (poly.map P2.x).toFinset.bddAbove
  obtain ⟨c, hc⟩ := (poly.map P2.y).toFinset.bddBelow
  obtain ⟨d, hd⟩ := (poly.map P2.y).toFinset.bddAbove
  have mx : ∀ v ∈ poly, v.x ∈ ((poly.map P2.x).toFinset : Set ℝ) := fun v hv =>
    Finset.mem_coe.2 (List.mem_toFinset.2 (List.mem_map_of_mem (f := P2.x) hv))
  have my : ∀ v ∈ poly, v.y ∈ ((poly.map P2.y).toFinset : Set ℝ) := fun v hv =>
    Finset.mem_coe.2 (List.mem_toFinset.2 (List.mem_map_of_mem (f := P2.y) hv))
  refine ⟨a, b, c, d, fun z hz => ?_⟩
  have hz' : ∀ h : pointInPolygon ⟨z.1, z.2⟩ poly = false, False := fun h => by
    have := hz
    simp only [region, Set.mem_setOf_eq, h] at this
    cases this
  refine ⟨⟨?_, ?_⟩, ?_, ?_⟩
  · by_contra h
    exact hz' (pip_outside (Or.inr (Or.inl fun v hv => lt_of_lt_of_le (not_le.1 h) (ha (mx v hv)))))
  · by_contra h
    exact hz' (pip_outside (Or.inl fun v hv => lt_of_le_of_lt (hb (mx v hv)) (not_le.1 h)))
  · by_contra h
    exact hz' (pip_outside (Or.inr (Or.inr (Or.inr fun v hv => lt_of_lt_of_le (not_le.1 h) (hc (my v hv))))))
  · by_contra h
    exact hz' (pip_outside (Or.inr (Or.inr (Or.inl fun v hv => lt_of_le_of_lt (hd (my v hv)) (not_le.1 h)))))

theorem region_integrable (poly : List (P2 ℝ)) {f : ℝ × ℝ → ℝ} (hf : Continuous f) : IntegrableOn f (region poly) := by
  obtain ⟨a, b, c, d, h⟩ := region_bounded poly
  exact (hf.continuousOn.integrableOn_compact (isCompact_Icc.prod isCompact_Icc)).mono_set h

section simple

variable {poly : List (P2 ℝ)} (hn : 2 < poly.length) (hp : ProperPolygon poly) (hs : SimplePolygon poly)
include hn hp hs

/-- An integral over the inside is a sum over the sides. -/
theorem region_integral {b : Bool} (hall : ∀ s ∈ sides poly, EvLeft poly s b) {f : ℝ × ℝ → ℝ} (hf : Continuous f)
    {F : ℝ → ℝ → ℝ} (hF : Continuous fun z : ℝ × ℝ => F z.1 z.2) (hd : ∀ x y, HasDerivAt (F y) (f (x, y)) x) {I : P2 ℝ → P2 ℝ → ℝ}
    (hI : ∀ p q, I q p = -I p q) (hI0 : ∀ p q, p.y = q.y → I p q = 0)
    (hint : ∀ p q, p.y < q.y → ∫ y in p.y..q.y, F y (sideX y p q) = I p q) :
    ∫ z in region poly, f z = (if b then 1 else -1) * cyclicSum I poly := by
  have hae : ∀ᵐ y : ℝ, y ∉ ((poly.map P2.y).toFinset : Set ℝ) :=
    measure_eq_zero_iff_ae_notMem.1 ((poly.map P2.y).toFinset.finite_toSet.measure_zero _)
  have hm : ∀ y : ℝ, y ∉ ((poly.map P2.y).toFinset : Set ℝ) → ∀ v ∈ poly, v.y ≠ y := by
    rintro y hy v hv rfl
    exact hy (Finset.mem_coe.2 (List.mem_toFinset.2 (List.mem_map_of_mem (f := P2.y) hv)))
  have hslice : ∀ y : ℝ, y ∉ ((poly.map P2.y).toFinset : Set ℝ) →
      ∫ x : ℝ, (region poly).indicator f (x, y) =
        (if b then 1 else -1) * ((sides poly).map fun e => if PassesAt y e then upSign e * F y (sideX y e.1 e.2) else 0).sum := by
    intro y hy
    obtain ⟨T, ⟨n, h1⟩, h2, h3, -⟩ := level_slice hn hp hs hall (hm y hy)
    have hT : T.card = 2 * n := by omega
    obtain ⟨k1, -, k3⟩ := alternating_integral (f := fun x => f (x, y)) (G := F y) (hf.comp (by fun_prop)) (fun x => hd x y) n T hT
    have e : (fun x : ℝ => (region poly).indicator f (x, y)) =
        {x : ℝ | Odd (T.filter (fun y => x < y)).card}.indicator fun x => f (x, y) := by
      funext x
      have : (x, y) ∈ region poly ↔ x ∈ {x : ℝ | Odd (T.filter (fun y => x < y)).card} := h2 x
      by_cases hx : (x, y) ∈ region poly
      · rw [Set.indicator_of_mem hx, Set.indicator_of_mem (this.1 hx)]
      · rw [Set.indicator_of_notMem hx, Set.indicator_of_notMem (mt this.2 hx)]
    have hσ : ((if b then 1 else -1) * (if b then 1 else -1) : ℝ) = 1 := by cases b <;> simp
    rw [e, integral_indicator k1, k3, h3 (F y), ← mul_assoc, hσ, one_mul]
  have key : ∀ l : List (P2 ℝ × P2 ℝ),
      Integrable (fun y : ℝ => (l.map fun e => if PassesAt y e then upSign e * F y (sideX y e.1 e.2) else 0).sum) ∧
      ∫ y : ℝ, (l.map fun e => if PassesAt y e then upSign e * F y (sideX y e.1 e.2) else 0).sum =
        (l.map fun e => I e.1 e.2).sum := by
    intro l
    induction l with
    | nil => simp
    | cons e l ih =>
      simp only [List.map_cons, List.sum_cons]
      obtain ⟨h1, h2⟩ := side_moment hF hI hI0 hint e
      refine ⟨h1.add ih.1, ?_⟩
      rw [integral_add h1 ih.1, h2, ih.2]
  rw [← integral_indicator (measurable_region poly), Measure.volume_eq_prod,
    integral_prod_symm _ ((integrable_indicator_iff (measurable_region poly)).2 (region_integrable poly hf)),
    integral_congr_ae (hae.mono hslice), integral_const_mul, (key _).2]
  unfold cyclicSum
  rw [← List.map_uncurry_zip_eq_zipWith]
  rfl

theorem region_x {b : Bool} (hall : ∀ s ∈ sides poly, EvLeft poly s b) : ∫ z in region poly, z.1 =
    (if b then 1 else -1) * (cyclicSum (fun p q : P2 ℝ => cross p q * (p.x + q.x)) poly / 6) := by
  rw [region_integral hn hp hs hall (f := fun z => z.1) (by fun_prop) (F := fun _ x => x ^ 2 / 2) (by fun_prop) ?_
    (I := fun p q => (q.y - p.y) * (p.x ^ 2 + p.x * q.x + q.x ^ 2) / 6)]
  · congr 1
    have e1 : ∀ p q : P2 ℝ, (q.y - p.y) * (p.x ^ 2 + p.x * q.x + q.x ^ 2) / 6 =
        1 / 6 * (cross p q * (p.x + q.x)) + (1 / 6 * (q.y * q.x ^ 2) - 1 / 6 * (p.y * p.x ^ 2)) := by
      intro p q; unfold cross; ring
    rw [cyclicSum_congr e1, cyclicSum_add, cyclicSum_telescope (fun a : P2 ℝ => 1 / 6 * (a.y * a.x ^ 2)), add_zero,
      cyclicSum_mul]
    ring
  · intro p q; ring
  · intro p q h; rw [h]; ring
  · intro p q h
    have h0 : q.y - p.y ≠ 0 := (sub_pos.2 h).ne'
    have e : (fun y => (sideX y p q) ^ 2 / 2) = fun y => (p.x ^ 2 / 2 + (p.x * ((q.x - p.x) / (q.y - p.y))) * (y - p.y) +
        (((q.x - p.x) / (q.y - p.y)) ^ 2 / 2) * (y - p.y) ^ 2) := by
      funext y; unfold sideX; field_simp; ring
    rw [e, quad_integral]
    field_simp
    ring
  · intro x y
    have := ((hasDerivAt_id x).fun_pow 2).div_const 2
    simpa using this

theorem region_y {b : Bool} (hall : ∀ s ∈ sides poly, EvLeft poly s b) : ∫ z in region poly, z.2 =
    (if b then 1 else -1) * (cyclicSum (fun p q : P2 ℝ => cross p q * (p.y + q.y)) poly / 6) := by
  rw [region_integral hn hp hs hall (f := fun z => z.2) (by fun_prop) (F := fun y x => y * x) (by fun_prop) ?_
    (I := fun p q => (q.y - p.y) * (2 * p.x * p.y + p.y * q.x + p.x * q.y + 2 * q.x * q.y) / 6)]
  · congr 1
    have e1 : ∀ p q : P2 ℝ, (q.y - p.y) * (2 * p.x * p.y + p.y * q.x + p.x * q.y + 2 * q.x * q.y) / 6 =
        1 / 6 * (cross p q * (p.y + q.y)) + (1 / 3 * (q.x * q.y ^ 2) - 1 / 3 * (p.x * p.y ^ 2)) := by
      intro p q; unfold cross; ring
    rw [cyclicSum_congr e1, cyclicSum_add, cyclicSum_telescope (fun a : P2 ℝ => 1 / 3 * (a.x * a.y ^ 2)), add_zero,
      cyclicSum_mul]
    ring
  · intro p q; ring
  · intro p q h; rw [h]; ring
  · intro p q h
    have h0 : q.y - p.y ≠ 0 := (sub_pos.2 h).ne'
    have e : (fun y => y * (sideX y p q)) = fun y => (p.y * p.x + (p.y * ((q.x - p.x) / (q.y - p.y)) + p.x) * (y - p.y) +
        ((q.x - p.x) / (q.y - p.y)) * (y - p.y) ^ 2) := by
      funext y; unfold sideX; field_simp; ring
    rw [e, quad_integral]
    field_simp
    ring
  · intro x y
    have := (hasDerivAt_id x).const_mul y
    simpa using this

end simple

end Geometrix
