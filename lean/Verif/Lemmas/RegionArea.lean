import Verif.Lemmas.AreaSign
import Mathlib.MeasureTheory.Measure.Lebesgue.Basic
import Mathlib.MeasureTheory.Integral.IntervalIntegral.FundThmCalculus
import Mathlib.Analysis.Calculus.Deriv.Mul
import Mathlib.Analysis.Calculus.Deriv.Pow

/-!
# The area of the inside of a simple polygon
-/

set_option linter.unusedSectionVars false

namespace Geometrix

open Spec MeasureTheory

/-! ## Cutting along a diagonal -/

theorem chainSum_split {α M : Type*} [AddCommGroup M] (f : α → α → M) (l : List α) (b : α) (m : List α) :
    chainSum f (l ++ b :: m) = chainSum f (l ++ [b]) + chainSum f (b :: m) := by
  induction l with
  | nil => simp [chainSum_single]
  | cons a l ih =>
    cases l with
    | nil => simp [chainSum_cons, chainSum_single]
    | cons c l =>
      simp only [List.cons_append] at ih ⊢
      rw [chainSum_cons, chainSum_cons, ih, add_assoc]

theorem cyclicSum_diagonal {α M : Type*} [AddCommGroup M] (f : α → α → M) (a b : α) (A B : List α) :
    cyclicSum f (a :: A ++ [b]) + cyclicSum f (a :: b :: B) = cyclicSum f (a :: A ++ b :: B) + (f a b + f b a) := by
  have h1 : cyclicSum f (a :: A ++ b :: B) = chainSum f (a :: A ++ [b]) + chainSum f (b :: B ++ [a]) := by
    have := chainSum_split f (a :: A) b (B ++ [a])
    rw [List.cons_append, cyclicSum_cons]
    simpa using this
  have h2 : cyclicSum f (a :: A ++ [b]) = chainSum f (a :: A ++ [b]) + f b a := by
    rw [List.cons_append, cyclicSum_cons]
    rw [show a :: (A ++ [b]) ++ [a] = (a :: A) ++ [b, a] by simp, chainSum_concat, List.cons_append]
  have h3 : cyclicSum f (a :: b :: B) = f a b + chainSum f (b :: B ++ [a]) := by
    rw [cyclicSum_cons]
    rw [show a :: b :: B ++ [a] = a :: b :: (B ++ [a]) by simp, chainSum_cons]; rfl
  rw [h1, h2, h3]; abel

theorem pip_cyclicSum {K : Type*} [Field K] [LinearOrder K] [IsStrictOrderedRing K] (z : P2 K) (poly : List (P2 K)) :
    pointInPolygon z poly = true ↔ Odd (cyclicSum (fun p q => if rayEdge z q p = true then (1 : ℤ) else 0) poly) := by
  classical
  have key : ∀ l : List (P2 K × P2 K), ((l.countP fun e => decide (CrossesRay z e.1 e.2) : ℕ) : ℤ) =
      (l.map fun e => if rayEdge z e.2 e.1 = true then (1 : ℤ) else 0).sum := by
    intro l
    induction l with
    | nil => simp
    | cons e l ih =>
      rw [List.countP_cons, List.map_cons, List.sum_cons, ← ih]
      simp only [rayEdge_iff, decide_eq_true_eq]
      push_cast
      rw [add_comm]
  rw [pointInPolygon_iff, ← Int.odd_coe_nat]
  unfold sideCount cyclicSum
  rw [key, ← List.map_uncurry_zip_eq_zipWith]
  rfl

theorem pip_diagonal {K : Type*} [Field K] [LinearOrder K] [IsStrictOrderedRing K] (z a b : P2 K) (A B : List (P2 K)) :
    pointInPolygon z (a :: A ++ b :: B) = (pointInPolygon z (a :: A ++ [b]) ^^ pointInPolygon z (a :: b :: B)) := by
  have h := cyclicSum_diagonal (fun p q => if rayEdge z q p = true then (1 : ℤ) else 0) a b A B
  have hsym : rayEdge z b a = rayEdge z a b := by
    rw [Bool.eq_iff_iff, rayEdge_iff, rayEdge_iff, crossesRay_swap]
  simp only [hsym] at h
  have h' := congrArg Odd h
  rw [Int.odd_add, Int.odd_add, ← pip_cyclicSum, ← Int.not_odd_iff_even, ← pip_cyclicSum, ← pip_cyclicSum] at h'
  have h'' : Even ((if rayEdge z a b = true then (1 : ℤ) else 0) + if rayEdge z a b = true then (1 : ℤ) else 0) := ⟨_, rfl⟩
  simp only [h'', iff_true] at h'
  revert h'
  cases pointInPolygon z (a :: A ++ b :: B) <;> cases pointInPolygon z (a :: A ++ [b]) <;>
    cases pointInPolygon z (a :: b :: B) <;> simp

/-! ## Level lines -/

/-- The part of a line where an odd number of the points of a finite set is further on begins with an interval. -/
theorem alternating_split (n : Nat) (T : Finset ℝ) (hT : T.card = 2 * (n + 1)) : ∃ (a b : ℝ) (T' : Finset ℝ), a < b ∧ T'.card = 2 * n ∧
    {x : ℝ | Odd (T.filter (fun y => x < y)).card} = Set.Ico a b ∪ {x : ℝ | Odd (T'.filter (fun y => x < y)).card} ∧
    Disjoint (Set.Ico a b) {x : ℝ | Odd (T'.filter (fun y => x < y)).card} ∧
    ∀ G : ℝ → ℝ, ∑ x ∈ T, (if Odd (T.filter (fun y => x ≤ y)).card then 1 else -1) * G x =
      (G b - G a) + ∑ x ∈ T', (if Odd (T'.filter (fun y => x ≤ y)).card then 1 else -1) * G x := by
  have hne : T.Nonempty := Finset.card_pos.1 (by omega)
  set a := T.min' hne with ha
  have haT : a ∈ T := T.min'_mem hne
  have hc1 : (T.erase a).card = 2 * n + 1 := by rw [Finset.card_erase_of_mem haT]; omega
  have hne1 : (T.erase a).Nonempty := Finset.card_pos.1 (by omega)
  set b := (T.erase a).min' hne1 with hb
  have hbT : b ∈ T.erase a := (T.erase a).min'_mem hne1
  set T' := (T.erase a).erase b with hT'
  have hc2 : T'.card = 2 * n := by rw [hT', Finset.card_erase_of_mem hbT]; omega
  have hab : a < b := lt_of_le_of_ne (T.min'_le b (Finset.mem_of_mem_erase hbT)) (Finset.ne_of_mem_erase hbT).symm
  have hmina : ∀ y ∈ T, a ≤ y := fun y hy => T.min'_le y hy
  have hminb : ∀ y ∈ T, y ≠ a → b ≤ y := fun y hy h => (T.erase a).min'_le y (Finset.mem_erase.2 ⟨h, hy⟩)
  have hmem' : ∀ y, y ∈ T' ↔ y ≠ b ∧ y ≠ a ∧ y ∈ T := fun y => by rw [hT', Finset.mem_erase, Finset.mem_erase]
  have fa : T.filter (fun y => a ≤ y) = T := Finset.filter_true_of_mem hmina
  have fb : T.filter (fun y => b ≤ y) = T.erase a := by
    ext y
    simp only [Finset.mem_filter, Finset.mem_erase]
    constructor
    · rintro ⟨h1, h2⟩; exact ⟨fun h => by rw [h] at h2; exact absurd hab (not_lt.2 h2), h1⟩
    · rintro ⟨h1, h2⟩; exact ⟨h2, hminb y h2 h1⟩
  have he2 : ¬ Odd (2 * (n + 1)) := by rw [Nat.not_odd_iff_even]; exact ⟨n + 1, by ring⟩
  have he0 : ¬ Odd (2 * n) := by rw [Nat.not_odd_iff_even]; exact ⟨n, by ring⟩
  have hrest : ∀ x ∈ T', T.filter (fun y => x ≤ y) = T'.filter (fun y => x ≤ y) := by
    intro x hx
    have hx' := (hmem' x).1 hx
    have hbx : b < x := lt_of_le_of_ne (hminb x hx'.2.2 hx'.2.1) (Ne.symm hx'.1)
    ext y
    simp only [Finset.mem_filter, hmem']
    constructor
    · rintro ⟨h1, h2⟩
      exact ⟨⟨fun h => by rw [h] at h2; linarith, fun h => by rw [h] at h2; linarith, h1⟩, h2⟩
    · rintro ⟨⟨-, -, h1⟩, h2⟩; exact ⟨h1, h2⟩
  have hsum : ∀ G : ℝ → ℝ, ∑ x ∈ T, (if Odd (T.filter (fun y => x ≤ y)).card then 1 else -1) * G x =
      (G b - G a) + ∑ x ∈ T', (if Odd (T'.filter (fun y => x ≤ y)).card then 1 else -1) * G x := by
    intro G
    rw [← Finset.add_sum_erase T _ haT, ← Finset.add_sum_erase (T.erase a) _ hbT]
    simp only [fa, fb]
    rw [hT, hc1, if_neg he2, if_pos ⟨n, rfl⟩]
    have : ∑ x ∈ T', (if Odd (T.filter (fun y => x ≤ y)).card then (1 : ℝ) else -1) * G x =
        ∑ x ∈ T', (if Odd (T'.filter (fun y => x ≤ y)).card then 1 else -1) * G x :=
      Finset.sum_congr rfl fun x hx => by rw [hrest x hx]
    rw [this]; ring
  have hset : {x : ℝ | Odd (T.filter (fun y => x < y)).card} =
      Set.Ico a b ∪ {x : ℝ | Odd (T'.filter (fun y => x < y)).card} := by
    ext x
    simp only [Set.mem_setOf_eq, Set.mem_union, Set.mem_Ico]
    rcases lt_or_ge x a with h | h
    · have e1 : T.filter (fun y => x < y) = T := Finset.filter_true_of_mem fun y hy => lt_of_lt_of_le h (hmina y hy)
      have e2 : T'.filter (fun y => x < y) = T' :=
        Finset.filter_true_of_mem fun y hy => lt_of_lt_of_le h (hmina y ((hmem' y).1 hy).2.2)
      rw [e1, e2, hT, hc2]
      simp only [he2, he0, false_iff, or_false, not_and]
      intro h'; linarith
    rcases lt_or_ge x b with h' | h'
    · have e1 : T.filter (fun y => x < y) = T.erase a := by
        ext y
        simp only [Finset.mem_filter, Finset.mem_erase]
        constructor
        · rintro ⟨k1, k2⟩; exact ⟨fun k => by rw [k] at k2; linarith, k1⟩
        · rintro ⟨k1, k2⟩; exact ⟨k2, lt_of_lt_of_le h' (hminb y k2 k1)⟩
      rw [e1, hc1]
      exact ⟨fun _ => Or.inl ⟨h, h'⟩, fun _ => ⟨n, rfl⟩⟩
    · have e1 : T.filter (fun y => x < y) = T'.filter (fun y => x < y) := by
        ext y
        simp only [Finset.mem_filter, hmem']
        constructor
        · rintro ⟨k1, k2⟩
          exact ⟨⟨fun k => by rw [k] at k2; linarith, fun k => by rw [k] at k2; linarith, k1⟩, k2⟩
        · rintro ⟨⟨-, -, k1⟩, k2⟩; exact ⟨k1, k2⟩
      rw [e1]
      exact ⟨Or.inr, fun k => k.elim (fun k => absurd k.2 (not_lt.2 h')) id⟩
  have hdis : Disjoint (Set.Ico a b) {x : ℝ | Odd (T'.filter (fun y => x < y)).card} := by
    rw [Set.disjoint_left]
    rintro x ⟨-, hx⟩ hx'
    have e2 : T'.filter (fun y => x < y) = T' := Finset.filter_true_of_mem fun y hy =>
      lt_of_lt_of_le hx (hminb y ((hmem' y).1 hy).2.2 ((hmem' y).1 hy).2.1)
    rw [Set.mem_setOf_eq, e2, hc2] at hx'
    exact he0 hx'
  exact ⟨a, b, T', hab, hc2, hset, hdis, hsum⟩

/-- The length of the part of a line where an odd number of the points of a finite set is further on. -/
theorem alternating_volume : ∀ (n : Nat) (T : Finset ℝ), T.card = 2 * n →
    volume {x : ℝ | Odd (T.filter (fun y => x < y)).card} =
      ENNReal.ofReal (∑ x ∈ T, (if Odd (T.filter (fun y => x ≤ y)).card then 1 else -1) * x) := by
  intro n
  induction n with
  | zero =>
    intro T hT
    have : T = ∅ := Finset.card_eq_zero.1 (by simpa using hT)
    subst this
    simp
  | succ n ih =>
    intro T hT
    obtain ⟨a, b, T', hab, hc2, hset, hdis, hsum⟩ := alternating_split n T hT
    have hsum' := hsum id
    simp only [id] at hsum'
    rw [hset, measure_union' hdis measurableSet_Ico, ih T' hc2, Real.volume_Ico, hsum',
      ENNReal.ofReal_add (by linarith) (alternating_pos n T' hc2 _ fun x _ => rfl).1]

/-! ## The integral of the crossings of one side -/

theorem sideX_continuous (p q : P2 ℝ) : Continuous fun y : ℝ => sideX y p q := by
  unfold sideX
  fun_prop

theorem sideX_integral {p q : P2 ℝ} (h : p.y < q.y) : ∫ y in p.y..q.y, sideX y p q = (q.y - p.y) * (p.x + q.x) / 2 := by
  have h0 : q.y - p.y ≠ 0 := (sub_pos.2 h).ne'
  rw [intervalIntegral.integral_eq_sub_of_hasDerivAt
    (f := fun y => p.x * y + (y - p.y) ^ 2 / (2 * (q.y - p.y)) * (q.x - p.x))]
  · field_simp
    ring
  · intro y _
    have h1 : HasDerivAt (fun y : ℝ => p.x * y) (p.x * 1) y := (hasDerivAt_id y).const_mul _
    have h2 : HasDerivAt (fun y : ℝ => (y - p.y) ^ 2) (2 * (y - p.y)) y := by
      have := ((hasDerivAt_id y).sub_const p.y).fun_pow 2
      simpa using this
    have h3 := (h2.div_const (2 * (q.y - p.y))).mul_const (q.x - p.x)
    have h4 : sideX y p q = p.x * 1 + 2 * (y - p.y) / (2 * (q.y - p.y)) * (q.x - p.x) := by
      unfold sideX
      field_simp
    rw [h4]
    exact h1.fun_add h3
  · exact (sideX_continuous p q).intervalIntegrable _ _

theorem side_integral (e : P2 ℝ × P2 ℝ) :
    Integrable (fun y : ℝ => if PassesAt y e then upSign e * sideX y e.1 e.2 else 0) ∧
      ∫ y : ℝ, (if PassesAt y e then upSign e * sideX y e.1 e.2 else 0) = (e.2.y - e.1.y) * (e.1.x + e.2.x) / 2 := by
  obtain ⟨p, q⟩ := e
  have key : ∀ p q : P2 ℝ, p.y < q.y → Integrable (Set.indicator (Set.Ioo p.y q.y) fun y => sideX y p q) ∧
      ∫ y : ℝ, Set.indicator (Set.Ioo p.y q.y) (fun y => sideX y p q) y = (q.y - p.y) * (p.x + q.x) / 2 := by
    intro p q h
    constructor
    · rw [integrable_indicator_iff measurableSet_Ioo]
      exact (sideX_continuous p q).integrableOn_Icc.mono_set Set.Ioo_subset_Icc_self
    · rw [integral_indicator measurableSet_Ioo, ← integral_Ioc_eq_integral_Ioo, ← intervalIntegral.integral_of_le h.le,
        sideX_integral h]
  rcases lt_trichotomy p.y q.y with h | h | h
  · have e : (fun y : ℝ => if PassesAt y (p, q) then upSign (p, q) * sideX y p q else 0) =
        Set.indicator (Set.Ioo p.y q.y) fun y => sideX y p q := by
      funext y
      simp only [Set.indicator, Set.mem_Ioo, upSign, if_pos h, one_mul, PassesAt]
      congr 1
      exact propext ⟨fun k => k.elim id fun k => by linarith [k.1, k.2], Or.inl⟩
    simp only at e ⊢
    rw [e]; exact key p q h
  · have e : (fun y : ℝ => if PassesAt y (p, q) then upSign (p, q) * sideX y p q else 0) = fun _ => 0 := by
      funext y
      rw [if_neg]
      rintro (k | k) <;> linarith [k.1, k.2]
    simp only at e ⊢
    rw [e]
    exact ⟨integrable_zero _ _ _, by simp [h]⟩
  · have e : (fun y : ℝ => if PassesAt y (p, q) then upSign (p, q) * sideX y p q else 0) =
        fun y => -Set.indicator (Set.Ioo q.y p.y) (fun y => sideX y q p) y := by
      funext y
      simp only [Set.indicator, Set.mem_Ioo, upSign, if_neg h.le.not_gt, PassesAt, sideX_swap h.ne']
      by_cases k : q.y < y ∧ y < p.y
      · rw [if_pos (Or.inr k), if_pos k]; ring
      · rw [if_neg, if_neg k, neg_zero]
        rintro (k' | k')
        · linarith [k'.1, k'.2]
        · exact k k'
    simp only at e ⊢
    rw [e]
    obtain ⟨k1, k2⟩ := key q p h
    refine ⟨k1.neg, ?_⟩
    rw [integral_neg, k2]; ring

theorem levelSum_integral (poly : List (P2 ℝ)) : Integrable (levelSum poly) ∧ ∫ y, levelSum poly y = cyclicSum cross poly / 2 := by
  have key : ∀ l : List (P2 ℝ × P2 ℝ),
      Integrable (fun y : ℝ => (l.map fun e => if PassesAt y e then upSign e * sideX y e.1 e.2 else 0).sum) ∧
      ∫ y : ℝ, (l.map fun e => if PassesAt y e then upSign e * sideX y e.1 e.2 else 0).sum =
        (l.map fun e => (e.2.y - e.1.y) * (e.1.x + e.2.x)).sum / 2 := by
    intro l
    induction l with
    | nil => simp
    | cons e l ih =>
      simp only [List.map_cons, List.sum_cons]
      obtain ⟨h1, h2⟩ := side_integral e
      refine ⟨h1.add ih.1, ?_⟩
      rw [integral_add h1 ih.1, h2, ih.2]; ring
  have h := key (sides poly)
  refine ⟨h.1, ?_⟩
  have h2 := h.2
  have hcr : cyclicSum cross poly = cyclicSum (fun a b : P2 ℝ => (b.y - a.y) * (a.x + b.x)) poly := by
    have e1 : ∀ a b : P2 ℝ, (b.y - a.y) * (a.x + b.x) = cross a b + (b.x * b.y - a.x * a.y) := by
      intro a b; unfold cross; ring
    rw [cyclicSum_congr e1, cyclicSum_add, cyclicSum_telescope (fun a : P2 ℝ => a.x * a.y), add_zero]
  rw [hcr]
  unfold levelSum cyclicSum
  rw [h2, ← List.map_uncurry_zip_eq_zipWith]
  rfl

/-! ## The region -/

/-- The points for which `point_in_polygon` holds, as a set of pairs. -/
def region (poly : List (P2 ℝ)) : Set (ℝ × ℝ) := {z | pointInPolygon ⟨z.1, z.2⟩ poly = true}

theorem measurable_rayEdge (p q : P2 ℝ) : MeasurableSet {z : ℝ × ℝ | rayEdge ⟨z.1, z.2⟩ q p = true} := by
  have e : {z : ℝ × ℝ | rayEdge ⟨z.1, z.2⟩ q p = true} =
      ({z | z.2 < p.y} ∩ {z | q.y ≤ z.2} ∩ {z | (z.1 - q.x) * (p.y - q.y) < (z.2 - q.y) * (p.x - q.x)}) ∪
      ({z | p.y ≤ z.2} ∩ {z | z.2 < q.y} ∩ {z | (z.2 - q.y) * (p.x - q.x) < (z.1 - q.x) * (p.y - q.y)}) := by
    ext z
    simp only [Set.mem_setOf_eq, Set.mem_union, Set.mem_inter_iff, rayEdge]
    by_cases h1 : z.2 < p.y
    · by_cases h2 : q.y ≤ z.2
      · simp [h1, h2, h1.not_ge]
      · simp [h1, h2, h1.not_ge]
    · by_cases h2 : z.2 < q.y
      · simp [h1, h2, not_lt.1 h1]
      · simp [h1, h2]
  rw [e]
  refine MeasurableSet.union (MeasurableSet.inter (MeasurableSet.inter ?_ ?_) ?_) (MeasurableSet.inter (MeasurableSet.inter ?_ ?_) ?_)
  · exact measurableSet_lt (by fun_prop) (by fun_prop)
  · exact measurableSet_le (by fun_prop) (by fun_prop)
  · exact measurableSet_lt (by fun_prop) (by fun_prop)
  · exact measurableSet_le (by fun_prop) (by fun_prop)
  · exact measurableSet_lt (by fun_prop) (by fun_prop)
  · exact measurableSet_lt (by fun_prop) (by fun_prop)

theorem measurable_region (poly : List (P2 ℝ)) : MeasurableSet (region poly) := by
  classical
  have key : ∀ l : List (P2 ℝ × P2 ℝ), MeasurableSet {z : ℝ × ℝ | Odd (l.countP fun e => rayEdge ⟨z.1, z.2⟩ e.2 e.1)} := by
    intro l
    induction l with
    | nil => simp
    | cons e l ih =>
      have h := measurable_rayEdge e.1 e.2
      have hset : {z : ℝ × ℝ | Odd ((e :: l).countP fun e => rayEdge ⟨z.1, z.2⟩ e.2 e.1)} =
          ({z : ℝ × ℝ | rayEdge ⟨z.1, z.2⟩ e.2 e.1 = true} ∩ {z : ℝ × ℝ | Odd (l.countP fun e => rayEdge ⟨z.1, z.2⟩ e.2 e.1)}ᶜ) ∪
          ({z : ℝ × ℝ | rayEdge ⟨z.1, z.2⟩ e.2 e.1 = true}ᶜ ∩ {z : ℝ × ℝ | Odd (l.countP fun e => rayEdge ⟨z.1, z.2⟩ e.2 e.1)}) := by
        ext z
        simp only [Set.mem_setOf_eq, Set.mem_union, Set.mem_inter_iff, Set.mem_compl_iff, List.countP_cons]
        by_cases h : rayEdge ⟨z.1, z.2⟩ e.2 e.1 = true
        · simp only [h, if_true, Nat.odd_add_one, true_and, not_true_eq_false, false_and, or_false]
        · simp only [h, false_and, not_false_eq_true, true_and, false_or, Bool.false_eq_true, if_false, add_zero]
      rw [hset]
      exact (h.inter ih.compl).union (h.compl.inter ih)
  have e : region poly = {z : ℝ × ℝ | Odd ((sides poly).countP fun e => rayEdge ⟨z.1, z.2⟩ e.2 e.1)} := by
    ext z
    simp only [region, Set.mem_setOf_eq]
    rw [pointInPolygon_iff]
    unfold sideCount
    have hfun : (fun e : P2 ℝ × P2 ℝ => decide (CrossesRay ⟨z.1, z.2⟩ e.1 e.2)) = fun e => rayEdge ⟨z.1, z.2⟩ e.2 e.1 := by
      funext e
      rw [Bool.eq_iff_iff, decide_eq_true_eq, rayEdge_iff]
    rw [hfun]
  rw [e]; exact key _

section simple

variable {poly : List (P2 ℝ)} (hn : 2 < poly.length) (hp : ProperPolygon poly) (hs : SimplePolygon poly)
include hn hp hs

theorem region_volume {b : Bool} (hall : ∀ s ∈ sides poly, EvLeft poly s b) :
    volume (region poly) = ENNReal.ofReal ((if b then 1 else -1) * (cyclicSum cross poly / 2)) := by
  have hae : ∀ᵐ y : ℝ, y ∉ ((poly.map P2.y).toFinset : Set ℝ) :=
    measure_eq_zero_iff_ae_notMem.1 ((poly.map P2.y).toFinset.finite_toSet.measure_zero _)
  have hm : ∀ y : ℝ, y ∉ ((poly.map P2.y).toFinset : Set ℝ) → ∀ v ∈ poly, v.y ≠ y := by
    rintro y hy v hv rfl
    exact hy (Finset.mem_coe.2 (List.mem_toFinset.2 (List.mem_map_of_mem (f := P2.y) hv)))
  have hσ : ((if b then 1 else -1) * (if b then 1 else -1) : ℝ) = 1 := by cases b <;> simp
  have hslice : ∀ y : ℝ, y ∉ ((poly.map P2.y).toFinset : Set ℝ) →
      volume ((fun x : ℝ => (x, y)) ⁻¹' region poly) = ENNReal.ofReal ((if b then 1 else -1) * levelSum poly y) ∧
        0 ≤ (if b then 1 else -1) * levelSum poly y := by
    intro y hy
    obtain ⟨T, ⟨n, h1⟩, h2, h3, -⟩ := level_slice hn hp hs hall (hm y hy)
    have hT : T.card = 2 * n := by omega
    have h3' : levelSum poly y = _ := h3 id
    simp only [id] at h3'
    rw [h3', ← mul_assoc, hσ, one_mul]
    refine ⟨?_, (alternating_pos n T hT _ fun x _ => rfl).1⟩
    rw [← alternating_volume n T hT]
    congr 1
    ext x
    exact h2 x
  obtain ⟨hi, hI⟩ := levelSum_integral poly
  rw [Measure.volume_eq_prod, Measure.prod_apply_symm (measurable_region poly),
    lintegral_congr_ae (hae.mono fun y hy => (hslice y hy).1),
    ← ofReal_integral_eq_lintegral_ofReal (hi.const_mul _) (hae.mono fun y hy => (hslice y hy).2), integral_const_mul, hI]

end simple

end Geometrix
