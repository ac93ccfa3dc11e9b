import Verif.Spec.Interval
import Verif.Lemmas.Policy
import Mathlib.Tactic.Linarith

/-!
# C40: intervals
-/

set_option linter.unusedSectionVars false

namespace Geometrix

open Spec

variable {K : Type*} [Field K] [LinearOrder K] [IsStrictOrderedRing K]

/-- The intervals that are made by name contain the ends which the name says. -/
theorem C40_makers (lo up x : K) :
    (InInterval (Interval.closed lo up) x ↔ lo ≤ x ∧ x ≤ up) ∧ (InInterval (Interval.open lo up) x ↔ lo < x ∧ x < up) ∧
    (InInterval (Interval.rightOpen lo up) x ↔ lo ≤ x ∧ x < up) ∧ (InInterval (Interval.leftOpen lo up) x ↔ lo < x ∧ x ≤ up) ∧
    (InInterval (Interval.point lo) x ↔ x = lo) ∧ ¬ InInterval (Interval.empty : Interval K) x := by
  refine ⟨by simp [InInterval, Interval.closed], by simp [InInterval, Interval.open], by simp [InInterval, Interval.rightOpen],
    by simp [InInterval, Interval.leftOpen], ?_, ?_⟩
  · simp only [InInterval, Interval.point, if_true]
    exact ⟨fun h => le_antisymm h.2 h.1, fun h => by rw [h]; exact ⟨le_rfl, le_rfl⟩⟩
  · simp only [InInterval, Interval.empty, if_true, Bool.false_eq_true, if_false, not_and, not_lt]
    intro h; linarith

example : InInterval (Interval.leftOpen (0 : ℚ) 1) 1 ∧ ¬ InInterval (Interval.leftOpen (0 : ℚ) 1) 0 :=
  ⟨(C40_makers 0 1 1).2.2.2.1.2 (by norm_num), fun h => absurd ((C40_makers 0 1 0).2.2.2.1.1 h).1 (lt_irrefl _)⟩

/-- A closed interval is empty exactly when `is_empty` says so. -/
theorem C40_is_empty {D : Type*} [LinearOrder D] (I : Interval D) (hc : IsClosed I) :
    I.isEmpty = true ↔ ∀ x, ¬ InInterval I x := by
  obtain ⟨lo, up, lc, rc⟩ := I
  obtain ⟨h1, h2⟩ := hc
  simp only at h1 h2; subst h1 h2
  simp only [Interval.isEmpty, InInterval, if_true, Bool.not_eq_true', decide_eq_false_iff_not, not_and,
    not_le]
  constructor
  · intro h x hx; exact lt_of_lt_of_le h hx
  · intro h; exact h lo le_rfl

example : (Interval.closed (2 : ℚ) 1).isEmpty = true ∧ (Interval.closed (1 : ℚ) 1).isEmpty = false := by
  decide +kernel

/-- Expanding a closed interval, also an empty one, gives the least closed interval that contains it and
the number. -/
theorem C40_expand {D : Type*} [LinearOrder D] (I : Interval D) (hc : IsClosed I) (v : D) :
    IsClosed (I.expand v) ∧ InInterval (I.expand v) v ∧
    (∀ x, InInterval I x → InInterval (I.expand v) x) ∧
    (∀ J : Interval D, IsClosed J → InInterval J v → (∀ x, InInterval I x → InInterval J x) →
      ∀ x, InInterval (I.expand v) x → InInterval J x) := by
  obtain ⟨lo, up, lc, rc⟩ := I
  obtain ⟨h1, h2⟩ := hc
  simp only at h1 h2; subst h1 h2
  by_cases hne : lo ≤ up
  · have e0 : (Interval.mk lo up true true).isEmpty = false := by simp [Interval.isEmpty, hne]
    have key : (Interval.mk lo up true true).expand v = ⟨min lo v, max up v, true, true⟩ := by
      unfold Interval.expand
      rw [e0]
      by_cases h : v < lo
      · have : ¬ up < v := not_lt.2 (h.le.trans hne)
        simp [h, min_eq_right h.le, max_eq_left (not_lt.1 this)]
      · by_cases h' : up < v
        · simp [h, h', min_eq_left (not_lt.1 h), max_eq_right h'.le]
        · simp [h, h', min_eq_left (not_lt.1 h), max_eq_left (not_lt.1 h')]
    rw [key]
    refine ⟨⟨rfl, rfl⟩, ?_, ?_, ?_⟩
    · simp [InInterval]
    · simp only [InInterval, if_true]
      intro x hx
      exact ⟨le_trans (min_le_left _ _) hx.1, le_trans hx.2 (le_max_left _ _)⟩
    · rintro ⟨lo', up', lc', rc'⟩ ⟨h1, h2⟩ hv hI x hx
      simp only at h1 h2; subst h1 h2
      simp only [InInterval, if_true] at *
      have a1 := hI lo ⟨le_rfl, hne⟩
      have a2 := hI up ⟨hne, le_rfl⟩
      exact ⟨le_trans (le_min a1.1 hv.1) hx.1, le_trans hx.2 (max_le a2.2 hv.2)⟩
  · have e0 : (Interval.mk lo up true true).isEmpty = true := by simp [Interval.isEmpty, not_le.1 hne]
    have key : (Interval.mk lo up true true).expand v = ⟨v, v, true, true⟩ := by
      unfold Interval.expand
      rw [e0]
      simp
    rw [key]
    refine ⟨⟨rfl, rfl⟩, by simp [InInterval], ?_, ?_⟩
    · simp only [InInterval, if_true]
      intro x hx
      exact absurd (le_trans hx.1 hx.2) hne
    · rintro J hJ hv - x hx
      simp only [InInterval, if_true] at hx
      have : x = v := le_antisymm hx.2 hx.1
      rw [this]; exact hv

example : (Interval.closed (0 : ℚ) 1).expand 3 = Interval.closed 0 3 ∧
    (Interval.closed (1 : ℚ) 0).expand 3 = Interval.closed 3 3 := by decide +kernel

/-- The version with a comparison policy agrees with the plain one for an interval that is not empty. -/
theorem C40_expand_cmp_partial (I : Interval K) (h : I.isEmpty = false) (v : K) :
    I.expandCmp Cmp.direct v = I.expand v := by
  unfold Interval.expandCmp Interval.expand
  simp [h, Interval.expand]

example : (Interval.closed (0 : ℚ) 1).isEmpty = false := by decide +kernel

/-- On an empty interval it does not give the point alone. -/
theorem C40_expand_cmp_refuted : ∃ v : ℚ, (Interval.empty : Interval ℚ).isEmpty = true ∧
    (Interval.empty : Interval ℚ).expandCmp Cmp.direct v ≠ { (Interval.empty : Interval ℚ) with lower := v, upper := v } ∧
    InInterval ((Interval.empty : Interval ℚ).expandCmp Cmp.direct v) 2 ∧ v = 5 := by
  refine ⟨5, by decide +kernel, by decide +kernel, ?_, rfl⟩
  have : (Interval.empty : Interval ℚ).expandCmp Cmp.direct 5 = ⟨1, 5, true, false⟩ := by decide +kernel
  rw [this]; norm_num [InInterval]

/-- It can also leave an empty interval empty. -/
theorem C40_expand_cmp_empty_refuted : ∃ (I : Interval ℚ) (v : ℚ), I.isEmpty = true ∧
    (I.expandCmp Cmp.direct v).isEmpty = true ∧ (I.expand v).isEmpty = false :=
  ⟨Interval.closed 5 1, 3, by decide +kernel, by decide +kernel, by decide +kernel⟩

/-- The interval made without arguments for a type with infinity is empty, contains no number, and expanding it leaves the given
number as both ends. -/
theorem C40_infinite {D : Type*} [LinearOrder D] [BoundedOrder D] [Nontrivial D] (v : D) :
    (Interval.emptyInf : Interval D).isEmpty = true ∧ (∀ x, ¬ InInterval (Interval.emptyInf : Interval D) x) ∧
    ((Interval.emptyInf : Interval D).expand v).lower = v ∧ ((Interval.emptyInf : Interval D).expand v).upper = v ∧
    ∀ w, (((Interval.emptyInf : Interval D).expand v).expand w).lower = min v w ∧
      (((Interval.emptyInf : Interval D).expand v).expand w).upper = max v w := by
  have h0 : (Interval.emptyInf : Interval D).isEmpty = true := by
    simp [Interval.isEmpty, Interval.emptyInf]
  have h1 : (Interval.emptyInf : Interval D).expand v = ⟨v, v, true, false⟩ := by
    unfold Interval.expand
    rw [h0]
    simp [Interval.emptyInf]
  refine ⟨h0, ?_, by rw [h1], by rw [h1], fun w => ?_⟩
  · simp [InInterval, Interval.emptyInf]
  · rw [h1]
    have h2 : (Interval.mk v v true false).isEmpty = false := by simp [Interval.isEmpty]
    unfold Interval.expand
    rw [h2]
    rcases lt_trichotomy w v with h | h | h
    · simp [h, h.le]
    · simp [h]
    · simp [h, h.le, h.le.not_gt]

/-- The version with a policy leaves it empty, if for the policy the number is less than infinity. -/
theorem C40_infinite_cmp_refuted {D : Type*} [LinearOrder D] [BoundedOrder D] (cmp : Cmp D) (v : D) (h : cmp.lt v ⊤ = true)
    (hv : v ≠ ⊥) : ((Interval.emptyInf : Interval D).expandCmp cmp v).isEmpty = true := by
  simp [Interval.expandCmp, Interval.emptyInf, h, Interval.isEmpty, bot_lt_iff_ne_bot, hv]

/-- The numbers with two infinities. -/
example : ∃ (cmp : Cmp (WithBot (WithTop ℚ))) (v : WithBot (WithTop ℚ)), cmp.lt v ⊤ = true ∧ v ≠ ⊥ :=
  ⟨⟨fun u v => decide (u = v), fun u v => decide (u < v), fun u v => decide (u ≤ v), fun u v => decide (u > v),
    fun u v => decide (u ≥ v)⟩, ((3 : ℚ) : WithTop ℚ),
    decide_eq_true (WithBot.coe_lt_coe.2 (WithTop.coe_lt_top 3)), WithBot.coe_ne_bot⟩

/-- With the default bounds, closed on the left and open on the right, the expanded interval need not
contain the number. -/
theorem C40_expand_bounds_refuted : ∃ v : ℚ, ¬ InInterval ((Interval.rightOpen (0 : ℚ) 1).expand v) v := by
  refine ⟨3, ?_⟩
  have : (Interval.rightOpen (0 : ℚ) 1).expand 3 = ⟨0, 3, true, false⟩ := by decide +kernel
  rw [this]; norm_num [InInterval]

/-- `intersects` means that the intervals share a point, for intervals with more than one point that are
both open on the right or both open on the left. -/
theorem C40_intersects_partial {D : Type*} [LinearOrder D] [DenselyOrdered D] (I J : Interval D) (hI : I.lower < I.upper) (hJ : J.lower < J.upper)
    (hb : (I.rightClosed = false ∧ J.rightClosed = false) ∨ (I.leftClosed = false ∧ J.leftClosed = false)) :
    I.intersects J = true ↔ ∃ x, InInterval I x ∧ InInterval J x := by
  · simp only [Interval.intersects, Bool.and_eq_true, decide_eq_true_eq, InInterval]
    constructor
    · rintro ⟨h1, h2⟩
      obtain ⟨x, hx1, hx2⟩ := exists_between (show max I.lower J.lower < min I.upper J.upper by
        simp only [max_lt_iff, lt_min_iff]; exact ⟨⟨hI, h1⟩, h2, hJ⟩)
      simp only [max_lt_iff] at hx1
      simp only [lt_min_iff] at hx2
      refine ⟨x, ⟨?_, ?_⟩, ?_, ?_⟩
      · split
        · exact hx1.1.le
        · exact hx1.1
      · split
        · exact hx2.1.le
        · exact hx2.1
      · split
        · exact hx1.2.le
        · exact hx1.2
      · split
        · exact hx2.2.le
        · exact hx2.2
    · rintro ⟨x, ⟨a1, a2⟩, b1, b2⟩
      have w : ∀ (c : Bool) (y z : D), (if c = true then y ≤ z else y < z) → y ≤ z := by
        intro c y z h
        cases c
        · exact le_of_lt (by simpa using h)
        · simpa using h
      have a1' := w _ _ _ a1
      have a2' := w _ _ _ a2
      have b1' := w _ _ _ b1
      have b2' := w _ _ _ b2
      rcases hb with ⟨c1, c2⟩ | ⟨c1, c2⟩
      · rw [c1] at a2; rw [c2] at b2
        simp only [Bool.false_eq_true, if_false] at a2 b2
        exact ⟨lt_of_le_of_lt b1' a2, lt_of_le_of_lt a1' b2⟩
      · rw [c1] at a1; rw [c2] at b1
        simp only [Bool.false_eq_true, if_false] at a1 b1
        exact ⟨lt_of_lt_of_le b1 a2', lt_of_lt_of_le a1 b2'⟩

/-- The version with the direct comparison agrees. -/
theorem C40_intersects_cmp (I J : Interval K) : I.intersectsCmp Cmp.direct J = I.intersects J := by
  simp [Interval.intersects, Interval.intersectsCmp, Cmp.direct]

example : (Interval.rightOpen (0 : ℚ) 2).intersects (Interval.rightOpen 1 3) = true ∧
    (Interval.rightOpen (0 : ℚ) 1).intersects (Interval.rightOpen 1 3) = false := by decide +kernel

/-- Closed intervals that touch share a point but are reported as not intersecting. -/
theorem C40_touching_refuted : ∃ I J : Interval ℚ, I.intersects J = false ∧
    ∃ x, InInterval I x ∧ InInterval J x := by
  refine ⟨Interval.closed 0 1, Interval.closed 1 2, by decide +kernel, 1, ?_, ?_⟩ <;>
    norm_num [InInterval, Interval.closed]

/-- An empty interval is reported as intersecting others. -/
theorem C40_empty_refuted : ∃ I J : Interval ℚ, I.isEmpty = true ∧ I.intersects J = true := by
  refine ⟨Interval.empty, Interval.closed (-1) 2, by decide +kernel, by decide +kernel⟩

/-- Adding or subtracting a number moves the points by that number. -/
theorem C40_translate (I : Interval K) (v y : K) :
    (InInterval (I.addNum v) y ↔ ∃ x, InInterval I x ∧ y = x + v) ∧
    (InInterval (I.subNum v) y ↔ ∃ x, InInterval I x ∧ y = x - v) := by
  constructor
  · constructor
    · intro h
      refine ⟨y - v, ?_, by ring⟩
      unfold InInterval Interval.addNum at *
      simp only at h
      refine ⟨?_, ?_⟩
      · have := h.1; split at this <;> rename_i hc <;> simp only [hc] <;> first | (simp; linarith)
      · have := h.2; split at this <;> rename_i hc <;> simp only [hc] <;> first | (simp; linarith)
    · rintro ⟨x, h, rfl⟩
      unfold InInterval Interval.addNum at *
      simpa using h
  · constructor
    · intro h
      refine ⟨y + v, ?_, by ring⟩
      unfold InInterval Interval.subNum at *
      simp only at h
      refine ⟨?_, ?_⟩
      · have := h.1; split at this <;> rename_i hc <;> simp only [hc] <;> first | (simp; linarith)
      · have := h.2; split at this <;> rename_i hc <;> simp only [hc] <;> first | (simp; linarith)
    · rintro ⟨x, h, rfl⟩
      unfold InInterval Interval.subNum at *
      simpa using h

example : (Interval.closed (0 : ℚ) 1).addNum 2 = Interval.closed 2 3 := by decide +kernel

/-- Multiplying and dividing by a positive number scales the points. -/
theorem C40_scale_partial (I : Interval K) (v : K) (hv : 0 < v) (y : K) :
    (InInterval (I.mulNum v) y ↔ ∃ x, InInterval I x ∧ y = x * v) ∧
    ∃ D, I.divNum v = .ok D ∧ (InInterval D y ↔ ∃ x, InInterval I x ∧ y = x / v) := by
  have hne := hv.ne'
  constructor
  · constructor
    · intro h
      refine ⟨y / v, ?_, by field_simp⟩
      unfold InInterval Interval.mulNum at *
      simp only [le_div_iff₀ hv, lt_div_iff₀ hv, div_le_iff₀ hv, div_lt_iff₀ hv] at *
      exact h
    · rintro ⟨x, h, rfl⟩
      unfold InInterval Interval.mulNum at *
      simpa [mul_le_mul_iff_left₀ hv, mul_lt_mul_iff_left₀ hv] using h
  · refine ⟨_, if_neg hne, ?_⟩
    constructor
    · intro h
      refine ⟨y * v, ?_, by field_simp⟩
      unfold InInterval at *
      simp only [le_div_iff₀ hv, lt_div_iff₀ hv, div_le_iff₀ hv, div_lt_iff₀ hv] at *
      exact h
    · rintro ⟨x, h, rfl⟩
      unfold InInterval at *
      simp only [div_le_div_iff_of_pos_right hv, div_lt_div_iff_of_pos_right hv]
      exact h

example : (Interval.closed (0 : ℚ) 1).mulNum 2 = Interval.closed 0 2 := by decide +kernel

/-- Multiplying by a negative number turns a non empty interval into an empty one. -/
theorem C40_negative_scale_refuted : ∃ (I : Interval ℚ) (v : ℚ), IsClosed I ∧ InInterval I 1 ∧
    (I.mulNum v).isEmpty = true ∧ ∀ D, I.divNum v = .ok D → D.isEmpty = true := by
  refine ⟨Interval.closed 0 1, -1, ⟨rfl, rfl⟩, by norm_num [InInterval, Interval.closed],
    by decide +kernel, ?_⟩
  have : (Interval.closed (0 : ℚ) 1).divNum (-1) = .ok ⟨0, -1, true, true⟩ := by decide +kernel
  intro D hD
  rw [this] at hD
  have := Except.ok.inj hD
  subst this
  decide +kernel

/-- The sum of closed storages is the closed interval of the sums. -/
theorem C40_storage_sum (I J : Interval K) (hI : IsClosed I) (hJ : IsClosed J)
    (hIe : I.lower ≤ I.upper) (hJe : J.lower ≤ J.upper) (z : K) :
    InInterval (I.addStorage J) z ↔ ∃ x y, InInterval I x ∧ InInterval J y ∧ z = x + y := by
  obtain ⟨a, b, c, d⟩ := I
  obtain ⟨a', b', c', d'⟩ := J
  obtain ⟨h1, h2⟩ := hI
  obtain ⟨h3, h4⟩ := hJ
  simp only at *; subst h1 h2 h3 h4
  simp only [InInterval, Interval.addStorage, if_true]
  constructor
  · rintro ⟨h1, h2⟩
    rcases le_total z (b + a') with h | h
    · exact ⟨z - a', a', ⟨by linarith, by linarith⟩, ⟨le_rfl, hJe⟩, by ring⟩
    · exact ⟨b, z - b, ⟨hIe, le_rfl⟩, ⟨by linarith, by linarith⟩, by ring⟩
  · rintro ⟨x, y, ⟨h1, h2⟩, ⟨h3, h4⟩, rfl⟩
    constructor <;> linarith

example : (Interval.closed (0 : ℚ) 1).addStorage (Interval.closed 2 3) = Interval.closed 2 4 := by
  decide +kernel

/-- The difference of storages does not contain the differences. -/
theorem C40_storage_difference_refuted : ∃ (I J : Interval ℚ) (x y : ℚ), InInterval I x ∧
    InInterval J y ∧ ¬ InInterval (I.subStorage J) (x - y) := by
  refine ⟨Interval.closed 0 1, Interval.closed 0 1, 0, 1, ?_, ?_, ?_⟩ <;>
    norm_num [InInterval, Interval.closed, Interval.subStorage]

/-- Division by zero is reported as such. -/
theorem C40_div_zero (I : Interval K) : I.divNum 0 = .error .divByZero := by
  unfold Interval.divNum
  rw [if_pos rfl]

end Geometrix
