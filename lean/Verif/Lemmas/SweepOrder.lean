import Verif.Model.BentleyOttmann
import Verif.Spec.Intersection
import Verif.Lemmas.Vec
import Mathlib.Data.Prod.Lex
import Mathlib.Tactic.FieldSimp
import Mathlib.Tactic.Ring
import Mathlib.Tactic.Linarith
import Mathlib.Tactic.LinearCombination
import Mathlib.Tactic.Positivity

/-!
# Helper lemmas: the order of segments on a sweep line
-/

set_option linter.unusedSectionVars false

namespace Geometrix

open Spec

variable {K : Type*} [Field K] [LinearOrder K] [IsStrictOrderedRing K]

/-- A point in the lexicographical order. -/
def lk (p : P2 K) : K ×ₗ K := toLex (p.x, p.y)

theorem lk_lt {p q : P2 K} : lk p < lk q ↔ p.x < q.x ∨ p.x = q.x ∧ p.y < q.y := Prod.Lex.toLex_lt_toLex

theorem lk_le {p q : P2 K} : lk p ≤ lk q ↔ p.x < q.x ∨ p.x = q.x ∧ p.y ≤ q.y := Prod.Lex.toLex_le_toLex

theorem lk_inj {p q : P2 K} (h : lk p = lk q) : p = q := by
  have h1 := toLex_inj.mp h
  simp only [Prod.mk.injEq] at h1
  exact P2.ext h1.1 h1.2

/-- The ends of a segment are different and in order. -/
def Rising (s : Seg K) : Prop := lk s.s < lk s.e

/-- The slope. -/
def slopeOf (s : Seg K) : K := (s.e.y - s.s.y) / (s.e.x - s.s.x)

/-- The ordinate on the sweep line through a point. -/
def yAt (s : Seg K) (p : P2 K) : K := if s.s.x = s.e.x then p.y else (p.x - s.s.x) * slopeOf s + s.s.y

/-- The point is on the segment. -/
abbrev Through (s : Seg K) (q : P2 K) : Prop := OnSegment s.s s.e q

/-- The sine of the angle between two segments, but for a positive factor. -/
def spread (s t : Seg K) : K := cross (s.e - s.s) (t.e - t.s)

/-- A common point of two segments that are not parallel. -/
def Crossing (s t : Seg K) (x : P2 K) : Prop := spread s t ≠ 0 ∧ Through s x ∧ Through t x

theorem rising_cases {s : Seg K} (h : Rising s) :
    (s.s.x = s.e.x ∧ s.s.y < s.e.y) ∨ (s.s.x ≠ s.e.x ∧ s.s.x < s.e.x) := by
  rcases lk_lt.mp h with h | h
  · exact Or.inr ⟨h.ne, h⟩
  · exact Or.inl h

theorem rising_ne {s : Seg K} (h : Rising s) : s.s ≠ s.e := fun h0 => by
  unfold Rising at h; rw [h0] at h; exact lt_irrefl _ h

theorem slope_mul {s : Seg K} (h : s.s.x < s.e.x) : slopeOf s * (s.e.x - s.s.x) = s.e.y - s.s.y := by
  have h0 : s.e.x - s.s.x ≠ 0 := by have := sub_pos.mpr h; exact this.ne'
  unfold slopeOf; field_simp

theorem through_iff {s : Seg K} (h : Rising s) (q : P2 K) :
    Through s q ↔ lk s.s ≤ lk q ∧ lk q ≤ lk s.e ∧ yAt s q = q.y := by
  rcases rising_cases h with ⟨hx, hy⟩ | ⟨hne, hx⟩
  · simp only [yAt, if_pos hx, lk_le, and_true]
    constructor
    · rintro ⟨t, h0, h1, rfl⟩
      simp only [P2.add_x, P2.smul_x, P2.sub_x, P2.add_y, P2.smul_y, P2.sub_y]
      have e : s.s.x + t * (s.e.x - s.s.x) = s.s.x := by rw [hx]; ring
      rw [e]
      exact ⟨Or.inr ⟨rfl, by nlinarith⟩, Or.inr ⟨hx, by nlinarith⟩⟩
    · rintro ⟨h1, h2⟩
      have hqx : q.x = s.s.x := by
        rcases h1 with h1 | h1 <;> rcases h2 with h2 | h2 <;> linarith [h1, h2, hx]
      have h1' : s.s.y ≤ q.y := by rcases h1 with h1 | h1 <;> [linarith; exact h1.2]
      have h2' : q.y ≤ s.e.y := by rcases h2 with h2 | h2 <;> [linarith; exact h2.2]
      have hd : 0 < s.e.y - s.s.y := by linarith
      refine ⟨(q.y - s.s.y) / (s.e.y - s.s.y), div_nonneg (by linarith) hd.le, (div_le_one hd).mpr (by linarith), ?_⟩
      apply P2.ext
      · simp only [P2.add_x, P2.smul_x, P2.sub_x]; rw [← hx, hqx]; ring
      · simp only [P2.add_y, P2.smul_y, P2.sub_y]; rw [div_mul_cancel₀ _ hd.ne']; ring
  · simp only [yAt, if_neg hne, lk_le]
    have hm := slope_mul hx
    have hd : 0 < s.e.x - s.s.x := by linarith
    constructor
    · rintro ⟨t, h0, h1, rfl⟩
      simp only [P2.add_x, P2.smul_x, P2.sub_x, P2.add_y, P2.smul_y, P2.sub_y]
      refine ⟨?_, ?_, by linear_combination t * hm⟩
      · rcases h0.eq_or_lt with h0 | h0
        · right; subst h0; simp
        · left; nlinarith
      · rcases h1.eq_or_lt with h1 | h1
        · right; subst h1; simp
        · left; nlinarith
    · rintro ⟨h1, h2, h3⟩
      have h1' : s.s.x ≤ q.x := by rcases h1 with h1 | h1 <;> [exact h1.le; exact h1.1.le]
      have h2' : q.x ≤ s.e.x := by rcases h2 with h2 | h2 <;> [exact h2.le; exact h2.1.le]
      refine ⟨(q.x - s.s.x) / (s.e.x - s.s.x), div_nonneg (by linarith) hd.le, (div_le_one hd).mpr (by linarith), ?_⟩
      apply P2.ext
      · simp only [P2.add_x, P2.smul_x, P2.sub_x]; rw [div_mul_cancel₀ _ hd.ne']; ring
      · simp only [P2.add_y, P2.smul_y, P2.sub_y]
        rw [← h3, ← hm]; field_simp; ring

theorem through_start {s : Seg K} (h : Rising s) : Through s s.s := ⟨0, le_rfl, zero_le_one, by
  apply P2.ext <;> simp⟩

theorem through_end {s : Seg K} (h : Rising s) : Through s s.e := ⟨1, zero_le_one, le_rfl, by
  apply P2.ext <;> simp⟩

theorem spread_swap (s t : Seg K) : spread t s = -spread s t := cross_swap _ _

/-- For two segments that are not vertical the spread is that of the slopes. -/
theorem spread_slope {s t : Seg K} (hs : s.s.x < s.e.x) (ht : t.s.x < t.e.x) :
    spread s t = (slopeOf t - slopeOf s) * ((s.e.x - s.s.x) * (t.e.x - t.s.x)) := by
  have h1 := slope_mul hs
  have h2 := slope_mul ht
  unfold spread cross
  simp only [P2.sub_x, P2.sub_y]
  linear_combination (-(s.e.x - s.s.x)) * h2 + (t.e.x - t.s.x) * h1

theorem slope_le_of_spread {s t : Seg K} (hs : s.s.x < s.e.x) (ht : t.s.x < t.e.x) :
    slopeOf s ≤ slopeOf t ↔ 0 ≤ spread s t := by
  have h : 0 < (s.e.x - s.s.x) * (t.e.x - t.s.x) := mul_pos (by linarith) (by linarith)
  rw [spread_slope hs ht, mul_nonneg_iff_of_pos_right h, sub_nonneg]

/-- Parallel segments are transitive. -/
theorem spread_trans {s t u : Seg K} (ht : Rising t) (h1 : spread s t = 0) (h2 : spread t u = 0) : spread s u = 0 := by
  have h0 := sub_ne_zero_P2 (rising_ne ht)
  have h1' : cross (t.e - t.s) (s.e - s.s) = 0 := by rw [cross_swap]; unfold spread at h1; rw [h1, neg_zero]
  obtain ⟨r1, e1⟩ := (cross_eq_zero_iff h0).mp h1'
  obtain ⟨r2, e2⟩ := (cross_eq_zero_iff h0).mp h2
  unfold spread
  rw [e1, e2, cross_smul_left, cross_smul_right, cross_self]; ring

/-- The order of directions is transitive. -/
theorem spread_nonneg_trans {s t u : Seg K} (hs : Rising s) (ht : Rising t) (hu : Rising u) (h1 : 0 ≤ spread s t)
    (h2 : 0 ≤ spread t u) : 0 ≤ spread s u := by
  unfold spread cross at *
  simp only [P2.sub_x, P2.sub_y] at *
  rcases rising_cases hs with ⟨a1, a2⟩ | ⟨a0, a1⟩ <;> rcases rising_cases ht with ⟨b1, b2⟩ | ⟨b0, b1⟩ <;>
    rcases rising_cases hu with ⟨c1, c2⟩ | ⟨c0, c1⟩
  · rw [a1, c1]; simp
  · have := mul_pos (sub_pos.mpr b2) (sub_pos.mpr c1)
    rw [b1] at h2; nlinarith
  · nlinarith
  · nlinarith
  · rw [c1]; nlinarith
  · have := mul_pos (sub_pos.mpr b2) (sub_pos.mpr c1)
    rw [b1] at h2; nlinarith
  · rw [c1]; nlinarith
  · have ha : 0 < s.e.x - s.s.x := by linarith
    have hb : 0 < t.e.x - t.s.x := by linarith
    have hc : 0 < u.e.x - u.s.x := by linarith
    have e : (t.e.x - t.s.x) * ((s.e.x - s.s.x) * (u.e.y - u.s.y) - (s.e.y - s.s.y) * (u.e.x - u.s.x)) =
        (s.e.x - s.s.x) * ((t.e.x - t.s.x) * (u.e.y - u.s.y) - (t.e.y - t.s.y) * (u.e.x - u.s.x)) +
        (u.e.x - u.s.x) * ((s.e.x - s.s.x) * (t.e.y - t.s.y) - (s.e.y - s.s.y) * (t.e.x - t.s.x)) := by ring
    have h3 := add_nonneg (mul_nonneg ha.le h2) (mul_nonneg hc.le h1)
    rw [← e] at h3
    exact nonneg_of_mul_nonneg_right (by linarith) hb

/-- Two segments that are not parallel have one common point at most. -/
theorem crossing_unique {s t : Seg K} {x y : P2 K} (h1 : Crossing s t x) (h2 : Crossing s t y) : x = y := by
  obtain ⟨h0, ⟨a, -, -, e1⟩, ⟨b, -, -, e2⟩⟩ := h1
  obtain ⟨-, ⟨c, -, -, e3⟩, ⟨d, -, -, e4⟩⟩ := h2
  have e5 : s.s + a • (s.e - s.s) = t.s + b • (t.e - t.s) := by rw [← e1, e2]
  have e6 : s.s + c • (s.e - s.s) = t.s + d • (t.e - t.s) := by rw [← e3, e4]
  have x5 := congrArg P2.x e5
  have y5 := congrArg P2.y e5
  have x6 := congrArg P2.x e6
  have y6 := congrArg P2.y e6
  simp only [P2.add_x, P2.smul_x, P2.sub_x, P2.add_y, P2.smul_y, P2.sub_y] at x5 y5 x6 y6
  have hac : a = c := by
    have : (a - c) * spread s t = 0 := by
      unfold spread cross
      simp only [P2.sub_x, P2.sub_y]
      linear_combination (t.e.y - t.s.y) * (x5 - x6) - (t.e.x - t.s.x) * (y5 - y6)
    rcases mul_eq_zero.mp this with h | h
    · linarith
    · exact absurd h h0
  rw [e1, e3, hac]

theorem crossing_swap {s t : Seg K} {x : P2 K} (h : Crossing s t x) : Crossing t s x :=
  ⟨by rw [spread_swap]; exact neg_ne_zero.mpr h.1, h.2.2, h.2.1⟩

/-- After `p`, and as long as both last and until they cross, `s` is below `t`. -/
def BelowAfter (p : P2 K) (s t : Seg K) : Prop :=
  ∀ r, lk p < lk r → lk r ≤ lk s.e → lk r ≤ lk t.e → (∀ x, lk p < lk x → lk x < lk r → ¬ Crossing s t x) →
    yAt s r ≤ yAt t r

/-- The segment is met by the sweep line just after `q`. -/
def ActiveAfter (q : P2 K) (s : Seg K) : Prop := lk s.s ≤ lk q ∧ lk q < lk s.e

theorem vertical_active {s : Seg K} (hs : Rising s) (hv : s.s.x = s.e.x) {q : P2 K} (h1 : lk s.s ≤ lk q)
    (h2 : lk q ≤ lk s.e) : q.x = s.s.x := by
  rcases lk_le.mp h1 with h1 | h1 <;> rcases lk_le.mp h2 with h2 | h2 <;> linarith [h1, h2]

/-- Strictly below at `q`: below afterwards. -/
theorem belowAfter_of_lt {q : P2 K} {s t : Seg K} (hs : Rising s) (ht : Rising t) (as : ActiveAfter q s)
    (at' : ActiveAfter q t) (h : yAt s q < yAt t q) : BelowAfter q s t := by
  intro r hr hrs hrt hx
  by_contra hc
  push Not at hc
  have hsr := (as.1.trans hr.le)
  have htr := (at'.1.trans hr.le)
  rcases rising_cases hs with ⟨vs, ys⟩ | ⟨ns, xs⟩ <;> rcases rising_cases ht with ⟨vt, yt⟩ | ⟨nt, xt⟩
  · simp [yAt, vs, vt] at h
  · have q1 := vertical_active hs vs as.1 as.2.le
    have r1 := vertical_active hs vs hsr hrs
    have e : yAt t r = yAt t q := by simp only [yAt, if_neg nt]; rw [r1, q1]
    rw [e] at hc
    simp only [yAt, if_pos vs] at h hc
    have e2 : yAt t ⟨q.x, yAt t q⟩ = yAt t q := by simp only [yAt, if_neg nt]
    have o1 : lk q < lk (⟨q.x, yAt t q⟩ : P2 K) := lk_lt.mpr (Or.inr ⟨rfl, h⟩)
    have o2 : lk (⟨q.x, yAt t q⟩ : P2 K) < lk r := lk_lt.mpr (Or.inr ⟨by rw [r1, q1], hc⟩)
    refine hx _ o1 o2 ⟨?_, (through_iff hs _).mpr ⟨as.1.trans o1.le, o2.le.trans hrs, by simp only [yAt, if_pos vs]⟩,
      (through_iff ht _).mpr ⟨at'.1.trans o1.le, o2.le.trans hrt, e2⟩⟩
    unfold spread cross
    simp only [P2.sub_x, P2.sub_y]
    have : (s.e.y - s.s.y) * (t.e.x - t.s.x) > 0 := mul_pos (by linarith) (by linarith)
    rw [vs]; nlinarith
  · have q1 := vertical_active ht vt at'.1 at'.2.le
    have r1 := vertical_active ht vt htr hrt
    have e : yAt s r = yAt s q := by simp only [yAt, if_neg ns]; rw [r1, q1]
    rw [e] at hc
    simp only [yAt, if_pos vt] at h hc
    rcases lk_lt.mp hr with h1 | h1
    · linarith
    · linarith
  · simp only [yAt, if_neg ns, if_neg nt] at h hc
    have hqr : q.x < r.x := by
      rcases lk_lt.mp hr with h1 | h1
      · exact h1
      · rw [h1.1] at h; linarith
    -- the point where the difference vanishes
    set m := slopeOf s - slopeOf t with hm
    have hm0 : 0 < m := by
      by_contra h0
      push Not at h0
      nlinarith
    set x0 := q.x + ((q.x - t.s.x) * slopeOf t + t.s.y - ((q.x - s.s.x) * slopeOf s + s.s.y)) / m with hx0
    have e0 : (x0 - q.x) * m = (q.x - t.s.x) * slopeOf t + t.s.y - ((q.x - s.s.x) * slopeOf s + s.s.y) := by
      rw [hx0]; field_simp; ring
    have h1 : q.x < x0 := by
      have : 0 < (x0 - q.x) * m := by rw [e0]; linarith
      have := (pos_iff_pos_of_mul_pos this).mpr hm0
      linarith
    have h2 : x0 < r.x := by
      by_contra h3
      push Not at h3
      have : (r.x - q.x) * m ≤ (x0 - q.x) * m := mul_le_mul_of_nonneg_right (by linarith) hm0.le
      rw [e0] at this
      rw [hm] at this
      nlinarith
    have e3 : (x0 - s.s.x) * slopeOf s + s.s.y = (x0 - t.s.x) * slopeOf t + t.s.y := by
      rw [hm] at e0; linear_combination e0
    set X : P2 K := ⟨x0, (x0 - s.s.x) * slopeOf s + s.s.y⟩ with hX
    have o1 : lk q < lk X := lk_lt.mpr (Or.inl h1)
    have o2 : lk X < lk r := lk_lt.mpr (Or.inl h2)
    refine hx X o1 o2 ⟨?_, (through_iff hs _).mpr ⟨as.1.trans o1.le, o2.le.trans hrs, by simp only [yAt, if_neg ns, hX]⟩,
      (through_iff ht _).mpr ⟨at'.1.trans o1.le, o2.le.trans hrt, by simp only [yAt, if_neg nt, hX]; exact e3.symm⟩⟩
    rw [spread_slope xs xt]
    have hp : 0 < (s.e.x - s.s.x) * (t.e.x - t.s.x) := mul_pos (by linarith) (by linarith)
    have : slopeOf t - slopeOf s ≠ 0 := by rw [hm] at hm0; intro h; linarith
    exact mul_ne_zero this hp.ne'

/-- Both through `q`: the order of directions is the order afterwards. -/
theorem belowAfter_of_spread {q : P2 K} {s t : Seg K} (hs : Rising s) (ht : Rising t) (qs : Through s q)
    (qt : Through t q) (h : 0 ≤ spread s t) : BelowAfter q s t := by
  intro r hr hrs hrt _
  obtain ⟨s1, s2, s3⟩ := (through_iff hs q).mp qs
  obtain ⟨t1, t2, t3⟩ := (through_iff ht q).mp qt
  have hsr := (s1.trans hr.le)
  have htr := (t1.trans hr.le)
  rcases rising_cases hs with ⟨vs, ys⟩ | ⟨ns, xs⟩ <;> rcases rising_cases ht with ⟨vt, yt⟩ | ⟨nt, xt⟩
  · simp [yAt, vs, vt]
  · exfalso
    unfold spread cross at h
    simp only [P2.sub_x, P2.sub_y] at h
    have : (s.e.y - s.s.y) * (t.e.x - t.s.x) > 0 := mul_pos (by linarith) (by linarith)
    rw [vs] at h; nlinarith
  · have q1 := vertical_active ht vt t1 t2
    have r1 := vertical_active ht vt htr hrt
    have e : yAt s r = yAt s q := by simp only [yAt, if_neg ns]; rw [r1, q1]
    rw [e, s3]
    simp only [yAt, if_pos vt]
    rcases lk_lt.mp hr with h1 | h1
    · linarith
    · exact h1.2.le
  · have hl := (slope_le_of_spread xs xt).mpr h
    have hqr : q.x ≤ r.x := by
      rcases lk_lt.mp hr with h1 | h1
      · exact h1.le
      · exact h1.1.le
    simp only [yAt, if_neg ns, if_neg nt] at s3 t3 ⊢
    nlinarith

end Geometrix
