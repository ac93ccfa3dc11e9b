import Verif.Model.SegmentIntersection
import Verif.Lemmas.Between
import Verif.Spec.Intersection

/-!
# Helper lemmas for the intersection of segments and lines
-/

set_option linter.unusedSectionVars false

namespace Geometrix

open Spec

variable {K : Type*} [Field K] [LinearOrder K] [IsStrictOrderedRing K]

theorem xDenom_eq (A B C D : P2 K) : xDenom A B C D = -cross (B - A) (D - C) := by
  simp only [xDenom, cross, P2.sub_x, P2.sub_y]; ring

/-- The computed parameters solve the intersection equations. -/
theorem x_solves {A B C D : P2 K} (h : xDenom A B C D ≠ 0) :
    A + (xNumS A C D / xDenom A B C D) • (B - A) = C + (xNumT A B C / xDenom A B C D) • (D - C) := by
  ext
  · simp only [P2.add_x, P2.smul_x, P2.sub_x]
    rw [div_mul_eq_mul_div, div_mul_eq_mul_div]
    have e : A.x - C.x = (xNumT A B C * (D.x - C.x) - xNumS A C D * (B.x - A.x)) / xDenom A B C D := by
      rw [eq_div_iff h]; simp only [xDenom, xNumS, xNumT]; ring
    have e2 : (xNumT A B C * (D.x - C.x) - xNumS A C D * (B.x - A.x)) / xDenom A B C D
      = xNumT A B C * (D.x - C.x) / xDenom A B C D
        - xNumS A C D * (B.x - A.x) / xDenom A B C D := sub_div _ _ _
    rw [e2] at e
    linear_combination e
  · simp only [P2.add_y, P2.smul_y, P2.sub_y]
    rw [div_mul_eq_mul_div, div_mul_eq_mul_div]
    have e : A.y - C.y = (xNumT A B C * (D.y - C.y) - xNumS A C D * (B.y - A.y)) / xDenom A B C D := by
      rw [eq_div_iff h]; simp only [xDenom, xNumS, xNumT]; ring
    have e2 : (xNumT A B C * (D.y - C.y) - xNumS A C D * (B.y - A.y)) / xDenom A B C D
      = xNumT A B C * (D.y - C.y) / xDenom A B C D
        - xNumS A C D * (B.y - A.y) / xDenom A B C D := sub_div _ _ _
    rw [e2] at e
    linear_combination e

/-- ... and nothing else does. -/
theorem x_unique {A B C D : P2 K} (h : xDenom A B C D ≠ 0) {s t : K}
    (he : A + s • (B - A) = C + t • (D - C)) :
    s = xNumS A C D / xDenom A B C D ∧ t = xNumT A B C / xDenom A B C D := by
  have hx := congrArg P2.x he
  have hy := congrArg P2.y he
  simp only [P2.add_x, P2.smul_x, P2.sub_x, P2.add_y, P2.smul_y, P2.sub_y] at hx hy
  constructor
  · rw [eq_div_iff h]
    simp only [xDenom, xNumS]
    linear_combination (D.y - C.y) * (-1) * hx + (D.x - C.x) * hy
  · rw [eq_div_iff h]
    simp only [xDenom, xNumT]
    linear_combination (B.y - A.y) * (-1) * hx + (B.x - A.x) * hy

/-- Closed betweenness of scalars, in either direction. -/
def Btw (p q r : K) : Prop := (p ≤ r ∧ r ≤ q) ∨ (q ≤ r ∧ r ≤ p)

instance (p q r : K) : Decidable (Btw p q r) := by unfold Btw; infer_instance

theorem onSegment_param {A v : P2 K} (hv : v ≠ 0) (p q r : K) :
    OnSegment (A + p • v) (A + q • v) (A + r • v) ↔ Btw p q r := by
  have key : ∀ t : K, A + r • v = A + p • v + t • (A + q • v - (A + p • v)) ↔
      r = p + t * (q - p) := by
    intro t
    constructor
    · intro h
      have hx := congrArg P2.x h
      have hy := congrArg P2.y h
      simp only [P2.add_x, P2.smul_x, P2.sub_x, P2.add_y, P2.smul_y, P2.sub_y] at hx hy
      rcases (P2.ne_zero_iff v).mp hv with h1 | h1
      · apply mul_right_cancel₀ h1; linear_combination hx
      · apply mul_right_cancel₀ h1; linear_combination hy
    · intro h
      ext <;> simp [h] <;> ring
  unfold OnSegment Btw
  simp only [key]
  constructor
  · rintro ⟨t, h0, h1, rfl⟩
    rcases le_total p q with h | h
    · left; constructor <;> nlinarith
    · right; constructor <;> nlinarith
  · intro h
    by_cases hpq : p = q
    · subst hpq
      have : r = p := by rcases h with h | h <;> exact le_antisymm (by linarith) (by linarith)
      exact ⟨0, le_rfl, zero_le_one, by rw [this]; ring⟩
    · have hd : q - p ≠ 0 := sub_ne_zero.mpr (Ne.symm hpq)
      have hc : r = p + ((r - p) / (q - p)) * (q - p) := by field_simp; ring
      have := (scaled_between_closed hpq hc).mp (h.imp_right And.symm)
      exact ⟨_, this.1, this.2, hc⟩

theorem P2.add_sub_cancel_param (A B : P2 K) : A + (1 : K) • (B - A) = B := by
  ext <;> simp

theorem P2.add_zero_param (A v : P2 K) : A + (0 : K) • v = A := by
  ext <;> simp

/-- Equality of points on one line. -/
theorem param_inj {A v : P2 K} (hv : v ≠ 0) {p q : K} : A + p • v = A + q • v ↔ p = q := by
  constructor
  · intro h
    have hx := congrArg P2.x h
    have hy := congrArg P2.y h
    simp only [P2.add_x, P2.smul_x, P2.add_y, P2.smul_y] at hx hy
    rcases (P2.ne_zero_iff v).mp hv with h1 | h1
    · apply mul_right_cancel₀ h1; linear_combination hx
    · apply mul_right_cancel₀ h1; linear_combination hy
  · rintro rfl; rfl

theorem onSegment_onLine {A B P : P2 K} (h : OnSegment A B P) : OnLine A B P := by
  obtain ⟨t, _, _, h⟩ := h; exact ⟨t, h⟩

theorem parallel_iff_cross {u v : P2 K} (hu : u ≠ 0) : Parallel u v ↔ cross u v = 0 := by
  rw [cross_eq_zero_iff hu]
  constructor
  · rintro (h | ⟨r, h⟩)
    · exact h
    · have hr : r ≠ 0 := by
        rintro rfl; apply hu; rw [h]; ext <;> simp
      refine ⟨r⁻¹, ?_⟩
      rw [h]; ext <;> simp [hr]
  · exact Or.inl

theorem cross_zero_left (v : P2 K) : cross 0 v = 0 := by simp [cross]

/-- The non parallel case of C09. -/
theorem segSeg_transversal {A B C D : P2 K} (hAB : A ≠ B)
    (hd : xDenom A B C D ≠ 0) :
    ∃ r pts, segSegIntersection Cmp.direct A B C D = .ok (r, pts) ∧
      CorrectAnswer A B C D r pts := by
  have hBA : B - A ≠ 0 := sub_ne_zero_P2 hAB
  set s := xNumS A C D / xDenom A B C D with hs
  set t := xNumT A B C / xDenom A B C D with ht
  have hsol : A + s • (B - A) = C + t • (D - C) := x_solves hd
  set X := A + s • (B - A) with hX
  have hcross : cross (B - A) (D - C) ≠ 0 := by
    intro h; apply hd; rw [xDenom_eq, h, neg_zero]
  have hCD : C ≠ D := by
    rintro rfl
    apply hcross
    simp [cross]
  have hnp : ¬ Parallel (B - A) (D - C) := by
    rw [parallel_iff_cross hBA]; exact hcross
  have hnl : ¬ (OnLine A B C ∧ OnLine A B D) := by
    rintro ⟨⟨c, h1⟩, ⟨d, h2⟩⟩
    apply hcross
    rw [h1, h2]
    simp only [cross, P2.sub_x, P2.sub_y, P2.add_x, P2.add_y, P2.smul_x, P2.smul_y]; ring
  have hcommon : ∀ Q, Common A B C D Q ↔ (Q = X ∧ 0 ≤ s ∧ s ≤ 1 ∧ 0 ≤ t ∧ t ≤ 1) := by
    intro Q
    constructor
    · rintro ⟨⟨s', h0, h1, rfl⟩, ⟨t', h2, h3, he⟩⟩
      obtain ⟨e1, e2⟩ := x_unique hd he
      rw [← hs] at e1; rw [← ht] at e2
      subst e1; subst e2
      exact ⟨rfl, h0, h1, h2, h3⟩
    · rintro ⟨rfl, h0, h1, h2, h3⟩
      exact ⟨⟨s, h0, h1, rfl⟩, ⟨t, h2, h3, hsol⟩⟩
  have hinside : ∀ P, (InsideSegment A B P ∧ InsideSegment C D P) →
      (0 < s ∧ s < 1 ∧ 0 < t ∧ t < 1) := by
    rintro P ⟨⟨s', h0, h1, rfl⟩, ⟨t', h2, h3, he⟩⟩
    obtain ⟨e1, e2⟩ := x_unique hd he
    rw [← hs] at e1; rw [← ht] at e2
    subst e1; subst e2
    exact ⟨h0, h1, h2, h3⟩
  have hstart : X = A ↔ s = 0 := by
    rw [hX]
    conv_lhs => rhs; rw [← P2.add_zero_param A (B - A)]
    exact param_inj hBA
  have hend : X = B ↔ s = 1 := by
    rw [hX]
    conv_lhs => rhs; rw [← P2.add_sub_cancel_param A B]
    exact param_inj hBA
  have hDC : D - C ≠ 0 := sub_ne_zero_P2 hCD
  have hstart' : X = C ↔ t = 0 := by
    rw [hsol]
    conv_lhs => rhs; rw [← P2.add_zero_param C (D - C)]
    exact param_inj hDC
  have hend' : X = D ↔ t = 1 := by
    rw [hsol]
    conv_lhs => rhs; rw [← P2.add_sub_cancel_param C D]
    exact param_inj hDC
  have hnum1 : xNumS A C D = 0 ↔ s = 0 := by rw [hs, div_eq_zero_iff, or_iff_left hd]
  have hnum2 : xNumS A C D = xDenom A B C D ↔ s = 1 := by rw [hs, div_eq_one_iff_eq hd]
  have hnum3 : xNumT A B C = 0 ↔ t = 0 := by rw [ht, div_eq_zero_iff, or_iff_left hd]
  have hnum4 : xNumT A B C = xDenom A B C D ↔ t = 1 := by rw [ht, div_eq_one_iff_eq hd]
  have hc1 : cdiv (xNumS A C D) (xDenom A B C D) = .ok s := by simp [cdiv, hd, hs]
  have hc2 : cdiv (xNumT A B C) (xDenom A B C D) = .ok t := by simp [cdiv, hd, ht]
  simp only [segSegIntersection, direct_equals, hd, if_false, hc1, hc2, Bool.or_eq_true,
    Bool.and_eq_true, direct_lt, direct_gt, decide_eq_true_eq, hnum1, hnum2, hnum3, hnum4]
  by_cases hcr : ((0 < s ∧ s < 1) ∧ 0 < t) ∧ t < 1
  · rw [if_pos hcr]
    obtain ⟨⟨⟨a1, a2⟩, a3⟩, a4⟩ := hcr
    refine ⟨_, _, rfl, ?_⟩
    have hX' : Common A B C D X := (hcommon X).mpr ⟨rfl, a1.le, a2.le, a3.le, a4.le⟩
    constructor
    · simp only [reduceCtorEq, false_iff, not_not]; exact ⟨X, hX'⟩
    · simp only [true_iff]
      exact ⟨X, ⟨s, a1, a2, rfl⟩, ⟨t, a3, a4, hsol⟩, fun Q hQ => ((hcommon Q).mp hQ).1⟩
    · simp only [reduceCtorEq, false_iff, not_and, not_exists, not_or]
      intro _ P hP
      obtain ⟨rfl, _⟩ := (hcommon P).mp hP
      rw [hstart, hend, hstart', hend']
      exact ⟨a1.ne', a2.ne, a3.ne', a4.ne⟩
    · simp only [reduceCtorEq, false_iff]
      rintro ⟨h1, h2, _⟩; exact hnl ⟨h1, h2⟩
    · intro _
      refine ⟨X, rfl, fun Q => ?_⟩
      rw [hcommon Q]
      exact ⟨fun h => h.1, fun h => ⟨h, a1.le, a2.le, a3.le, a4.le⟩⟩
    · simp
  · rw [if_neg hcr]
    by_cases hout : ((s < 0 ∨ 1 < s) ∨ t < 0) ∨ 1 < t
    · rw [if_pos hout]
      have hno : ¬ ∃ P, Common A B C D P := by
        rintro ⟨P, hP⟩
        obtain ⟨_, b1, b2, b3, b4⟩ := (hcommon P).mp hP
        rcases hout with ((h | h) | h) | h <;> linarith
      refine ⟨_, _, rfl, ?_⟩
      constructor
      · simp [hno]
      · simp only [reduceCtorEq, false_iff]
        rintro ⟨P, h1, h2, _⟩
        obtain ⟨b1, b2, b3, b4⟩ := hinside P ⟨h1, h2⟩
        rcases hout with ((h | h) | h) | h <;> linarith
      · simp only [reduceCtorEq, false_iff]
        rintro ⟨_, P, hP, _⟩; exact hno ⟨P, hP⟩
      · simp only [reduceCtorEq, false_iff]
        rintro ⟨h1, h2, _⟩; exact hnl ⟨h1, h2⟩
      · simp
      · simp
    · rw [if_neg hout]
      push Not at hout
      obtain ⟨⟨⟨b1, b2⟩, b3⟩, b4⟩ := hout
      have hX' : Common A B C D X := (hcommon X).mpr ⟨rfl, b1, b2, b3, b4⟩
      have hany : s = 0 ∨ s = 1 ∨ t = 0 ∨ t = 1 := by
        by_contra hn
        push Not at hn
        exact hcr ⟨⟨⟨lt_of_le_of_ne b1 (Ne.symm hn.1), lt_of_le_of_ne b2 hn.2.1⟩,
          lt_of_le_of_ne b3 (Ne.symm hn.2.2.1)⟩, lt_of_le_of_ne b4 hn.2.2.2⟩
      have hres : ∀ it : IType, it = .endpoint → CorrectAnswer A B C D it [X] := by
        rintro _ rfl
        constructor
        · simp only [reduceCtorEq, false_iff, not_not]; exact ⟨X, hX'⟩
        · simp only [reduceCtorEq, false_iff]
          rintro ⟨P, h1, h2, _⟩
          obtain ⟨c1, c2, c3, c4⟩ := hinside P ⟨h1, h2⟩
          exact hcr ⟨⟨⟨c1, c2⟩, c3⟩, c4⟩
        · simp only [true_iff]
          refine ⟨hnp, X, hX', ?_⟩
          rw [hstart, hend, hstart', hend']
          exact hany
        · simp only [reduceCtorEq, false_iff]
          rintro ⟨h1, h2, _⟩; exact hnl ⟨h1, h2⟩
        · intro _
          refine ⟨X, rfl, fun Q => ?_⟩
          rw [hcommon Q]
          exact ⟨fun h => h.1, fun h => ⟨h, b1, b2, b3, b4⟩⟩
        · simp
      have hit : (if t = 0 ∨ t = 1 then IType.endpoint
          else if s = 0 ∨ s = 1 then IType.endpoint else IType.invalid) = .endpoint := by
        by_cases ht01 : t = 0 ∨ t = 1
        · rw [if_pos ht01]
        · rw [if_neg ht01, if_pos]
          rcases hany with h | h | h | h
          · exact Or.inl h
          · exact Or.inr h
          · exact absurd (Or.inl h) ht01
          · exact absurd (Or.inr h) ht01
      refine ⟨.endpoint, [X], ?_, hres _ rfl⟩
      rw [hit, if_neg (by simp)]


/-- Betweenness in terms of the parameters on a common line. -/
theorem isBetween_param {A v : P2 K} (hv : v ≠ 0) {p q r : K} (hpq : p ≠ q) :
    isBetween Cmp.direct (A + p • v) (A + q • v) (A + r • v) true = true ↔ Btw p q r := by
  rw [isBetween_iff_onSegment (fun h => hpq ((param_inj hv).mp h)), onSegment_param hv]

theorem btw_cases (c e r : K) :
    (Btw 0 1 c → Btw 0 1 e → ((Btw 0 1 r ∧ Btw c e r) ↔ Btw c e r)) ∧
    (Btw c e 0 → Btw c e 1 → ((Btw 0 1 r ∧ Btw c e r) ↔ Btw 0 1 r)) ∧
    (Btw 0 1 c → ¬ Btw 0 1 e → Btw c e 1 → ¬ Btw c e 0 → ((Btw 0 1 r ∧ Btw c e r) ↔ Btw c 1 r)) ∧
    (Btw 0 1 c → ¬ Btw 0 1 e → Btw c e 0 → ¬ Btw c e 1 → ((Btw 0 1 r ∧ Btw c e r) ↔ Btw c 0 r)) ∧
    (Btw 0 1 e → ¬ Btw 0 1 c → Btw c e 1 → ¬ Btw c e 0 → ((Btw 0 1 r ∧ Btw c e r) ↔ Btw e 1 r)) ∧
    (Btw 0 1 e → ¬ Btw 0 1 c → Btw c e 0 → ¬ Btw c e 1 → ((Btw 0 1 r ∧ Btw c e r) ↔ Btw e 0 r)) ∧
    ((Btw 0 1 r ∧ Btw c e r) → (Btw 0 1 c ∧ Btw 0 1 e) ∨ (Btw c e 0 ∧ Btw c e 1) ∨
      ((Btw 0 1 c ∨ Btw 0 1 e) ∧ (Btw c e 0 ∨ Btw c e 1))) := by
  simp only [Btw]
  have h01 : (0 : K) < 1 := zero_lt_one
  refine ⟨?_, ?_, ?_, ?_, ?_, ?_, ?_⟩ <;> grind

/-- Inside two overlapping intervals there is more than one common point. -/
theorem exists_near {c k s t : K} (s0 : 0 < s) (s1 : s < 1) (t0 : 0 < t) (t1 : t < 1)
    (hk : k ≠ 0) (hst : s = c + t * k) : ∃ r, Btw 0 1 r ∧ Btw c (c + k) r ∧ r ≠ s := by
  have main : ∀ l u : K, l < s → s < u → ∃ r, l ≤ r ∧ r ≤ u ∧ 0 ≤ r ∧ r ≤ 1 ∧ r ≠ s := by
    intro l u hl hu
    have h1 := le_max_left 0 l
    have h2 := le_max_right 0 l
    have h3 : max 0 l < s := max_lt s0 hl
    refine ⟨(s + max 0 l) / 2, by linarith, by linarith, by linarith, by linarith, ?_⟩
    intro h; linarith
  rcases lt_or_gt_of_ne hk with h | h
  · obtain ⟨r, h1, h2, h3, h4, h5⟩ := main (c + k) c (by nlinarith) (by nlinarith)
    exact ⟨r, Or.inl ⟨h3, h4⟩, Or.inr ⟨h1, h2⟩, h5⟩
  · obtain ⟨r, h1, h2, h3, h4, h5⟩ := main c (c + k) (by nlinarith) (by nlinarith)
    exact ⟨r, Or.inl ⟨h3, h4⟩, Or.inl ⟨h1, h2⟩, h5⟩

/-- The collinear case of C09, with the ends of the second segment at parameters `c` and `e`. -/
theorem parallel_collinear {A v : P2 K} (hv : v ≠ 0) {c e : K} (hce : c ≠ e) :
    let B := A + (1 : K) • v
    let C := A + c • v
    let D := A + e • v
    ((∃ r, Btw 0 1 r ∧ Btw c e r) → ∃ p q : K,
      parallelIntersection Cmp.direct A B C D = (.overlapping, [A + p • v, A + q • v]) ∧
      ∀ r, (Btw 0 1 r ∧ Btw c e r) ↔ Btw p q r) ∧
    ((¬ ∃ r, Btw 0 1 r ∧ Btw c e r) →
      parallelIntersection Cmp.direct A B C D = (.nonCrossing, [])) := by
  intro B C D
  have hA : A = A + (0 : K) • v := (P2.add_zero_param A v).symm
  have h01 : (0 : K) ≠ 1 := zero_ne_one
  have hcol : isCollinear Cmp.direct A B C = true := by
    simp only [isCollinear, direct_equals, B, C, cross, P2.sub_x, P2.sub_y, P2.add_x, P2.add_y,
      P2.smul_x, P2.smul_y]; ring
  have bC : isBetween Cmp.direct A B C true = true ↔ Btw 0 1 c := by
    conv_lhs => rw [hA]
    exact isBetween_param hv h01
  have bD : isBetween Cmp.direct A B D true = true ↔ Btw 0 1 e := by
    conv_lhs => rw [hA]
    exact isBetween_param hv h01
  have bA : isBetween Cmp.direct C D A true = true ↔ Btw c e 0 := by
    conv_lhs => rw [hA]
    exact isBetween_param hv hce
  have bB : isBetween Cmp.direct C D B true = true ↔ Btw c e 1 := isBetween_param hv hce
  have key := fun r => btw_cases c e r
  have eAC : seqEquals Cmp.direct A C = true → Btw 0 1 c ∧ Btw c e 0 := by
    rw [seqEquals_direct]; intro h
    rw [hA] at h
    have : 0 = c := (param_inj hv).mp h
    subst this; simp [Btw, le_total]
  have eAD : seqEquals Cmp.direct A D = true → Btw 0 1 e ∧ Btw c e 0 := by
    rw [seqEquals_direct]; intro h
    rw [hA] at h
    have : 0 = e := (param_inj hv).mp h
    subst this; simp [Btw, le_total]
  have eBC : seqEquals Cmp.direct B C = true → Btw 0 1 c ∧ Btw c e 1 := by
    rw [seqEquals_direct]; intro h
    have : 1 = c := (param_inj hv).mp h
    subst this; simp [Btw, le_total]
  have eBD : seqEquals Cmp.direct B D = true → Btw 0 1 e ∧ Btw c e 1 := by
    rw [seqEquals_direct]; intro h
    have : 1 = e := (param_inj hv).mp h
    subst this; simp [Btw, le_total]
  simp only [parallelIntersection, hcol, Bool.not_true, Bool.false_eq_true, if_false,
    Bool.and_eq_true, bC, bD, bA, bB]
  have m0 : Btw (0 : K) 1 0 := by simp [Btw]
  have m1 : Btw (0 : K) 1 1 := by simp [Btw]
  have mc : Btw c e c := by simp [Btw, le_total]
  have me : Btw c e e := by simp [Btw, le_total]
  by_cases kC : Btw 0 1 c
  · by_cases kD : Btw 0 1 e
    · simp only [kC, kD, and_self, if_true]
      exact ⟨fun _ => ⟨c, e, rfl, fun r => (key r).1 kC kD⟩, fun h => absurd ⟨c, kC, mc⟩ h⟩
    · by_cases kA : Btw c e 0
      · refine ⟨fun _ => ?_, fun h => absurd ⟨0, m0, kA⟩ h⟩
        by_cases kB : Btw c e 1
        · simp only [kC, kD, kA, kB, and_self, and_false, if_true, if_false]
          exact ⟨0, 1, by rw [← hA], fun r => (key r).2.1 kA kB⟩
        · simp only [kC, kD, kA, kB, and_self, and_false, if_true, if_false]
          exact ⟨c, 0, by rw [← hA], fun r => (key r).2.2.2.1 kC kD kA kB⟩
      · by_cases kB : Btw c e 1
        · refine ⟨fun _ => ?_, fun h => absurd ⟨1, m1, kB⟩ h⟩
          simp only [kC, kD, kA, kB, and_self, and_false, false_and, if_true, if_false]
          exact ⟨c, 1, rfl, fun r => (key r).2.2.1 kC kD kB kA⟩
        · exfalso
          rcases (key c).2.2.2.2.2.2 ⟨kC, mc⟩ with h | h | h
          · exact kD h.2
          · exact kA h.1
          · exact h.2.elim kA kB
  · by_cases kD : Btw 0 1 e
    · by_cases kA : Btw c e 0
      · refine ⟨fun _ => ?_, fun h => absurd ⟨0, m0, kA⟩ h⟩
        by_cases kB : Btw c e 1
        · simp only [kC, kD, kA, kB, and_self, false_and, if_true, if_false]
          exact ⟨0, 1, by rw [← hA], fun r => (key r).2.1 kA kB⟩
        · simp only [kC, kD, kA, kB, and_self, and_false, false_and, if_true, if_false]
          exact ⟨e, 0, by rw [← hA], fun r => (key r).2.2.2.2.2.1 kD kC kA kB⟩
      · by_cases kB : Btw c e 1
        · refine ⟨fun _ => ?_, fun h => absurd ⟨1, m1, kB⟩ h⟩
          simp only [kC, kD, kA, kB, and_self, false_and, if_true, if_false]
          exact ⟨e, 1, rfl, fun r => (key r).2.2.2.2.1 kD kC kB kA⟩
        · exfalso
          rcases (key e).2.2.2.2.2.2 ⟨kD, me⟩ with h | h | h
          · exact kC h.1
          · exact kA h.1
          · exact h.2.elim kA kB
    · by_cases kAB : Btw c e 0 ∧ Btw c e 1
      · refine ⟨fun _ => ?_, fun h => absurd ⟨0, m0, kAB.1⟩ h⟩
        simp only [kC, kD, kAB, and_self, if_true, if_false]
        exact ⟨0, 1, by rw [← hA], fun r => (key r).2.1 kAB.1 kAB.2⟩
      · have f1 : seqEquals Cmp.direct A C = false := by
          rw [← Bool.not_eq_true]; exact fun h => kC (eAC h).1
        have f2 : seqEquals Cmp.direct A D = false := by
          rw [← Bool.not_eq_true]; exact fun h => kD (eAD h).1
        have f3 : seqEquals Cmp.direct B C = false := by
          rw [← Bool.not_eq_true]; exact fun h => kC (eBC h).1
        have f4 : seqEquals Cmp.direct B D = false := by
          rw [← Bool.not_eq_true]; exact fun h => kD (eBD h).1
        refine ⟨?_, fun _ => ?_⟩
        · rintro ⟨r, hr⟩
          exfalso
          rcases (key r).2.2.2.2.2.2 hr with h | h | h
          · exact kC h.1
          · exact kAB h
          · exact h.1.elim kC kD
        · simp [kC, kD, kAB, f1, f2, f3, f4]

end Geometrix
