import Verif.Model.SphereHits
import Verif.Spec.SphereHits
import Verif.Lemmas.Sphere
import Verif.Lemmas.PolylineIntersection
import Verif.Lemmas.PolylineSplit

/-!
# Lemmas on first meetings with spheres
-/

set_option linter.unusedSectionVars false

namespace Geometrix

open Spec

/-- The first parameter at which a monic quadratic is not positive. -/
theorem raySphereParam_spec (b c : ℝ) : ∃ o, raySphereParam Cmp.direct b c = .ok o ∧
    IsFirst (0 ≤ ·) (fun t => t ^ 2 + 2 * b * t + c ≤ 0) o := by
  unfold raySphereParam
  simp only [direct_gt, direct_lt, Bool.and_eq_true, decide_eq_true_eq]
  split_ifs with h1 h2 h3
  · refine ⟨none, rfl, fun t ht hf => ?_⟩
    simp only at hf ht
    nlinarith [mul_nonneg h1.2.le ht]
  · refine ⟨none, rfl, fun t ht hf => ?_⟩
    simp only at hf ht
    nlinarith [sq_nonneg (t + b)]
  · rw [csqrt_ok (by linarith)]
    set s := Real.sqrt (b * b - c) with hs
    have hs0 : 0 ≤ s := Real.sqrt_nonneg _
    have hss : s * s = b * b - c := Real.mul_self_sqrt (by linarith)
    refine ⟨_, rfl, ?_⟩
    split_ifs with h3
    · refine ⟨le_refl (0 : ℝ), ?_, fun t ht _ => ht⟩
      simp only
      by_contra hc
      have hc' : 0 < c := by nlinarith
      have hb : b ≤ 0 := by
        by_contra hb
        exact h1 ⟨hc', not_le.1 hb⟩
      nlinarith
    · push Not at h3
      refine ⟨h3, ?_, fun t ht hf => ?_⟩
      · simp only; nlinarith
      · simp only at hf
        have : (t + b) ^ 2 ≤ s ^ 2 := by nlinarith
        have := abs_le_of_sq_le_sq this hs0
        linarith [(abs_le.1 this).1] 

/-- The first parameter up to a length at which a monic quadratic is not positive. -/
theorem isFirst_upto {b c L : ℝ} {o : Option ℝ}
    (h : IsFirst (0 ≤ ·) (fun t => t ^ 2 + 2 * b * t + c ≤ 0) o) :
    IsFirst (fun t => 0 ≤ t ∧ t ≤ L) (fun t => t ^ 2 + 2 * b * t + c ≤ 0)
      (o.bind fun t => if t > L then none else some t) := by
  cases o with
  | none => exact fun t ht hf => h t ht.1 hf
  | some u =>
    obtain ⟨h0, hu, hmin⟩ := h
    simp only [Option.bind_some]
    split_ifs with hL
    · intro t ht hf
      have := hmin t ht.1 hf
      linarith [ht.2]
    · exact ⟨⟨h0, not_lt.1 hL⟩, hu, fun t ht hf => hmin t ht.1 hf⟩

/-- Change of the parameter. -/
theorem isFirst_scale {A B S T : ℝ → Prop} {L : ℝ} (hL : 0 < L) {o : Option ℝ} (h : IsFirst A S o)
    (hA : ∀ t, B t ↔ A (L * t)) (hS : ∀ t, T t ↔ S (L * t)) : IsFirst B T (o.map (· / L)) := by
  cases o with
  | none => exact fun t ht hf => h (L * t) ((hA t).1 ht) ((hS t).1 hf)
  | some u =>
    obtain ⟨h0, hu, hmin⟩ := h
    have e : L * (u / L) = u := by field_simp
    refine ⟨(hA _).2 (by rw [e]; exact h0), (hS _).2 (by rw [e]; exact hu), fun t ht hf => ?_⟩
    rw [div_le_iff₀ hL, mul_comm]
    exact hmin (L * t) ((hA t).1 ht) ((hS t).1 hf)

theorem isFirst_congr {A B S T : ℝ → Prop} {o : Option ℝ} (h : IsFirst A S o)
    (hA : ∀ t, B t ↔ A t) (hS : ∀ t, A t → (T t ↔ S t)) : IsFirst B T o := by
  cases o with
  | none => exact fun t ht hf => h t ((hA t).1 ht) ((hS t ((hA t).1 ht)).1 hf)
  | some u =>
    obtain ⟨h0, hu, hmin⟩ := h
    exact ⟨(hA u).2 h0, (hS u h0).2 hu, fun t ht hf => hmin t ((hA t).1 ht) ((hS t ((hA t).1 ht)).1 hf)⟩

/-- The version with a length is the ray version cut off at the length. -/
theorem segSphereLength_eq (sa d ctr : P2 ℝ) (rad L : ℝ) (hL : 0 < L) :
    ∃ o, raySphereParam Cmp.direct (dot (sa - ctr) d / L) (dot (sa - ctr) (sa - ctr) - rad * rad) = .ok o ∧
      segSphereLength Cmp.direct sa d L ctr rad =
        .ok ((o.bind fun t => if t > L then none else some t).map fun t => (t / L, some (sa + (t / L) • d))) := by
  obtain ⟨o, ho, hf⟩ := raySphereParam_spec (dot (sa - ctr) d / L) (dot (sa - ctr) (sa - ctr) - rad * rad)
  refine ⟨o, ho, ?_⟩
  have hb : dot (sa - ctr) (⟨d.x / L, d.y / L⟩ : P2 ℝ) = dot (sa - ctr) d / L := by
    simp only [dot]; field_simp
  unfold segSphereLength
  simp only [direct_equals, decide_eq_true_eq, if_neg hL.ne', cdiv_ok hL.ne', hb]
  dsimp only [raySphereParam] at ho
  split_ifs at ho ⊢ with h1 h2
  · cases ho; rfl
  · cases ho; rfl
  · have hd : 0 ≤ dot (sa - ctr) d / L * (dot (sa - ctr) d / L) - (dot (sa - ctr) (sa - ctr) - rad * rad) := by
      simpa only [direct_lt, decide_eq_true_eq, not_lt] using h2
    rw [csqrt_ok hd] at ho ⊢
    simp only [Except.ok.injEq] at ho
    subst ho
    clear hf
    dsimp only
    generalize -(dot (sa - ctr) d / L) - Real.sqrt (dot (sa - ctr) d / L * (dot (sa - ctr) d / L) -
      (dot (sa - ctr) (sa - ctr) - rad * rad)) = t
    have hq : ∀ u : ℝ, sa + u • (⟨d.x / L, d.y / L⟩ : P2 ℝ) = sa + (u / L) • d := by
      intro u
      apply P2.ext <;> simp <;> ring
    simp only [direct_gt, direct_lt, decide_eq_true_eq, Option.bind_some, hq]
    by_cases h3 : t > L
    · have h4 : ¬ t < 0 := by linarith
      simp [h3, h4]
    · rw [if_neg h3]
      by_cases h4 : t < 0
      · have h5 : ¬ (0 : ℝ) > L := by linarith
        simp [h4, h5]
      · simp [h3, h4]

theorem inDisc_along (p d c : P2 ℝ) (r t : ℝ) : InDisc c r (p + t • d) ↔
    dot d d * t ^ 2 + 2 * dot (p - c) d * t + (dot (p - c) (p - c) - r * r) ≤ 0 := by
  unfold InDisc
  simp only [dot, P2.add_x, P2.add_y, P2.smul_x, P2.smul_y, P2.sub_x, P2.sub_y]
  constructor <;> intro h <;> linarith

theorem onCircle_along (p d c : P2 ℝ) (r t : ℝ) : OnCircle c r (p + t • d) ↔
    dot d d * t ^ 2 + 2 * dot (p - c) d * t + (dot (p - c) (p - c) - r * r) = 0 := by
  unfold OnCircle
  simp only [dot, P2.add_x, P2.add_y, P2.smul_x, P2.smul_y, P2.sub_x, P2.sub_y]
  constructor <;> intro h <;> linarith

theorem dot_diff_pos {a b : P2 ℝ} (h : a ≠ b) : 0 < dot (b - a) (b - a) := by
  rcases (dot_self_nonneg (b - a)).lt_or_eq with h0 | h0
  · exact h0
  · exfalso
    apply h
    simp only [dot, P2.sub_x, P2.sub_y] at h0
    apply P2.ext
    · nlinarith [sq_nonneg (b.x - a.x), sq_nonneg (b.y - a.y)]
    · nlinarith [sq_nonneg (b.x - a.x), sq_nonneg (b.y - a.y)]

/-- The roots of the quadratic equation. -/
theorem segSphereRoots_spec (p0 p1 ctr : P2 ℝ) (rad : ℝ) (h : p0 ≠ p1) :
    ∃ o, segSphereRoots p0 p1 ctr rad = .ok o ∧
      (o = none ↔ ∀ t : ℝ, ¬ OnCircle ctr rad (p0 + t • (p1 - p0))) ∧
      ∀ x, o = some x → x.t0 ≤ x.t1 ∧ (∀ t, OnCircle ctr rad (p0 + t • (p1 - p0)) ↔ t = x.t0 ∨ t = x.t1) ∧
        x.q0 = p0 + x.t0 • (p1 - p0) ∧ x.q1 = p0 + x.t1 • (p1 - p0) ∧
        (x.hit0 = true ↔ 0 ≤ x.t0 ∧ x.t0 ≤ 1) ∧ (x.hit1 = true ↔ 0 ≤ x.t1 ∧ x.t1 ≤ 1) := by
  have ha := dot_diff_pos h
  unfold segSphereRoots
  simp only [onCircle_along]
  set a := dot (p1 - p0) (p1 - p0) with hadef
  set b := dot (p0 - ctr) (p1 - p0)
  set c := dot (p0 - ctr) (p0 - ctr) - rad * rad
  by_cases hd : 2 * b * (2 * b) - 4 * a * c < 0
  · rw [if_pos hd]
    refine ⟨none, rfl, ⟨fun _ t ht => ?_, fun _ => rfl⟩, by simp⟩
    nlinarith [sq_nonneg (2 * a * t + 2 * b)]
  · rw [if_neg hd, csqrt_ok (not_lt.1 hd)]
    have hs0 := Real.sqrt_nonneg (2 * b * (2 * b) - 4 * a * c)
    have hss := Real.mul_self_sqrt (not_lt.1 hd)
    set s := Real.sqrt (2 * b * (2 * b) - 4 * a * c)
    have ha2 : 2 * a ≠ 0 := by positivity
    simp only [cdiv_ok ha2]
    have key : ∀ t, a * t ^ 2 + 2 * b * t + c = 0 ↔ t = (-(2 * b) - s) / (2 * a) ∨ t = (-(2 * b) + s) / (2 * a) := by
      intro t
      rw [eq_div_iff ha2, eq_div_iff ha2]
      have hfac : (t * (2 * a) - (-(2 * b) - s)) * (t * (2 * a) - (-(2 * b) + s)) =
          4 * a * (a * t ^ 2 + 2 * b * t + c) := by linear_combination hss * (-1)
      constructor
      · intro hz
        rw [hz, mul_zero, mul_eq_zero, sub_eq_zero, sub_eq_zero] at hfac
        exact hfac
      · intro hz
        have : 4 * a * (a * t ^ 2 + 2 * b * t + c) = 0 := by
          rw [← hfac, mul_eq_zero, sub_eq_zero, sub_eq_zero]; exact hz
        rcases mul_eq_zero.1 this with h' | h'
        · exact absurd h' (by positivity)
        · exact h'
    refine ⟨_, rfl, ⟨by simp, fun hn => ?_⟩, ?_⟩
    · exact absurd ((key _).2 (Or.inl rfl)) (hn _)
    · rintro x hx
      cases hx
      refine ⟨?_, key, rfl, rfl, by simp, by simp⟩
      simp only
      gcongr
      linarith

theorem edgeOnCircle_zero {c p q : P2 ℝ} {r : ℝ} {l : List (P2 ℝ)} :
    EdgeOnCircle c r (p :: q :: l) 0 ↔ ∃ P, OnSegment p q P ∧ OnCircle c r P := by
  unfold EdgeOnCircle IsEdge
  constructor
  · rintro ⟨C, D, P, ⟨h1, h2⟩, h⟩
    simp only [List.getElem?_cons_zero, List.getElem?_cons_succ, Option.some.injEq, Nat.zero_add] at h1 h2
    subst h1; subst h2
    exact ⟨P, h⟩
  · rintro ⟨P, h⟩
    exact ⟨p, q, P, ⟨rfl, rfl⟩, h⟩

theorem edgeOnCircle_succ {c p : P2 ℝ} {r : ℝ} {l : List (P2 ℝ)} {i : Nat} :
    EdgeOnCircle c r (p :: l) (i + 1) ↔ EdgeOnCircle c r l i := by
  unfold EdgeOnCircle; simp only [isEdge_succ]

end Geometrix
