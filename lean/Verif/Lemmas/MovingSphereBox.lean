import Verif.Lemmas.MovingSphereSegment
import Verif.Props.BoxIntersection

/-!
# Lemmas on moving spheres against boxes
-/

set_option linter.unusedSectionVars false

namespace Geometrix

open Spec

/-- Something affine that is positive was not negative shortly before. -/
theorem affine_pos {α β t0 : ℝ} (h : 0 < α + t0 * β) : ∃ δ > 0, ∀ t, t0 - δ ≤ t → t ≤ t0 → 0 ≤ α + t * β := by
  refine ⟨(α + t0 * β) / (|β| + 1), by positivity, fun t h1 h2 => ?_⟩
  have hb : 0 < |β| + 1 := by positivity
  have h3 : (t0 - t) * (|β| + 1) ≤ α + t0 * β := by
    rw [← le_div_iff₀ hb]; linarith
  have h4 := le_abs_self β
  nlinarith [mul_nonneg (sub_nonneg.2 h2) (sub_nonneg.2 h4)]

/-- Entering a quadrant with a rounded corner: if the moving point comes from the corner region and is near the
quadrant, then it was near the corner before. -/
theorem corner_before {X0 X1 Y0 Y1 r t0 t xi yi : ℝ} (hr : 0 ≤ r) (ht : t0 ≤ t)
    (hX : 0 < X0 + t0 * X1) (hXr : X0 + t0 * X1 ≤ r) (hY : 0 < Y0 + t0 * Y1) (hYr : Y0 + t0 * Y1 ≤ r)
    (hxi : 0 ≤ xi) (hyi : 0 ≤ yi)
    (hm : (X0 + t * X1 + xi) ^ 2 + (Y0 + t * Y1 + yi) ^ 2 ≤ r ^ 2) :
    ∃ t', t0 ≤ t' ∧ t' ≤ t ∧ (X0 + t' * X1) ^ 2 + (Y0 + t' * Y1) ^ 2 ≤ r ^ 2 := by
  have hXt : X0 + t * X1 ≤ r := by
    have := (abs_le_of_sq_le_sq' (a := X0 + t * X1 + xi) (by nlinarith [sq_nonneg (Y0 + t * Y1 + yi)]) hr).2
    linarith
  have hYt : Y0 + t * Y1 ≤ r := by
    have := (abs_le_of_sq_le_sq' (a := Y0 + t * Y1 + yi) (by nlinarith [sq_nonneg (X0 + t * X1 + xi)]) hr).2
    linarith
  -- in between
  have bet : ∀ Z0 Z1 u : ℝ, t0 ≤ u → u ≤ t → Z0 + t0 * Z1 ≤ r → Z0 + t * Z1 ≤ r → Z0 + u * Z1 ≤ r := by
    intro Z0 Z1 u h1 h2 h3 h4
    rcases le_total 0 Z1 with h | h
    · nlinarith [mul_nonneg h (sub_nonneg.2 h2)]
    · nlinarith [mul_nonneg (neg_nonneg.2 h) (sub_nonneg.2 h1)]
  -- one of them becomes negative
  have half : ∀ Z0 Z1 W0 W1 : ℝ, 0 < Z0 + t0 * Z1 → Z0 + t0 * Z1 ≤ r → 0 < W0 + t0 * W1 → W0 + t0 * W1 ≤ r →
      Z0 + t * Z1 ≤ r → W0 + t * W1 ≤ r → Z0 + t * Z1 < 0 →
      ∃ t', t0 ≤ t' ∧ t' ≤ t ∧ (Z0 + t' * Z1) ^ 2 + (W0 + t' * W1) ^ 2 ≤ r ^ 2 := by
    intro Z0 Z1 W0 W1 hZ hZr hW hWr hZt hWt hneg
    have zero : ∀ A0 A1 u : ℝ, t0 ≤ u → 0 < A0 + t0 * A1 → A0 + u * A1 < 0 →
        ∃ z, t0 ≤ z ∧ z ≤ u ∧ A0 + z * A1 = 0 := by
      intro A0 A1 u hu h1 h2
      have hA1 : A1 < 0 := by
        by_contra hn
        push Not at hn
        nlinarith [mul_nonneg hn (sub_nonneg.2 hu)]
      refine ⟨-A0 / A1, ?_, ?_, ?_⟩
      · rw [le_div_iff_of_neg hA1]; linarith
      · rw [div_le_iff_of_neg hA1]; linarith
      · rw [div_mul_cancel₀ _ hA1.ne]; ring
    obtain ⟨z, hz1, hz2, hz⟩ := zero Z0 Z1 t ht hZ hneg
    by_cases hw : 0 ≤ W0 + z * W1
    · refine ⟨z, hz1, hz2, ?_⟩
      have := bet W0 W1 z hz1 hz2 hWr hWt
      rw [hz]; nlinarith
    · obtain ⟨y, hy1, hy2, hy⟩ := zero W0 W1 z hz1 hW (not_le.1 hw)
      refine ⟨y, hy1, hy2.trans hz2, ?_⟩
      have h1 := bet Z0 Z1 y hy1 (hy2.trans hz2) hZr hZt
      have h2 : 0 ≤ Z0 + y * Z1 := by
        have : Z1 < 0 := by
          by_contra hn
          push Not at hn
          nlinarith [mul_nonneg hn (sub_nonneg.2 ht)]
        nlinarith [mul_nonneg (neg_nonneg.2 this.le) (sub_nonneg.2 hy2)]
      rw [hy]; nlinarith
  by_cases h1 : X0 + t * X1 < 0
  · exact half X0 X1 Y0 Y1 hX hXr hY hYr hXt hYt h1
  · by_cases h2 : Y0 + t * Y1 < 0
    · obtain ⟨t', k1, k2, k3⟩ := half Y0 Y1 X0 X1 hY hYr hX hXr hYt hXt h2
      exact ⟨t', k1, k2, by linarith⟩
    · refine ⟨t, ht, le_refl _, ?_⟩
      push Not at h1 h2
      nlinarith

/-- The closest point, when the foot of the perpendicular is on the segment. -/
theorem pointSegClosestPts_foot {P A B : P2 ℝ} (h : A ≠ B) {s : ℝ} (h0 : 0 ≤ s) (h1 : s ≤ 1)
    (hp : dot (P - (A + s • (B - A))) (B - A) = 0) : pointSegClosestPts P A B = .ok (A + s • (B - A)) := by
  have hpos := dot_diff_pos h
  have e : dot (P - A) (B - A) / dot (B - A) (B - A) = s := by
    rw [div_eq_iff hpos.ne']
    simp only [dot, P2.add_x, P2.add_y, P2.smul_x, P2.smul_y, P2.sub_x, P2.sub_y] at hp ⊢
    linarith
  unfold pointSegClosestPts
  dsimp only
  rw [cdiv_ok hpos.ne', e]
  dsimp only
  split_ifs with k1 k2
  · have : s = 0 := le_antisymm k1 h0
    congr 1
    rw [this]; ext <;> simp
  · have : s = 1 := le_antisymm h1 k2
    congr 1
    rw [this]; ext <;> simp
  · rfl

/-- The part of `moving_sphere_aabb_intersection` for a corner. -/
theorem movingSphereCorner {c vel V A B : P2 ℝ} {r σ τ α β t0 : ℝ} {S : P2 ℝ → Prop} (hr : 0 < r) (hv : vel ≠ 0)
    (hσ : σ * σ = 1) (hτ : τ * τ = 1) (hα : 0 < α) (hβ : 0 < β)
    (hA : A = V + (⟨σ * α, 0⟩ : P2 ℝ)) (hB : B = V + (⟨0, τ * β⟩ : P2 ℝ))
    (hS : ∀ P, S P ↔ (0 ≤ σ * (P.x - V.x) ∧ σ * (P.x - V.x) ≤ α) ∧ 0 ≤ τ * (P.y - V.y) ∧ τ * (P.y - V.y) ≤ β)
    (hfar : ∀ P, S P → r ^ 2 < sqDist P c)
    (ht0 : 0 ≤ t0) (hmin : ∀ t : ℝ, 0 ≤ t → DiscMeets S (c + t • vel) r → t0 ≤ t)
    (hx : σ * ((c + t0 • vel).x - V.x) < 0) (hxr : -r ≤ σ * ((c + t0 • vel).x - V.x))
    (hy : τ * ((c + t0 • vel).y - V.y) < 0) (hyr : -r ≤ τ * ((c + t0 • vel).y - V.y)) :
    ∃ f1 o1 f2 o2, movingSphereSegment Cmp.direct c r vel V A = .ok (f1, o1) ∧
      movingSphereSegment Cmp.direct c r vel V B = .ok (f2, o2) ∧ o1.map Prod.fst = o2.map Prod.fst ∧
      IsFirst (0 ≤ ·) (fun t => DiscMeets S (c + t • vel) r) (o1.map Prod.fst) ∧
      ∀ t q, o1 = some (t, q) → S q ∧ OnCircle (c + t • vel) r q := by
  have hσ0 : σ ≠ 0 := by rintro rfl; simp at hσ
  have hτ0 : τ ≠ 0 := by rintro rfl; simp at hτ
  have hVA : V ≠ A := by
    intro h
    have := congrArg P2.x (h.trans hA)
    simp only [P2.add_x] at this
    have : σ * α = 0 := by linarith
    rcases mul_eq_zero.1 this with h | h
    · exact hσ0 h
    · linarith
  have hVB : V ≠ B := by
    intro h
    have := congrArg P2.y (h.trans hB)
    simp only [P2.add_y] at this
    have : τ * β = 0 := by linarith
    rcases mul_eq_zero.1 this with h | h
    · exact hτ0 h
    · linarith
  have hSA : ∀ P, OnSegment V A P → S P := by
    rintro P ⟨s, h0, h1, rfl⟩
    rw [hS, hA]
    simp only [P2.add_x, P2.add_y, P2.smul_x, P2.smul_y, P2.sub_x, P2.sub_y]
    have e : σ * (V.x + s * (V.x + σ * α - V.x) - V.x) = s * α := by linear_combination (s * α) * hσ
    rw [e]
    refine ⟨⟨mul_nonneg h0 hα.le, by nlinarith⟩, ?_, ?_⟩ <;> simp
    exact hβ.le
  have hSB : ∀ P, OnSegment V B P → S P := by
    rintro P ⟨s, h0, h1, rfl⟩
    rw [hS, hB]
    simp only [P2.add_x, P2.add_y, P2.smul_x, P2.smul_y, P2.sub_x, P2.sub_y]
    have e : τ * (V.y + s * (V.y + τ * β - V.y) - V.y) = s * β := by linear_combination (s * β) * hτ
    rw [e]
    refine ⟨⟨?_, ?_⟩, mul_nonneg h0 hβ.le, by nlinarith⟩ <;> simp
    exact hα.le
  have hend : ∀ P Q : P2 ℝ, OnSegment P Q P ∧ OnSegment P Q Q := by
    intro P Q
    refine ⟨⟨0, le_refl _, by norm_num, by ext <;> simp⟩, ⟨1, by norm_num, le_refl _, by ext <;> simp⟩⟩
  have hoff : ∀ P, S P → OnCircle c r P → dot (c - P) vel < 0 := by
    intro P hP hc
    have := hfar P hP
    have : sqDist P c = r ^ 2 := hc
    linarith
  have hno : ∀ T : P2 ℝ → Prop, (∀ P, T P → S P) → ¬ DiscOverlaps T c r := by
    rintro T hT ⟨P, hP, hd⟩
    linarith [hfar P (hT P hP)]
  -- near the box means near the corner before
  have key : ∀ t : ℝ, 0 ≤ t → DiscMeets S (c + t • vel) r → ∃ t' : ℝ, 0 ≤ t' ∧ t' ≤ t ∧ InDisc (c + t' • vel) r V := by
    rintro t ht ⟨P, hP, hd⟩
    have hle := hmin t ht ⟨P, hP, hd⟩
    obtain ⟨⟨hx1, -⟩, hy1, -⟩ := (hS P).1 hP
    have lin : ∀ u : ℝ, (c + u • vel).x = c.x + u * vel.x ∧ (c + u • vel).y = c.y + u * vel.y := by
      intro u; simp
    simp only [(lin _).1, (lin _).2] at hx hxr hy hyr
    have hd' : (σ * (V.x - c.x) + t * (-(σ * vel.x)) + σ * (P.x - V.x)) ^ 2 +
        (τ * (V.y - c.y) + t * (-(τ * vel.y)) + τ * (P.y - V.y)) ^ 2 ≤ r ^ 2 := by
      unfold InDisc at hd
      rw [(lin t).1, (lin t).2] at hd
      have e : (σ * (V.x - c.x) + t * (-(σ * vel.x)) + σ * (P.x - V.x)) ^ 2 +
          (τ * (V.y - c.y) + t * (-(τ * vel.y)) + τ * (P.y - V.y)) ^ 2 =
          (P.x - (c.x + t * vel.x)) ^ 2 + (P.y - (c.y + t * vel.y)) ^ 2 := by
        linear_combination (P.x - (c.x + t * vel.x)) ^ 2 * hσ + (P.y - (c.y + t * vel.y)) ^ 2 * hτ
      rw [e]; exact hd
    obtain ⟨t', k1, k2, k3⟩ := corner_before (X0 := σ * (V.x - c.x)) (X1 := -(σ * vel.x)) (Y0 := τ * (V.y - c.y))
      (Y1 := -(τ * vel.y)) (xi := σ * (P.x - V.x)) (yi := τ * (P.y - V.y)) hr.le hle
      (by linarith) (by linarith) (by linarith) (by linarith) hx1 hy1 hd'
    refine ⟨t', ht0.trans k1, k2, ?_⟩
    unfold InDisc
    rw [(lin t').1, (lin t').2]
    have e : (V.x - (c.x + t' * vel.x)) ^ 2 + (V.y - (c.y + t' * vel.y)) ^ 2 =
        (σ * (V.x - c.x) + t' * (-(σ * vel.x))) ^ 2 + (τ * (V.y - c.y) + t' * (-(τ * vel.y))) ^ 2 := by
      linear_combination -(V.x - (c.x + t' * vel.x)) ^ 2 * hσ - (V.y - (c.y + t' * vel.y)) ^ 2 * hτ
    rw [e]; exact k3
  have lift : ∀ (T : P2 ℝ → Prop) (o : Option ℝ), (∀ P, T P → S P) → T V →
      IsFirst (0 ≤ ·) (fun t => DiscMeets T (c + t • vel) r) o →
      IsFirst (0 ≤ ·) (fun t => DiscMeets S (c + t • vel) r) o := by
    intro T o hT hV ho
    cases o with
    | none =>
      intro t ht hm
      obtain ⟨t', k1, -, k3⟩ := key t ht hm
      exact ho t' k1 ⟨V, hV, k3⟩
    | some u =>
      obtain ⟨h1, ⟨P, hP, hd⟩, h3⟩ := ho
      refine ⟨h1, ⟨P, hT P hP, hd⟩, fun t ht hm => ?_⟩
      obtain ⟨t', k1, k2, k3⟩ := key t ht hm
      exact (h3 t' k1 ⟨V, hV, k3⟩).trans k2
  obtain ⟨f1, o1, e1, -, hf1, hq1⟩ := movingSphereSegment_spec c vel V A r hVA hv hr
    (hoff V (hSA V (hend V A).1)) (hoff A (hSA A (hend V A).2))
  obtain ⟨f2, o2, e2, -, hf2, hq2⟩ := movingSphereSegment_spec c vel V B r hVB hv hr
    (hoff V (hSB V (hend V B).1)) (hoff B (hSB B (hend V B).2))
  have g1 := lift _ _ hSA (hend V A).1 hf1
  have g2 := lift _ _ hSB (hend V B).1 hf2
  refine ⟨f1, o1, f2, o2, e1, e2, ?_, g1, ?_⟩
  · generalize o1.map Prod.fst = x at *
    generalize o2.map Prod.fst = y at *
    cases x with
    | none =>
      cases y with
      | none => rfl
      | some y => exact absurd g2.2.1 (g1 y g2.1)
    | some x =>
      cases y with
      | none => exact absurd g1.2.1 (g2 x g1.1)
      | some y => rw [le_antisymm (g1.2.2 y g2.1 g2.2.1) (g2.2.2 x g1.1 g1.2.1)]
  · intro t q h
    obtain ⟨k1, k2⟩ := hq1 t q h (hno _ hSA)
    exact ⟨hSA q k1, k2⟩

/-- Near the box means in the expanded box. -/
theorem inBox_expanded {b : Box ℝ} {C : P2 ℝ} {r : ℝ} (hr : 0 ≤ r) (h : DiscMeets (InBox b) C r) :
    InBox ⟨b.lo - ⟨r, r⟩, b.hi + ⟨r, r⟩⟩ C := by
  obtain ⟨P, ⟨h1, h2, h3, h4⟩, hd⟩ := h
  unfold InDisc at hd
  have hx := abs_le_of_sq_le_sq' (a := P.x - C.x) (by nlinarith [sq_nonneg (P.y - C.y)]) hr
  have hy := abs_le_of_sq_le_sq' (a := P.y - C.y) (by nlinarith [sq_nonneg (P.x - C.x)]) hr
  simp only [InBox, P2.sub_x, P2.sub_y, P2.add_x, P2.add_y]
  refine ⟨?_, ?_, ?_, ?_⟩ <;> linarith [hx.1, hx.2, hy.1, hy.2]

/-- A moving point that enters a box is on its boundary then. -/
theorem box_entry {b : Box ℝ} {c v : P2 ℝ} {t0 : ℝ} (hc : ¬ InBox b c) (ht0 : 0 ≤ t0)
    (hmin : ∀ t : ℝ, 0 ≤ t → InBox b (c + t • v) → t0 ≤ t) :
    ¬ (b.lo.x < (c + t0 • v).x ∧ (c + t0 • v).x < b.hi.x ∧ b.lo.y < (c + t0 • v).y ∧ (c + t0 • v).y < b.hi.y) := by
  rintro ⟨h1, h2, h3, h4⟩
  simp only [P2.add_x, P2.add_y, P2.smul_x, P2.smul_y] at h1 h2 h3 h4
  have hpos : 0 < t0 := by
    rcases ht0.lt_or_eq with h | h
    · exact h
    · exfalso
      apply hc
      rw [← h] at h1 h2 h3 h4
      refine ⟨?_, ?_, ?_, ?_⟩ <;> linarith
  obtain ⟨d1, p1, k1⟩ := affine_pos (α := c.x - b.lo.x) (β := v.x) (t0 := t0) (by linarith)
  obtain ⟨d2, p2, k2⟩ := affine_pos (α := b.hi.x - c.x) (β := -v.x) (t0 := t0) (by linarith)
  obtain ⟨d3, p3, k3⟩ := affine_pos (α := c.y - b.lo.y) (β := v.y) (t0 := t0) (by linarith)
  obtain ⟨d4, p4, k4⟩ := affine_pos (α := b.hi.y - c.y) (β := -v.y) (t0 := t0) (by linarith)
  obtain ⟨d, hd, e0, e1, e2, e3, e4⟩ : ∃ d : ℝ, 0 < d ∧ d ≤ t0 ∧ d ≤ d1 ∧ d ≤ d2 ∧ d ≤ d3 ∧ d ≤ d4 :=
    ⟨min t0 (min (min d1 d2) (min d3 d4)), by simp [*], by simp, by simp, by simp, by simp, by simp⟩
  have := hmin (t0 - d) (by linarith) (by
    simp only [InBox, P2.add_x, P2.add_y, P2.smul_x, P2.smul_y]
    have a1 := k1 (t0 - d) (by linarith) (by linarith)
    have a2 := k2 (t0 - d) (by linarith) (by linarith)
    have a3 := k3 (t0 - d) (by linarith) (by linarith)
    have a4 := k4 (t0 - d) (by linarith) (by linarith)
    refine ⟨?_, ?_, ?_, ?_⟩ <;> linarith)
  linarith

/-- The part of `moving_sphere_aabb_intersection` for a side: the foot `Q` on the side is at the distance `r`. -/
theorem movingSphereSide {N A B Q : P2 ℝ} {r : ℝ} (hr : 0 < r) (h : A ≠ B) {s : ℝ} (h0 : 0 ≤ s) (h1 : s ≤ 1)
    (hQ : Q = A + s • (B - A)) (hp : dot (N - Q) (B - A) = 0) (hd : sqDist N Q = r ^ 2) :
    ∃ k w, pointSegClosestPts N A B = .ok k ∧ normalize2 (k - N) = .ok w ∧ N + r • w = Q := by
  refine ⟨Q, (1 / r) • (Q - N), ?_, normalize_toward hr hd, ?_⟩
  · rw [hQ] at hp ⊢; exact pointSegClosestPts_foot h h0 h1 hp
  · ext <;> simp <;> field_simp <;> ring

/-- A moving disc that starts with the centre outside the expanded box, and a box. -/
theorem movingSphereAabb_spec (c vel : P2 ℝ) (r : ℝ) (a : Box ℝ) (hax : a.lo.x < a.hi.x) (hay : a.lo.y < a.hi.y)
    (hr : 0 < r) (hv : vel ≠ 0) (hout : ¬ InBox ⟨a.lo - ⟨r, r⟩, a.hi + ⟨r, r⟩⟩ c) :
    ∃ o, movingSphereAabb Cmp.direct c r vel a = .ok o ∧
      IsFirst (0 ≤ ·) (fun t => DiscMeets (InBox a) (c + t • vel) r) (o.map Prod.fst) ∧
      ∀ t q, o = some (t, q) → InBox a q ∧ OnCircle (c + t • vel) r q := by
  have hvalid : ValidBox (⟨a.lo - ⟨r, r⟩, a.hi + ⟨r, r⟩⟩ : Box ℝ) := by
    constructor <;> simp only [P2.sub_x, P2.sub_y, P2.add_x, P2.add_y] <;> linarith
  obtain ⟨o, ho, hnone, hsome⟩ := C12_ray c vel _ hvalid hv
  unfold movingSphereAabb
  dsimp only
  rw [ho]
  have hfar : ∀ P, InBox a P → r ^ 2 < sqDist P c := by
    intro P hP
    by_contra hn
    exact hout (inBox_expanded hr.le ⟨P, hP, not_lt.1 hn⟩)
  cases o with
  | none =>
    refine ⟨none, rfl, fun t ht hm => hnone.1 rfl ⟨t, ht, inBox_expanded hr.le hm⟩, by simp⟩
  | some h =>
    obtain ⟨⟨ht0, hin⟩, hmin, -, hq, -⟩ := hsome h rfl
    have hq := hq hout
    dsimp only
    rw [hq]
    have hent := box_entry hout ht0 hmin
    have hmin' : ∀ t : ℝ, 0 ≤ t → DiscMeets (InBox a) (c + t • vel) r → h.tmin ≤ t :=
      fun t ht hm => hmin t ht (inBox_expanded hr.le hm)
    simp only [InBox, P2.sub_x, P2.sub_y] at hin
    rw [P2.add_x a.hi, P2.add_y a.hi] at hin
    simp only [P2.sub_x, P2.sub_y] at hent
    rw [P2.add_x a.hi, P2.add_y a.hi] at hent
    obtain ⟨hx1, hx2, hy1, hy2⟩ := hin
    -- a corner
    have corner : ∀ (V A B : P2 ℝ) (σ τ : ℝ), σ * σ = 1 → τ * τ = 1 →
        A = V + (⟨σ * (a.hi.x - a.lo.x), 0⟩ : P2 ℝ) → B = V + (⟨0, τ * (a.hi.y - a.lo.y)⟩ : P2 ℝ) →
        (∀ P, InBox a P ↔ (0 ≤ σ * (P.x - V.x) ∧ σ * (P.x - V.x) ≤ a.hi.x - a.lo.x) ∧
          0 ≤ τ * (P.y - V.y) ∧ τ * (P.y - V.y) ≤ a.hi.y - a.lo.y) →
        σ * ((c + h.tmin • vel).x - V.x) < 0 → -r ≤ σ * ((c + h.tmin • vel).x - V.x) →
        τ * ((c + h.tmin • vel).y - V.y) < 0 → -r ≤ τ * ((c + h.tmin • vel).y - V.y) →
        ∃ o, (match movingSphereSegment Cmp.direct c r vel V A with
          | .error e => .error e
          | .ok (_, first) =>
            match movingSphereSegment Cmp.direct c r vel V B with
            | .error e => .error e
            | .ok (_, second) =>
              match first, second with
              | none, s => .ok s
              | some x, none => .ok (some x)
              | some x, some y => .ok (some (if y.1 < x.1 then y else x)) : Res (Option (ℝ × P2 ℝ))) = .ok o ∧
          IsFirst (0 ≤ ·) (fun t => DiscMeets (InBox a) (c + t • vel) r) (o.map Prod.fst) ∧
          ∀ t q, o = some (t, q) → InBox a q ∧ OnCircle (c + t • vel) r q := by
      intro V A B σ τ hσ hτ hA hB hS k1 k2 k3 k4
      obtain ⟨f1, o1, f2, o2, e1, e2, e3, e4, e5⟩ := movingSphereCorner hr hv hσ hτ (sub_pos.2 hax) (sub_pos.2 hay)
        hA hB hS hfar ht0 hmin' k1 k2 k3 k4
      rw [e1, e2]
      cases o1 with
      | none =>
        cases o2 with
        | none => exact ⟨none, rfl, e4, by simp⟩
        | some y => simp at e3
      | some x =>
        cases o2 with
        | none => simp at e3
        | some y =>
          simp only [Option.map_some, Option.some.injEq] at e3
          dsimp only
          rw [if_neg (by rw [e3]; exact lt_irrefl _)]
          exact ⟨_, rfl, e4, e5⟩
    -- a side
    have side : ∀ (A B Q : P2 ℝ) (s : ℝ), A ≠ B → 0 ≤ s → s ≤ 1 → Q = A + s • (B - A) →
        dot (c + h.tmin • vel - Q) (B - A) = 0 → sqDist (c + h.tmin • vel) Q = r ^ 2 → InBox a Q →
        ∃ o, (match pointSegClosestPts (c + h.tmin • vel) A B with
          | .error e => .error e
          | .ok k =>
            match normalize2 (k - (c + h.tmin • vel)) with
            | .error e => .error e
            | .ok w => .ok (some (h.tmin, c + h.tmin • vel + r • w)) : Res (Option (ℝ × P2 ℝ))) = .ok o ∧
          IsFirst (0 ≤ ·) (fun t => DiscMeets (InBox a) (c + t • vel) r) (o.map Prod.fst) ∧
          ∀ t q, o = some (t, q) → InBox a q ∧ OnCircle (c + t • vel) r q := by
      intro A B Q s hAB h0 h1 hQ hp hd hQa
      obtain ⟨k, w, e1, e2, e3⟩ := movingSphereSide hr hAB h0 h1 hQ hp hd
      rw [e1]
      dsimp only
      rw [e2]
      have hd' : OnCircle (c + h.tmin • vel) r Q := by
        unfold OnCircle; unfold sqDist at hd; linarith
      refine ⟨_, rfl, ⟨ht0, ⟨Q, hQa, ?_⟩, hmin'⟩, ?_⟩
      · unfold OnCircle at hd'; unfold InDisc; linarith
      · intro t q he
        simp only [Option.some.injEq, Prod.mk.injEq] at he
        obtain ⟨rfl, rfl⟩ := he
        rw [e3]; exact ⟨hQa, hd'⟩
    generalize c + h.tmin • vel = N at *
    have hdx : 0 < a.hi.x - a.lo.x := sub_pos.2 hax
    have hdy : 0 < a.hi.y - a.lo.y := sub_pos.2 hay
    by_cases b1 : N.x < a.lo.x
    · have b1' : ¬ N.x > a.hi.x := by linarith
      by_cases b2 : N.y < a.lo.y
      · have b2' : ¬ N.y > a.hi.y := by linarith
        simp only [if_pos b1, if_neg b1', if_pos b2, if_neg b2']
        refine corner _ _ _ 1 1 (by norm_num) (by norm_num) ?_ ?_ ?_ ?_ ?_ ?_ ?_
        · ext <;> simp [boxCorner]
        · ext <;> simp [boxCorner]
        · intro P; simp only [InBox, boxCorner]; norm_num; constructor <;> intro h <;> grind
        all_goals simp [boxCorner]; linarith
      · by_cases b2' : N.y > a.hi.y
        · simp only [if_pos b1, if_neg b1', if_neg b2, if_pos b2']
          refine corner _ _ _ 1 (-1) (by norm_num) (by norm_num) ?_ ?_ ?_ ?_ ?_ ?_ ?_
          · ext <;> simp [boxCorner]
          · ext <;> simp [boxCorner]
          · intro P; simp only [InBox, boxCorner]; norm_num; constructor <;> intro h <;> grind
          all_goals simp [boxCorner]; linarith
        · simp only [if_pos b1, if_neg b1', if_neg b2, if_neg b2']
          have hN : N.x = a.lo.x - r := by
            by_contra hn
            exact hent ⟨lt_of_le_of_ne hx1 (Ne.symm hn), by linarith, by linarith, by linarith⟩
          refine side _ _ ⟨a.lo.x, N.y⟩ ((a.hi.y - N.y) / (a.hi.y - a.lo.y)) ?_ ?_ ?_ ?_ ?_ ?_ ?_
          · intro he; have := congrArg P2.y he; simp [boxCorner] at this; linarith
          · exact div_nonneg (by linarith) hdy.le
          · rw [div_le_one hdy]; linarith
          · ext <;> simp [boxCorner]; field_simp; ring
          · simp [boxCorner, dot]
          · simp only [sqDist, hN]; ring
          · simp only [InBox]; refine ⟨le_refl _, hax.le, by linarith, by linarith⟩
    · by_cases b1' : N.x > a.hi.x
      · by_cases b2 : N.y < a.lo.y
        · have b2' : ¬ N.y > a.hi.y := by linarith
          simp only [if_neg b1, if_pos b1', if_pos b2, if_neg b2']
          refine corner _ _ _ (-1) 1 (by norm_num) (by norm_num) ?_ ?_ ?_ ?_ ?_ ?_ ?_
          · ext <;> simp [boxCorner]
          · ext <;> simp [boxCorner]
          · intro P; simp only [InBox, boxCorner]; norm_num; constructor <;> intro h <;> grind
          all_goals simp [boxCorner]; linarith
        · by_cases b2' : N.y > a.hi.y
          · simp only [if_neg b1, if_pos b1', if_neg b2, if_pos b2']
            refine corner _ _ _ (-1) (-1) (by norm_num) (by norm_num) ?_ ?_ ?_ ?_ ?_ ?_ ?_
            · ext <;> simp [boxCorner]
            · ext <;> simp [boxCorner]
            · intro P; simp only [InBox, boxCorner]; norm_num; constructor <;> intro h <;> grind
            all_goals simp [boxCorner]; linarith
          · simp only [if_neg b1, if_pos b1', if_neg b2, if_neg b2']
            have hN : N.x = a.hi.x + r := by
              by_contra hn
              exact hent ⟨by linarith, lt_of_le_of_ne hx2 hn, by linarith, by linarith⟩
            refine side _ _ ⟨a.hi.x, N.y⟩ ((a.hi.y - N.y) / (a.hi.y - a.lo.y)) ?_ ?_ ?_ ?_ ?_ ?_ ?_
            · intro he; have := congrArg P2.y he; simp [boxCorner] at this; linarith
            · exact div_nonneg (by linarith) hdy.le
            · rw [div_le_one hdy]; linarith
            · ext <;> simp [boxCorner]; field_simp; ring
            · simp [boxCorner, dot]
            · simp only [sqDist, hN]; ring
            · simp only [InBox]; refine ⟨hax.le, le_refl _, by linarith, by linarith⟩
      · by_cases b2 : N.y < a.lo.y
        · have b2' : ¬ N.y > a.hi.y := by linarith
          simp only [if_neg b1, if_neg b1', if_pos b2, if_neg b2']
          have hN : N.y = a.lo.y - r := by
            by_contra hn
            exact hent ⟨by linarith, by linarith, lt_of_le_of_ne hy1 (Ne.symm hn), by linarith⟩
          refine side _ _ ⟨N.x, a.lo.y⟩ ((a.hi.x - N.x) / (a.hi.x - a.lo.x)) ?_ ?_ ?_ ?_ ?_ ?_ ?_
          · intro he; have := congrArg P2.x he; simp [boxCorner] at this; linarith
          · exact div_nonneg (by linarith) hdx.le
          · rw [div_le_one hdx]; linarith
          · ext <;> simp [boxCorner]; field_simp; ring
          · simp [boxCorner, dot]
          · simp only [sqDist, hN]; ring
          · simp only [InBox]; refine ⟨by linarith, by linarith, le_refl _, hay.le⟩
        · by_cases b2' : N.y > a.hi.y
          · simp only [if_neg b1, if_neg b1', if_neg b2, if_pos b2']
            have hN : N.y = a.hi.y + r := by
              by_contra hn
              exact hent ⟨by linarith, by linarith, by linarith, lt_of_le_of_ne hy2 hn⟩
            refine side _ _ ⟨N.x, a.hi.y⟩ ((a.hi.x - N.x) / (a.hi.x - a.lo.x)) ?_ ?_ ?_ ?_ ?_ ?_ ?_
            · intro he; have := congrArg P2.x he; simp [boxCorner] at this; linarith
            · exact div_nonneg (by linarith) hdx.le
            · rw [div_le_one hdx]; linarith
            · ext <;> simp [boxCorner]; field_simp; ring
            · simp [boxCorner, dot]
            · simp only [sqDist, hN]; ring
            · simp only [InBox]; refine ⟨by linarith, by linarith, hay.le, le_refl _⟩
          · exact absurd ⟨by linarith, by linarith, by linarith, by linarith⟩ hent

end Geometrix
