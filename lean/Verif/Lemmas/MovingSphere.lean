import Verif.Model.MovingSphere
import Verif.Lemmas.MovingSpheres
import Verif.Lemmas.Line

/-!
# Lemmas on moving spheres against lines and segments
-/

set_option linter.unusedSectionVars false

namespace Geometrix

open Spec

/-- A disc and a line. -/
theorem discMeets_line {n : P2 ℝ} (hn : dot n n = 1) {d r : ℝ} (hr : 0 ≤ r) (c : P2 ℝ) :
    DiscMeets (OnNormalLine n d) c r ↔ |dot c n - d| ≤ r := by
  unfold DiscMeets OnNormalLine InDisc
  constructor
  · rintro ⟨P, hP, hd⟩
    apply abs_le_of_sq_le_sq _ hr
    have hl : (dot c n - d) ^ 2 + (((P.x - c.x) * n.y - (P.y - c.y) * n.x)) ^ 2 =
        ((P.x - c.x) ^ 2 + (P.y - c.y) ^ 2) * dot n n := by
      simp only [dot]; rw [← hP]; ring
    rw [hn, mul_one] at hl
    nlinarith [sq_nonneg ((P.x - c.x) * n.y - (P.y - c.y) * n.x)]
  · intro h
    refine ⟨c - (dot c n - d) • n, ?_, ?_⟩
    · have : (c - (dot c n - d) • n).x * n.x + (c - (dot c n - d) • n).y * n.y =
          dot c n - (dot c n - d) * dot n n := by
        simp only [dot, P2.sub_x, P2.sub_y, P2.smul_x, P2.smul_y]; ring
      rw [this, hn]; ring
    · have e : ((c - (dot c n - d) • n).x - c.x) ^ 2 + ((c - (dot c n - d) • n).y - c.y) ^ 2 =
          (dot c n - d) ^ 2 * dot n n := by
        simp only [dot, P2.sub_x, P2.sub_y, P2.smul_x, P2.smul_y]; ring
      rw [e, hn, mul_one]
      exact sq_le_sq' (by linarith [(abs_le.1 h).1]) (abs_le.1 h).2

theorem dot_along (c v n : P2 ℝ) (t : ℝ) : dot (c + t • v) n = dot c n + t * dot v n := by
  simp only [dot, P2.add_x, P2.add_y, P2.smul_x, P2.smul_y]; ring

/-- A moving disc and a line with a unit normal. -/
theorem movingSpherePlane_spec (c v n : P2 ℝ) (r d : ℝ) (hn : dot n n = 1) (hr : 0 ≤ r) :
    ∃ f o, movingSpherePlane Cmp.direct c r v n d = .ok (f, o) ∧ f.intersecting = o.isSome ∧
      IsFirst (0 ≤ ·) (fun t => |dot (c + t • v) n - d| ≤ r) (o.map Prod.fst) ∧
      (∀ t q, o = some (t, q) → q = (c + t • v) - (dot (c + t • v) n - d) • n ∧
        (|dot (c + t • v) n - d| = r ∨ t = 0 ∧ |dot c n - d| < r)) ∧
      (f.penetrating = true ↔ f.intersecting = true ∧ |dot c n - d| ≠ r) ∧
      (f.movingAway = true ↔ 0 ≤ dot v n * (dot c n - d)) := by
  have h00 : c + (0 : ℝ) • v = c := by ext <;> simp
  unfold movingSpherePlane
  simp only [direct_lt, direct_equals, direct_ge, decide_eq_true_eq, hn, cdiv_ok (one_ne_zero), div_one, dot_along]
  generalize dot c n = x
  generalize hw : dot v n = w
  split_ifs with h1 h2 h3 h4
  · refine ⟨_, _, rfl, rfl, ⟨le_refl _, by simpa using h1.le, fun t ht _ => ht⟩, ?_, ?_, ?_⟩
    · intro t q h
      simp only [Option.some.injEq, Prod.mk.injEq] at h
      obtain ⟨rfl, rfl⟩ := h
      refine ⟨by rw [h00]; simp, Or.inr ⟨rfl, h1⟩⟩
    · simp [h1.ne]
    · simp
  · refine ⟨_, _, rfl, rfl, ⟨le_refl _, by simpa using h2.le, fun t ht _ => ht⟩, ?_, ?_, ?_⟩
    · intro t q h
      simp only [Option.some.injEq, Prod.mk.injEq] at h
      obtain ⟨rfl, rfl⟩ := h
      refine ⟨by rw [h00]; simp, Or.inl (by simpa using h2)⟩
    · simp [h2]
    · simp
  · refine ⟨_, _, rfl, rfl, ?_, by simp, by simp, by simpa using h3⟩
    intro t ht hf
    have hgt : r < |x - d| := lt_of_le_of_ne (not_lt.1 h1) (Ne.symm h2)
    have : |x - d| ≤ |x + t * w - d| := by
      apply sq_le_sq.1
      nlinarith [mul_nonneg ht h3, sq_nonneg (t * w)]
    linarith
  · push Not at h3
    have hw0 : w ≠ 0 := by rintro rfl; simp at h3
    have hwneg : w < 0 := by nlinarith
    have hgt : r < x - d := by
      have : r < |x - d| := lt_of_le_of_ne (not_lt.1 h1) (Ne.symm h2)
      rwa [abs_of_pos h4] at this
    rw [cdiv_ok hw0]
    have ht : x + (r - (x - d)) / w * w - d = r := by field_simp; ring
    refine ⟨_, _, rfl, rfl, ⟨?_, ?_, ?_⟩, ?_, ?_, ?_⟩
    · exact div_nonneg_of_nonpos (by linarith) hwneg.le
    · simp only; rw [ht, abs_of_nonneg hr]
    · intro t' ht' hf
      rw [div_le_iff_of_neg hwneg]
      linarith [(abs_le.1 hf).2]
    · intro t q h
      simp only [Option.some.injEq, Prod.mk.injEq] at h
      obtain ⟨rfl, rfl⟩ := h
      rw [ht]
      exact ⟨rfl, Or.inl (abs_of_nonneg hr)⟩
    · simp; exact h2
    · simp; exact h3
  · push Not at h3
    have hw0 : w ≠ 0 := by rintro rfl; simp at h3
    have hxneg : x - d < 0 := by
      rcases (not_lt.1 h4).lt_or_eq with h | h
      · exact h
      · rw [h] at h3; simp at h3
    have hwneg : 0 < w := by nlinarith
    have hgt : x - d < -r := by
      have : r < |x - d| := lt_of_le_of_ne (not_lt.1 h1) (Ne.symm h2)
      rw [abs_of_neg hxneg] at this
      linarith
    rw [cdiv_ok hw0]
    have ht : x + (-r - (x - d)) / w * w - d = -r := by field_simp; ring
    refine ⟨_, _, rfl, rfl, ⟨?_, ?_, ?_⟩, ?_, ?_, ?_⟩
    · exact div_nonneg (by linarith) hwneg.le
    · simp only; rw [ht, abs_neg, abs_of_nonneg hr]
    · intro t' ht' hf
      rw [div_le_iff₀ hwneg]
      linarith [(abs_le.1 hf).1]
    · intro t q h
      simp only [Option.some.injEq, Prod.mk.injEq] at h
      obtain ⟨rfl, rfl⟩ := h
      rw [ht]
      exact ⟨rfl, Or.inl (by rw [abs_neg, abs_of_nonneg hr])⟩
    · simp; exact h2
    · simp; exact h3

theorem raySphereParam_root {b k t : ℝ} (h : raySphereParam Cmp.direct b k = .ok (some t)) (hk : 0 ≤ k)
    (hb : k = 0 → b < 0) : t ^ 2 + 2 * b * t + k = 0 := by
  dsimp only [raySphereParam] at h
  simp only [direct_gt, direct_lt, Bool.and_eq_true, decide_eq_true_eq] at h
  by_cases h1 : 0 < k ∧ 0 < b
  · simp [h1] at h
  by_cases h2 : b * b - k < 0
  · simp [h1, h2] at h
  simp only [if_neg h1, if_neg h2, csqrt_ok (not_lt.1 h2)] at h
  have hs0 := Real.sqrt_nonneg (b * b - k)
  have hss := Real.mul_self_sqrt (not_lt.1 h2)
  simp only [Except.ok.injEq, Option.some.injEq] at h
  generalize Real.sqrt (b * b - k) = w at *
  have hbneg : b < 0 := by
    rcases hk.lt_or_eq with h' | h'
    · by_contra hn
      push Not at hn
      rcases hn.lt_or_eq with h3 | h3
      · exact h1 ⟨h', h3⟩
      · rw [← h3] at h2; simp at h2; linarith
    · exact hb h'.symm
  have hw : w ≤ -b := (abs_le_of_sq_le_sq' (by nlinarith) (by linarith)).2
  rw [if_neg (by linarith)] at h
  rw [← h]
  nlinarith

theorem normalize_ne {x : P2 ℝ} (h : x ≠ 0) :
    normalize2 x = .ok ((1 / Real.sqrt (normSq x)) • x) ∧ 0 < Real.sqrt (normSq x) := by
  have hp : 0 < normSq x := by
    rcases (dot_self_nonneg x).lt_or_eq with h0 | h0
    · exact h0
    · exact absurd (dot_self_eq_zero.1 h0.symm) h
  have := Real.sqrt_pos.2 hp
  exact ⟨by unfold normalize2; rw [if_neg this.ne'], this⟩

/-- A moving disc and a point. -/
theorem movingSphereEnd_spec (v c a : P2 ℝ) (r : ℝ) (hv : v ≠ 0) (hr : 0 < r) (hca : c ≠ a)
    (hs : OnCircle c r a → dot (c - a) v < 0) :
    ∃ o, movingSphereEnd Cmp.direct v c r a = .ok o ∧
      IsFirst (0 ≤ ·) (fun t => InDisc (c + t • v) r a) (o.map Prod.fst) ∧
      ∀ t q, o = some (t, q) → OnCircle (c + t • v) r q ∧ (r ^ 2 ≤ sqDist a c → q = a) := by
  have hvp : 0 < dot v v := by
    rcases (dot_self_nonneg v).lt_or_eq with h0 | h0
    · exact h0
    · exact absurd (dot_self_eq_zero.1 h0.symm) hv
  have hL : 0 < Real.sqrt (dot v v) := Real.sqrt_pos.2 hvp
  have hLL : Real.sqrt (dot v v) ^ 2 = dot v v := Real.sq_sqrt hvp.le
  have hdisc : ∀ t, InDisc (c + t • v) r a ↔
      dot v v * t ^ 2 + 2 * dot (c - a) v * t + (dot (c - a) (c - a) - r * r) ≤ 0 := by
    intro t
    unfold InDisc
    simp only [dot, P2.add_x, P2.add_y, P2.smul_x, P2.smul_y, P2.sub_x, P2.sub_y]
    constructor <;> intro h <;> linarith
  have hs' : dot (c - a) (c - a) - r * r = 0 → dot (c - a) v < 0 := by
    intro h
    apply hs
    unfold OnCircle
    simp only [dot, P2.sub_x, P2.sub_y] at h
    linarith
  have hk0 : r ^ 2 ≤ sqDist a c ↔ 0 ≤ dot (c - a) (c - a) - r * r := by
    simp only [sqDist, dot, P2.sub_x, P2.sub_y]
    constructor <;> intro h <;> linarith
  unfold movingSphereEnd
  dsimp only
  simp only [direct_equals, decide_eq_true_eq]
  rw [if_neg hL.ne', cdiv_ok hL.ne', cdiv_ok hL.ne']
  have hb : dot (c - a) (⟨v.x / Real.sqrt (dot v v), v.y / Real.sqrt (dot v v)⟩ : P2 ℝ) =
      dot (c - a) v / Real.sqrt (dot v v) := by
    simp only [dot]; field_simp
  have hmove : ∀ lt : ℝ, c + lt • (⟨v.x / Real.sqrt (dot v v), v.y / Real.sqrt (dot v v)⟩ : P2 ℝ) =
      c + (lt / Real.sqrt (dot v v)) • v := by
    intro lt
    ext <;> simp <;> ring
  obtain ⟨o, ho, hf⟩ := raySphereParam_spec (dot (c - a) v / Real.sqrt (dot v v)) (dot (c - a) (c - a) - r * r)
  have hroot := fun t => raySphereParam_root (t := t) (b := dot (c - a) v / Real.sqrt (dot v v))
    (k := dot (c - a) (c - a) - r * r)
  have hbneg : dot (c - a) (c - a) - r * r = 0 → dot (c - a) v / Real.sqrt (dot v v) < 0 :=
    fun h => div_neg_of_neg_of_pos (hs' h) hL
  have hscale := isFirst_scale (B := (0 ≤ ·)) (T := fun t => InDisc (c + t • v) r a) hL hf
    (fun t => ⟨fun h => mul_nonneg hL.le h, fun h => by by_contra hn; push Not at hn; nlinarith⟩)
    (fun t => by
      rw [hdisc]
      clear ho hf hroot hmove hbneg hb
      generalize Real.sqrt (dot v v) = L at *
      rw [← hLL]
      field_simp)
  simp only [hb, hmove, hk0]
  -- the code agrees with the ray test
  have hk : ∀ t, dot v v * t ^ 2 + 2 * dot (c - a) v * t + (dot (c - a) (c - a) - r * r) = 0 →
      sqDist (c + t • v) a = r ^ 2 := by
    intro t h
    simp only [dot, P2.sub_x, P2.sub_y] at h
    simp only [sqDist, P2.add_x, P2.add_y, P2.smul_x, P2.smul_y]
    linarith
  have hscaled : ∀ t, t ^ 2 + 2 * (dot (c - a) v / Real.sqrt (dot v v)) * t + (dot (c - a) (c - a) - r * r) = 0 →
      dot v v * (t / Real.sqrt (dot v v)) ^ 2 + 2 * dot (c - a) v * (t / Real.sqrt (dot v v)) +
        (dot (c - a) (c - a) - r * r) = 0 := by
    intro t h
    rw [← h, div_pow, hLL]
    field_simp
  clear hs hs' hdisc hk0 hb hmove
  generalize dot (c - a) v / Real.sqrt (dot v v) = b at *
  generalize dot (c - a) (c - a) - r * r = k at *
  have hsame : ∀ (g : ℝ → Res (Option (ℝ × P2 ℝ))),
      (if (Cmp.direct.ge k 0 && Cmp.direct.ge b 0) = true then (.ok none : Res (Option (ℝ × P2 ℝ)))
        else if b * b - k < 0 then .ok none
        else match csqrt (b * b - k) with
          | .error e => .error e
          | .ok w => g (if Cmp.direct.lt (-(b + w)) 0 = true then 0 else -(b + w))) =
      match raySphereParam Cmp.direct b k with
        | .error e => .error e
        | .ok none => .ok none
        | .ok (some t) => g t := by
    intro g
    unfold raySphereParam
    simp only [direct_ge, direct_gt, direct_lt, Bool.and_eq_true, decide_eq_true_eq]
    by_cases h1 : k ≥ 0 ∧ b ≥ 0
    · rw [if_pos h1]
      have hkpos : 0 < k := lt_of_le_of_ne h1.1 (fun h => by linarith [hbneg h.symm, h1.2])
      by_cases h2 : k > 0 ∧ b > 0
      · rw [if_pos h2]
      · have : b = 0 := by
          by_contra hn
          exact h2 ⟨hkpos, lt_of_le_of_ne h1.2 (Ne.symm hn)⟩
        rw [if_neg h2, if_pos (by rw [this]; linarith)]
    · have h2 : ¬ (k > 0 ∧ b > 0) := fun h => h1 ⟨h.1.le, h.2.le⟩
      by_cases h3 : b * b - k < 0
      · simp only [if_neg h1, if_neg h2, if_pos h3]
      · simp only [if_neg h1, if_neg h2, if_neg h3, csqrt_ok (not_lt.1 h3)]
        rw [neg_add']
  refine Exists.imp ?_ (?_ : ∃ o, (match raySphereParam Cmp.direct b k with
        | .error e => (.error e : Res (Option (ℝ × P2 ℝ)))
        | .ok none => .ok none
        | .ok (some lt) => match normalize2 (a - (c + (lt / Real.sqrt (dot v v)) • v)) with
          | .error e => .error e
          | .ok u => match cdiv lt (Real.sqrt (dot v v)) with
            | .error e => .error e
            | .ok t => .ok (some (t, c + (lt / Real.sqrt (dot v v)) • v + r • u))) = .ok o ∧
      IsFirst (0 ≤ ·) (fun t => InDisc (c + t • v) r a) (o.map Prod.fst) ∧
      ∀ t q, o = some (t, q) → OnCircle (c + t • v) r q ∧ (0 ≤ k → q = a))
  · rintro o ⟨h1, h2, h3⟩
    refine ⟨?_, h2, h3⟩
    rw [← h1]
    exact hsame (fun lt => match normalize2 (a - (c + (lt / Real.sqrt (dot v v)) • v)) with
      | .error e => .error e
      | .ok u => match cdiv lt (Real.sqrt (dot v v)) with
        | .error e => .error e
        | .ok t => .ok (some (t, c + (lt / Real.sqrt (dot v v)) • v + r • u)))
  · rw [ho]
    cases o with
    | none => exact ⟨none, rfl, hscale, by simp⟩
    | some lt =>
      dsimp only
      have hne : a - (c + (lt / Real.sqrt (dot v v)) • v) ≠ 0 := by
        intro h
        have hx : c + (lt / Real.sqrt (dot v v)) • v = a := by
          have h1 := congrArg P2.x h
          have h2 := congrArg P2.y h
          simp only [P2.sub_x, P2.sub_y, P2.zero_x, P2.zero_y] at h1 h2
          ext <;> linarith
        by_cases hkn : 0 ≤ k
        · have := hk _ (hscaled lt (hroot lt ho hkn hbneg))
          rw [hx] at this
          simp only [sqDist, sub_self] at this
          nlinarith
        · push Not at hkn
          have : lt ≤ 0 := hf.2.2 0 (le_refl _) (by simpa using hkn.le)
          have : lt = 0 := le_antisymm this hf.1
          rw [this] at hx
          apply hca
          rw [← hx]; ext <;> simp
      obtain ⟨hn1, hn2⟩ := normalize_ne hne
      rw [hn1, cdiv_ok hL.ne']
      refine ⟨_, rfl, hscale, ?_⟩
      intro t q h
      simp only [Option.some.injEq, Prod.mk.injEq] at h
      obtain ⟨rfl, rfl⟩ := h
      generalize hN : c + (lt / Real.sqrt (dot v v)) • v = N at *
      have hRR : Real.sqrt (normSq (a - N)) ^ 2 = normSq (a - N) := Real.sq_sqrt (dot_self_nonneg _)
      refine ⟨?_, fun hkn => ?_⟩
      · unfold OnCircle
        generalize Real.sqrt (normSq (a - N)) = R at *
        simp only [normSq, dot, P2.sub_x, P2.sub_y] at hRR
        simp only [P2.add_x, P2.add_y, P2.smul_x, P2.smul_y, P2.sub_x, P2.sub_y]
        field_simp
        linear_combination -r ^ 2 * hRR
      · have h1 := hk _ (hscaled lt (hroot lt ho hkn hbneg))
        rw [hN] at h1
        have h2 : normSq (a - N) = r ^ 2 := by
          rw [← h1]; simp only [normSq, dot, sqDist, P2.sub_x, P2.sub_y]; ring
        rw [h2, Real.sqrt_sq hr.le]
        ext <;> simp <;> field_simp <;> ring

end Geometrix
