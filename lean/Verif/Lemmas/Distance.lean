import Verif.Model.Distance
import Verif.Spec.Polyline
import Verif.Lemmas.Vec

/-!
# Helper lemmas about closest points
-/

set_option linter.unusedSectionVars false

namespace Geometrix

open Spec

variable {K : Type*} [Field K] [LinearOrder K] [IsStrictOrderedRing K]

theorem cdiv_ok {a b : K} (h : b ≠ 0) : cdiv a b = .ok (a / b) := by simp [cdiv, h]

theorem clamp_mem (q : K) : 0 ≤ clamp q 0 1 ∧ clamp q 0 1 ≤ 1 := by
  unfold clamp; constructor <;> grind

/-- `clamp (n / d) 0 1` for a positive divisor. -/
theorem clamp_div {n d : K} (hd : 0 < d) :
    (clamp (n / d) 0 1 = 0 ∧ n ≤ 0) ∨ (clamp (n / d) 0 1 = 1 ∧ d ≤ n) ∨
      (clamp (n / d) 0 1 * d = n) := by
  unfold clamp
  split_ifs with h1 h2
  · left; refine ⟨rfl, ?_⟩
    rw [div_lt_iff₀ hd] at h1; linarith
  · right; left; refine ⟨rfl, ?_⟩
    rw [gt_iff_lt, lt_div_iff₀ hd] at h2; linarith
  · right; right; exact div_mul_cancel₀ n hd.ne'

/-- What `clamp (n / d) 0 1` guarantees, as a variational inequality: it minimises
`d s^2 - 2 n s` over `[0, 1]`. -/
theorem clamp_var {n d : K} (hd : 0 < d) (s' : K) (h0 : 0 ≤ s') (h1 : s' ≤ 1) :
    0 ≤ (s' - clamp (n / d) 0 1) * (d * clamp (n / d) 0 1 - n) := by
  rcases clamp_div (n := n) hd with ⟨h, h'⟩ | ⟨h, h'⟩ | h
  · rw [h]; nlinarith
  · rw [h]; nlinarith
  · have : d * clamp (n / d) 0 1 - n = 0 := by rw [mul_comm, h, sub_self]
    rw [this, mul_zero]

/-- The parameters of the closest points satisfy the optimality conditions. -/
theorem segSegParams_spec {a b c e f : K} (ha : 0 ≤ a) (he : 0 ≤ e) (hae : ¬ (a = 0 ∧ e = 0))
    (hD : 0 ≤ a * e - b * b) (ha0 : a = 0 → b = 0 ∧ c = 0) (he0 : e = 0 → b = 0 ∧ f = 0)
    (hpar : a * e - b * b = 0 → b * f = c * e) :
    ∃ s t, segSegParams Cmp.direct a b c e f = .ok (s, t) ∧ 0 ≤ s ∧ s ≤ 1 ∧ 0 ≤ t ∧ t ≤ 1 ∧
      (∀ s', 0 ≤ s' → s' ≤ 1 → 0 ≤ (s' - s) * (a * s + c - b * t)) ∧
      (∀ t', 0 ≤ t' → t' ≤ 1 → 0 ≤ (t' - t) * (e * t - f - b * s)) := by
  unfold segSegParams
  simp only [direct_le]
  by_cases h1 : a ≤ 0
  · have a0 : a = 0 := le_antisymm h1 ha
    obtain ⟨b0, c0⟩ := ha0 a0
    have hepos : 0 < e := lt_of_le_of_ne he fun h => hae ⟨a0, h.symm⟩
    rw [if_pos h1, cdiv_ok hepos.ne']
    obtain ⟨k1, k2⟩ := clamp_mem (f / e)
    refine ⟨0, clamp (f / e) 0 1, rfl, le_rfl, zero_le_one, k1, k2, ?_, ?_⟩
    · intro s' _ _; simp [a0, b0, c0]
    · intro t' h0 h1
      have := clamp_var (n := f) hepos t' h0 h1
      simpa [b0] using this
  · have hapos : 0 < a := not_le.mp h1
    rw [if_neg h1]
    by_cases h2 : e ≤ 0
    · have e0 : e = 0 := le_antisymm h2 he
      obtain ⟨b0, f0⟩ := he0 e0
      rw [if_pos h2, cdiv_ok hapos.ne']
      obtain ⟨k1, k2⟩ := clamp_mem (-c / a)
      refine ⟨clamp (-c / a) 0 1, 0, rfl, k1, k2, le_rfl, zero_le_one, ?_, ?_⟩
      · intro s' h0 h1
        have := clamp_var (n := -c) hapos s' h0 h1
        simpa using this
      · intro t' _ _; simp [e0, b0, f0]
    · have hepos : 0 < e := not_le.mp h2
      rw [if_neg h2]
      -- the first value of s
      obtain ⟨s, hs, hs0, hs1, hsv⟩ : ∃ s, segSegFirst a b c e f = .ok s ∧ 0 ≤ s ∧ s ≤ 1 ∧
          ∀ s', 0 ≤ s' → s' ≤ 1 → 0 ≤ (s' - s) * ((a * e - b * b) * s - (b * f - c * e)) := by
        unfold segSegFirst
        simp only
        by_cases hd : a * e - b * b = 0
        · refine ⟨0, by rw [if_pos hd], le_rfl, zero_le_one, ?_⟩
          intro s' _ _
          rw [hd, hpar hd]; simp
        · have hpos : 0 < a * e - b * b := lt_of_le_of_ne hD (Ne.symm hd)
          rw [if_neg hd, cdiv_ok hd]
          obtain ⟨k1, k2⟩ := clamp_mem ((b * f - c * e) / (a * e - b * b))
          exact ⟨_, rfl, k1, k2, fun s' h0 h1 => clamp_var hpos s' h0 h1⟩
      rw [hs]
      simp only
      by_cases h3 : b * s + f < 0
      · rw [if_pos h3, cdiv_ok hapos.ne']
        obtain ⟨k1, k2⟩ := clamp_mem (-c / a)
        have kv := fun s' h0 h1 => clamp_var (n := -c) hapos s' h0 h1
        set u := clamp (-c / a) 0 1 with hu
        refine ⟨u, 0, rfl, k1, k2, le_rfl, zero_le_one, ?_, ?_⟩
        · intro s' h0 h1; simpa using kv s' h0 h1
        · intro t' h0 h1
          have key : b * u + f ≤ 0 := by
            by_contra hcon
            push Not at hcon
            have hb : b ≠ 0 := by rintro rfl; linarith
            -- the point between s and u where the numerator vanishes
            obtain ⟨w, hw⟩ : ∃ w, b * w + f = 0 := ⟨-f / b, by field_simp; ring⟩
            have hid : e * (a * w + c) = (a * e - b * b) * w - (b * f - c * e) := by
              linear_combination b * hw
            have hsw : 0 < b * (w - s) := by linarith
            have hwu : 0 < b * (u - w) := by linarith
            have g1 := hsv u k1 k2
            have g2 := kv s hs0 hs1
            have hbb : 0 < b * b := mul_self_pos.mpr hb
            have p1 : 0 < (u - s) * (w - s) := by
              have : 0 < (b * b) * ((u - s) * (w - s)) := by nlinarith
              exact (pos_iff_pos_of_mul_pos this).mp hbb
            have p2 : 0 < (u - s) * (u - w) := by
              have : 0 < (b * b) * ((u - s) * (u - w)) := by nlinarith
              exact (pos_iff_pos_of_mul_pos this).mp hbb
            -- slope of the projected distance at w is on the far side
            have q1 : 0 ≤ (u - s) * (e * (a * w + c)) := by
              rw [hid]
              have : (u - s) * ((a * e - b * b) * w - (b * f - c * e)) =
                (u - s) * ((a * e - b * b) * s - (b * f - c * e)) +
                  (a * e - b * b) * ((u - s) * (w - s)) := by ring
              rw [this]
              have := mul_nonneg hD p1.le
              linarith
            have q2 : (u - s) * (a * w + c) < 0 := by
              have : (u - s) * (a * w + c) = -((s - u) * (a * u - -c)) - a * ((u - s) * (u - w)) := by
                ring
              rw [this]
              have := mul_pos hapos p2
              linarith
            have : e * ((u - s) * (a * w + c)) < 0 := mul_neg_of_pos_of_neg hepos q2
            linarith [mul_left_comm (u - s) e (a * w + c)]
          have : (t' - 0) * (e * 0 - f - b * u) = t' * (-(b * u + f)) := by ring
          rw [this]
          exact mul_nonneg h0 (by linarith)
      · rw [if_neg h3]
        by_cases h4 : b * s + f > e
        · rw [if_pos h4, cdiv_ok hapos.ne']
          obtain ⟨k1, k2⟩ := clamp_mem ((b - c) / a)
          have kv := fun s' h0 h1 => clamp_var (n := b - c) hapos s' h0 h1
          set u := clamp ((b - c) / a) 0 1 with hu
          refine ⟨u, 1, rfl, k1, k2, zero_le_one, le_rfl, ?_, ?_⟩
          · intro s' h0 h1
            have := kv s' h0 h1
            have e1 : a * u + c - b * 1 = a * u - (b - c) := by ring
            rw [e1]; exact this
          · intro t' h0 h1
            have key : e ≤ b * u + f := by
              by_contra hcon
              push Not at hcon
              have hb : b ≠ 0 := by rintro rfl; linarith
              obtain ⟨w, hw⟩ : ∃ w, b * w + f = e := ⟨(e - f) / b, by field_simp; ring⟩
              have hid : e * (a * w + c - b) = (a * e - b * b) * w - (b * f - c * e) := by
                linear_combination b * hw
              have hsw : b * (w - s) < 0 := by linarith
              have hwu : b * (u - w) < 0 := by linarith
              have g1 := hsv u k1 k2
              have g2 := kv s hs0 hs1
              have hbb : 0 < b * b := mul_self_pos.mpr hb
              have p1 : 0 < (u - s) * (w - s) := by
                have : 0 < (b * b) * ((u - s) * (w - s)) := by nlinarith
                exact (pos_iff_pos_of_mul_pos this).mp hbb
              have p2 : 0 < (u - s) * (u - w) := by
                have : 0 < (b * b) * ((u - s) * (u - w)) := by nlinarith
                exact (pos_iff_pos_of_mul_pos this).mp hbb
              have q1 : 0 ≤ (u - s) * (e * (a * w + c - b)) := by
                rw [hid]
                have : (u - s) * ((a * e - b * b) * w - (b * f - c * e)) =
                  (u - s) * ((a * e - b * b) * s - (b * f - c * e)) +
                    (a * e - b * b) * ((u - s) * (w - s)) := by ring
                rw [this]
                have := mul_nonneg hD p1.le
                linarith
              have q2 : (u - s) * (a * w + c - b) < 0 := by
                have : (u - s) * (a * w + c - b) =
                    -((s - u) * (a * u - (b - c))) - a * ((u - s) * (u - w)) := by
                  ring
                rw [this]
                have := mul_pos hapos p2
                linarith
              have : e * ((u - s) * (a * w + c - b)) < 0 := mul_neg_of_pos_of_neg hepos q2
              linarith [mul_left_comm (u - s) e (a * w + c - b)]
            have : (t' - 1) * (e * 1 - f - b * u) = (1 - t') * (b * u + f - e) := by ring
            rw [this]
            exact mul_nonneg (by linarith) (by linarith)
        · rw [if_neg h4, cdiv_ok hepos.ne']
          push Not at h3 h4
          have ht : (b * s + f) / e * e = b * s + f := div_mul_cancel₀ _ hepos.ne'
          refine ⟨s, (b * s + f) / e, rfl, hs0, hs1, div_nonneg h3 he, ?_, ?_, ?_⟩
          · rw [div_le_one hepos]; exact h4
          · intro s' h0 h1
            have g := hsv s' h0 h1
            have hid : (a * e - b * b) * s - (b * f - c * e) =
                e * (a * s + c - b * ((b * s + f) / e)) := by
              linear_combination b * ht
            rw [hid, mul_left_comm] at g
            exact (mul_nonneg_iff_of_pos_left hepos).mp g
          · intro t' _ _
            have : e * ((b * s + f) / e) - f - b * s = 0 := by linear_combination ht
            rw [this, mul_zero]

theorem dot_self_nonneg (v : P2 K) : 0 ≤ dot v v := normSq_nonneg v

theorem dot_self_eq_zero {v : P2 K} : dot v v = 0 ↔ v = 0 := normSq_eq_zero

theorem dot_zero_left (v : P2 K) : dot 0 v = 0 := by simp [dot]

theorem dot_zero_right (v : P2 K) : dot v 0 = 0 := by simp [dot]

theorem dot_self_sub (A B : P2 K) : dot (A - B) (A - B) = sqDist A B := by
  simp only [dot, sqDist, P2.sub_x, P2.sub_y]; ring

/-- Lagrange's identity. -/
theorem dot_mul_dot_sub (u v : P2 K) : dot u u * dot v v - dot u v * dot u v = cross u v * cross u v := by
  simp only [dot, cross]; ring

/-- The result of `segment_segment_closest_point` with exact comparison. -/
theorem segSegClosest_spec (p1 q1 p2 q2 : P2 K) :
    ∃ r, segSegClosest Cmp.direct p1 q1 p2 q2 = .ok r ∧
      0 ≤ r.s ∧ r.s ≤ 1 ∧ 0 ≤ r.t ∧ r.t ≤ 1 ∧
      r.c1 = p1 + r.s • (q1 - p1) ∧ r.c2 = p2 + r.t • (q2 - p2) ∧ r.d2 = sqDist r.c1 r.c2 ∧
      ∀ P Q, OnSegment p1 q1 P → OnSegment p2 q2 Q → r.d2 ≤ sqDist P Q := by
  unfold segSegClosest
  simp only [Bool.and_eq_true, direct_le]
  set d1 := q1 - p1 with hd1
  set d2 := q2 - p2 with hd2
  by_cases h : dot d1 d1 ≤ 0 ∧ dot d2 d2 ≤ 0
  · rw [if_pos h]
    have e1 : d1 = 0 := dot_self_eq_zero.mp (le_antisymm h.1 (dot_self_nonneg _))
    have e2 : d2 = 0 := dot_self_eq_zero.mp (le_antisymm h.2 (dot_self_nonneg _))
    refine ⟨_, rfl, le_rfl, zero_le_one, le_rfl, zero_le_one, ?_, ?_, ?_, ?_⟩
    · rw [e1]; ext <;> simp
    · rw [e2]; ext <;> simp
    · exact dot_self_sub _ _
    · rintro P Q ⟨s, _, _, rfl⟩ ⟨t, _, _, rfl⟩
      simp only
      rw [dot_self_sub, ← hd1, ← hd2, e1, e2]
      apply le_of_eq
      congr 1 <;> ext <;> simp
  · rw [if_neg h]
    have ha := dot_self_nonneg d1
    have he := dot_self_nonneg d2
    have hD : 0 ≤ dot d1 d1 * dot d2 d2 - dot d1 d2 * dot d1 d2 := by
      rw [dot_mul_dot_sub]; exact mul_self_nonneg _
    obtain ⟨s, t, hst, s0, s1, t0, t1, vs, vt⟩ := segSegParams_spec (a := dot d1 d1)
      (b := dot d1 d2) (c := dot d1 (p1 - p2)) (e := dot d2 d2) (f := dot d2 (p1 - p2)) ha he
      (by rintro ⟨a0, e0⟩; exact h ⟨a0.le, e0.le⟩) hD
      (by intro h0; rw [dot_self_eq_zero.mp h0]; simp [dot_zero_left])
      (by intro h0; rw [dot_self_eq_zero.mp h0]; simp [dot_zero_left, dot_zero_right])
      (by
        intro h0
        rw [dot_mul_dot_sub, mul_self_eq_zero] at h0
        have : dot d1 d2 * dot d2 (p1 - p2) - dot d1 (p1 - p2) * dot d2 d2 =
            cross d1 d2 * cross d2 (p1 - p2) := by simp only [dot, cross]; ring
        rw [h0, zero_mul] at this
        exact sub_eq_zero.mp this)
    rw [hst]
    refine ⟨_, rfl, s0, s1, t0, t1, rfl, rfl, dot_self_sub _ _, ?_⟩
    rintro P Q ⟨s', hs0, hs1, rfl⟩ ⟨t', ht0, ht1, rfl⟩
    simp only
    rw [dot_self_sub]
    have gs := vs s' hs0 hs1
    have gt := vt t' ht0 ht1
    have hid : sqDist (p1 + s' • (q1 - p1)) (p2 + t' • (q2 - p2)) =
        sqDist (p1 + s • d1) (p2 + t • d2) +
        2 * ((s' - s) * (dot d1 d1 * s + dot d1 (p1 - p2) - dot d1 d2 * t)) +
        2 * ((t' - t) * (dot d2 d2 * t - dot d2 (p1 - p2) - dot d1 d2 * s)) +
        (((s' - s) * d1.x - (t' - t) * d2.x) ^ 2 + ((s' - s) * d1.y - (t' - t) * d2.y) ^ 2) := by
      simp only [sqDist, dot, hd1, hd2, P2.add_x, P2.add_y, P2.sub_x, P2.sub_y, P2.smul_x,
        P2.smul_y]
      ring
    rw [hid]
    have : 0 ≤ ((s' - s) * d1.x - (t' - t) * d2.x) ^ 2 + ((s' - s) * d1.y - (t' - t) * d2.y) ^ 2 := by
      positivity
    linarith

/-! ## Point and segment -/

theorem pointSegClosest_spec (p : P2 K) (seg : Seg K) :
    ∃ c, pointSegClosest p seg = .ok c ∧ IsClosest (OnSegment seg.s seg.e) p c := by
  unfold pointSegClosest
  simp only
  obtain ⟨A, B⟩ := seg
  simp only
  have hid : ∀ t u : K, sqDist p (A + u • (B - A)) = sqDist p (A + t • (B - A)) +
      2 * ((u - t) * (t * dot (B - A) (B - A) - dot (p - A) (B - A))) +
      (u - t) ^ 2 * dot (B - A) (B - A) := by
    intro t u
    simp only [sqDist, dot, P2.add_x, P2.add_y, P2.sub_x, P2.sub_y, P2.smul_x, P2.smul_y]
    ring
  have hn := dot_self_nonneg (B - A)
  have key : ∀ t : K, (∀ u, 0 ≤ u → u ≤ 1 →
      0 ≤ (u - t) * (t * dot (B - A) (B - A) - dot (p - A) (B - A))) →
      ∀ Q, OnSegment A B Q → sqDist p (A + t • (B - A)) ≤ sqDist p Q := by
    rintro t ht Q ⟨u, h0, h1, rfl⟩
    have := ht u h0 h1
    have h2 : 0 ≤ (u - t) ^ 2 * dot (B - A) (B - A) := mul_nonneg (sq_nonneg _) hn
    rw [hid t u]; linarith
  have hA : A = A + (0 : K) • (B - A) := by ext <;> simp
  have hB : B = A + (1 : K) • (B - A) := by ext <;> simp
  split_ifs with h1 h2
  · refine ⟨A, rfl, ⟨0, le_rfl, zero_le_one, hA⟩, ?_⟩
    nth_rw 2 [hA]
    apply key
    intro u h0 _; nlinarith
  · refine ⟨B, rfl, ⟨1, zero_le_one, le_rfl, hB⟩, ?_⟩
    nth_rw 2 [hB]
    apply key
    intro u _ h; nlinarith
  · push Not at h1 h2
    have hpos : 0 < dot (B - A) (B - A) := h1.trans h2
    rw [cdiv_ok hpos.ne']
    refine ⟨_, rfl, ⟨_, (div_pos h1 hpos).le, ?_, rfl⟩, ?_⟩
    · rw [div_le_one hpos]; exact h2.le
    · apply key
      intro u _ _
      rw [div_mul_cancel₀ _ hpos.ne', sub_self, mul_zero]

theorem pointSegClosestPts_eq (p A B : P2 K) (h : A ≠ B) :
    pointSegClosestPts p A B = pointSegClosest p ⟨A, B⟩ := by
  have hpos : 0 < dot (B - A) (B - A) := normSq_pos (sub_ne_zero_P2 h)
  unfold pointSegClosestPts pointSegClosest
  simp only [cdiv_ok hpos.ne', ge_iff_le, div_le_iff₀ hpos, le_div_iff₀ hpos, zero_mul, one_mul]

theorem pointSegDistSq_eq (p A B : P2 K) :
    ∃ c, pointSegClosest p ⟨A, B⟩ = .ok c ∧ pointSegDistSq p A B = .ok (sqDist p c) := by
  unfold pointSegDistSq pointSegClosest
  simp only
  split_ifs with h1 h2
  · exact ⟨A, rfl, by rw [dot_self_sub]⟩
  · exact ⟨B, rfl, by rw [dot_self_sub]⟩
  · push Not at h1 h2
    have hpos : 0 < dot (B - A) (B - A) := h1.trans h2
    rw [cdiv_ok hpos.ne', cdiv_ok hpos.ne']
    refine ⟨_, rfl, ?_⟩
    have hid : sqDist p (A + (dot (p - A) (B - A) / dot (B - A) (B - A)) • (B - A)) =
        dot (p - A) (p - A) - 2 * (dot (p - A) (B - A) / dot (B - A) (B - A)) *
          dot (p - A) (B - A) +
        (dot (p - A) (B - A) / dot (B - A) (B - A)) ^ 2 * dot (B - A) (B - A) := by
      simp only [sqDist, dot, P2.add_x, P2.add_y, P2.sub_x, P2.sub_y, P2.smul_x, P2.smul_y]
      ring
    simp only
    rw [hid]
    have h3 := div_mul_cancel₀ (dot (p - A) (B - A)) hpos.ne'
    rw [mul_div_assoc]
    congr 1
    linear_combination -(dot (p - A) (B - A) / dot (B - A) (B - A)) * h3

theorem pointSegDistSq_spec (p A B : P2 K) :
    ∃ d, pointSegDistSq p A B = .ok d ∧ IsMinOver (OnSegment A B) (sqDist p) d := by
  obtain ⟨c, hc, hd⟩ := pointSegDistSq_eq p A B
  obtain ⟨c', hc', h1, h2⟩ := pointSegClosest_spec p ⟨A, B⟩
  rw [hc] at hc'
  cases hc'
  exact ⟨_, hd, ⟨c, h1, rfl⟩, h2⟩

/-! ## Loops over edges -/

theorem openEdges_get {α : Type*} (l : List α) (k : Nat) (a b : α) :
    (openEdges l)[k]? = some (a, b) ↔ l[k]? = some a ∧ l[k + 1]? = some b := by
  induction l generalizing k with
  | nil => simp [openEdges]
  | cons x xs ih =>
    cases xs with
    | nil => simp [openEdges]
    | cons y ys =>
      cases k with
      | zero => simp [openEdges]
      | succ k => simp only [openEdges, List.getElem?_cons_succ]; exact ih k

theorem openEdges_length {α : Type*} (l : List α) : (openEdges l).length = l.length - 1 := by
  induction l with
  | nil => simp [openEdges]
  | cons x xs ih =>
    cases xs with
    | nil => simp [openEdges]
    | cons y ys => simp [openEdges, ih]

theorem mem_openEdges {α : Type*} (l : List α) (a b : α) :
    (a, b) ∈ openEdges l ↔ ∃ k, l[k]? = some a ∧ l[k + 1]? = some b := by
  rw [List.mem_iff_getElem?]
  simp only [openEdges_get]

/-- The index at which pair number `k` of `closedEdges` starts. -/
def closedStart (n k : Nat) : Nat := if k = 0 then n - 1 else k - 1

theorem closedEdges_get {α : Type*} (l : List α) (k : Nat) (a b : α) :
    (closedEdges l)[k]? = some (a, b) ↔ l[closedStart l.length k]? = some a ∧ l[k]? = some b := by
  unfold closedEdges closedStart
  cases h : l.getLast? with
  | none =>
    rw [List.getLast?_eq_none_iff] at h
    subst h; simp
  | some z =>
    simp only
    rw [openEdges_get]
    cases k with
    | zero =>
      rw [if_pos rfl, ← List.getLast?_eq_getElem?, h]; simp
    | succ k => simp

theorem closedEdges_length {α : Type*} (l : List α) : (closedEdges l).length = l.length := by
  unfold closedEdges
  cases h : l.getLast? with
  | none => rw [List.getLast?_eq_none_iff] at h; subst h; rfl
  | some z => simp [openEdges_length]

theorem mem_closedEdges (l : List (P2 K)) (a b : P2 K) :
    (a, b) ∈ closedEdges l ↔ ∃ i, IsPolygonEdge l i a b := by
  rw [List.mem_iff_getElem?]
  simp only [closedEdges_get, IsPolygonEdge, closedStart]
  constructor
  · rintro ⟨k, h1, h2⟩
    have hk := (List.getElem?_eq_some_iff.mp h2).1
    by_cases h0 : k = 0
    · subst h0
      rw [if_pos rfl] at h1
      refine ⟨l.length - 1, h1, ?_⟩
      rw [Nat.sub_add_cancel hk, Nat.mod_self]; exact h2
    · rw [if_neg h0] at h1
      refine ⟨k - 1, h1, ?_⟩
      rw [Nat.sub_add_cancel (Nat.pos_of_ne_zero h0), Nat.mod_eq_of_lt hk]; exact h2
  · rintro ⟨i, h1, h2⟩
    have hi := (List.getElem?_eq_some_iff.mp h1).1
    by_cases h0 : i + 1 = l.length
    · refine ⟨0, ?_, ?_⟩
      · rw [if_pos rfl, ← h0, Nat.add_sub_cancel]; exact h1
      · rw [h0, Nat.mod_self] at h2; exact h2
    · refine ⟨i + 1, ?_, ?_⟩
      · rw [if_neg (Nat.succ_ne_zero i), Nat.add_sub_cancel]; exact h1
      · rw [Nat.mod_eq_of_lt (by omega)] at h2; exact h2

/-- The loop ends with the first element that has the least key. -/
theorem minLoop_some {α β : Type*} (f : α → Res β) (g : α → β) (key : β → K) (l : List α)
    (hf : ∀ x ∈ l, f x = .ok (g x)) (y : α) (w : β) :
    ∃ x v, minLoop f key l (some (y, w)) = .ok (some (x, v)) ∧
      key v ≤ key w ∧ (∀ z ∈ l, key v ≤ key (g z)) ∧
      (((x, v) = (y, w)) ∨ ∃ k : Nat, l[k]? = some x ∧ v = g x ∧ key v < key w ∧
        ∀ j < k, ∀ z, l[j]? = some z → key v < key (g z)) := by
  induction l generalizing y w with
  | nil => exact ⟨y, w, rfl, le_rfl, by simp, Or.inl rfl⟩
  | cons a as ih =>
    have has : ∀ x ∈ as, f x = .ok (g x) := fun x hx => hf x (List.mem_cons_of_mem _ hx)
    simp only [minLoop, hf a (List.mem_cons_self ..)]
    by_cases h : key (g a) < key w
    · rw [if_pos h]
      obtain ⟨x, v, h1, h2, h3, h4⟩ := ih has a (g a)
      refine ⟨x, v, h1, h2.trans h.le, ?_, ?_⟩
      · intro z hz
        rcases List.mem_cons.mp hz with rfl | hz
        · exact h2
        · exact h3 z hz
      · right
        rcases h4 with h4 | ⟨k, k1, k2, k3, k4⟩
        · cases h4
          exact ⟨0, rfl, rfl, h, by simp⟩
        · refine ⟨k + 1, by simpa using k1, k2, k3.trans h, ?_⟩
          intro j hj z hz
          cases j with
          | zero => simp at hz; subst hz; exact k3
          | succ j => exact k4 j (by omega) z (by simpa using hz)
    · rw [if_neg h]
      obtain ⟨x, v, h1, h2, h3, h4⟩ := ih has y w
      refine ⟨x, v, h1, h2, ?_, ?_⟩
      · intro z hz
        rcases List.mem_cons.mp hz with rfl | hz
        · exact h2.trans (not_lt.mp h)
        · exact h3 z hz
      · rcases h4 with h4 | ⟨k, k1, k2, k3, k4⟩
        · exact Or.inl h4
        · right
          refine ⟨k + 1, by simpa using k1, k2, k3, ?_⟩
          intro j hj z hz
          cases j with
          | zero => simp at hz; subst hz; exact k3.trans_le (not_lt.mp h)
          | succ j => exact k4 j (by omega) z (by simpa using hz)

theorem minLoop_none {α β : Type*} (f : α → Res β) (g : α → β) (key : β → K) (l : List α)
    (hf : ∀ x ∈ l, f x = .ok (g x)) (hl : l ≠ []) :
    ∃ x, ∃ k : Nat, minLoop f key l none = .ok (some (x, g x)) ∧ l[k]? = some x ∧
      (∀ z ∈ l, key (g x) ≤ key (g z)) ∧
      ∀ j < k, ∀ z, l[j]? = some z → key (g x) < key (g z) := by
  obtain ⟨a, as, rfl⟩ := List.exists_cons_of_ne_nil hl
  have has : ∀ x ∈ as, f x = .ok (g x) := fun x hx => hf x (List.mem_cons_of_mem _ hx)
  obtain ⟨x, v, h1, h2, h3, h4⟩ := minLoop_some f g key as has a (g a)
  have hrun : minLoop f key (a :: as) none = minLoop f key as (some (a, g a)) := by
    simp only [minLoop, hf a (List.mem_cons_self ..)]
  rcases h4 with h4 | ⟨k, k1, k2, k3, k4⟩
  · cases h4
    refine ⟨a, 0, by rw [hrun]; exact h1, rfl, ?_, by simp⟩
    intro z hz
    rcases List.mem_cons.mp hz with rfl | hz
    · exact le_rfl
    · exact h3 z hz
  · subst k2
    refine ⟨x, k + 1, by rw [hrun]; exact h1, by simpa using k1, ?_, ?_⟩
    · intro z hz
      rcases List.mem_cons.mp hz with rfl | hz
      · exact h2
      · exact h3 z hz
    · intro j hj z hz
      cases j with
      | zero => simp at hz; subst hz; exact k3
      | succ j => exact k4 j (by omega) z (by simpa using hz)

/-- The least value over edges is the minimum over the points of all edges. -/
theorem edges_min (p : P2 K) (es : List (P2 K × P2 K)) (hne : es ≠ []) :
    ∃ e ∈ es, ∃ d, minLoop (fun e => pointSegDistSq p e.1 e.2) id es none = .ok (some (e, d)) ∧
      pointSegDistSq p e.1 e.2 = .ok d ∧
      IsMinOver (fun Q => ∃ e ∈ es, OnSegment e.1 e.2 Q) (sqDist p) d := by
  have hex : ∀ e : P2 K × P2 K, ∃ d, pointSegDistSq p e.1 e.2 = .ok d ∧
      IsMinOver (OnSegment e.1 e.2) (sqDist p) d := fun e => pointSegDistSq_spec p e.1 e.2
  choose g hg1 hg2 using hex
  obtain ⟨x, k, h1, h2, h3, -⟩ := minLoop_none (fun e => pointSegDistSq p e.1 e.2) g id es
    (fun e _ => hg1 e) hne
  have hx : x ∈ es := List.mem_iff_getElem?.mpr ⟨k, h2⟩
  refine ⟨x, hx, g x, h1, hg1 x, ?_, ?_⟩
  · obtain ⟨⟨Q, hQ, hd⟩, -⟩ := hg2 x
    exact ⟨Q, ⟨x, hx, hQ⟩, hd⟩
  · rintro Q ⟨e, he, hQ⟩
    exact (h3 e he).trans ((hg2 e).2 Q hQ)

theorem onPolyline_iff (poly : List (P2 K)) (Q : P2 K) :
    OnPolyline poly Q ↔ ∃ e ∈ openEdges poly, OnSegment e.1 e.2 Q := by
  constructor
  · rintro ⟨i, A, B, h, hQ⟩
    exact ⟨(A, B), (mem_openEdges _ _ _).mpr ⟨i, h⟩, hQ⟩
  · rintro ⟨⟨A, B⟩, h, hQ⟩
    obtain ⟨i, h⟩ := (mem_openEdges _ _ _).mp h
    exact ⟨i, A, B, h, hQ⟩

theorem onBoundary_iff (poly : List (P2 K)) (Q : P2 K) :
    OnBoundary poly Q ↔ ∃ e ∈ closedEdges poly, OnSegment e.1 e.2 Q := by
  constructor
  · rintro ⟨i, A, B, h, hQ⟩
    exact ⟨(A, B), (mem_closedEdges _ _ _).mpr ⟨i, h⟩, hQ⟩
  · rintro ⟨⟨A, B⟩, h, hQ⟩
    obtain ⟨i, h⟩ := (mem_closedEdges _ _ _).mp h
    exact ⟨i, A, B, h, hQ⟩

theorem openEdges_ne_nil {α : Type*} {l : List α} (h : 2 ≤ l.length) : openEdges l ≠ [] := by
  intro h0
  have := openEdges_length l
  rw [h0] at this
  simp at this
  omega

theorem closedEdges_ne_nil {α : Type*} {l : List α} (h : l ≠ []) : closedEdges l ≠ [] := by
  intro h0
  have := closedEdges_length l
  rw [h0] at this
  exact h (List.length_eq_zero_iff.mp this.symm)

/-- The closest point function applied to the edge the loop found: a degenerate edge is never found
when an earlier edge contains its point. -/
theorem edges_closest (p : P2 K) (es : List (P2 K × P2 K)) (hne : es ≠ [])
    (hdeg : ∀ k : Nat, ∀ e, es[k]? = some e → e.1 = e.2 →
      ∃ j < k, ∃ e', es[j]? = some e' ∧ OnSegment e'.1 e'.2 e.1) :
    ∃ e ∈ es, ∃ d c, minLoop (fun e => pointSegDistSq p e.1 e.2) id es none = .ok (some (e, d)) ∧
      pointSegClosestPts p e.1 e.2 = .ok c ∧
      IsClosest (fun Q => ∃ e ∈ es, OnSegment e.1 e.2 Q) p c := by
  have hex : ∀ e : P2 K × P2 K, ∃ d, pointSegDistSq p e.1 e.2 = .ok d ∧
      IsMinOver (OnSegment e.1 e.2) (sqDist p) d := fun e => pointSegDistSq_spec p e.1 e.2
  choose g hg1 hg2 using hex
  obtain ⟨x, k, h1, h2, h3, h4⟩ := minLoop_none (fun e => pointSegDistSq p e.1 e.2) g id es
    (fun e _ => hg1 e) hne
  have hx : x ∈ es := List.mem_iff_getElem?.mpr ⟨k, h2⟩
  have hnd : x.1 ≠ x.2 := by
    intro heq
    obtain ⟨j, hj, e', he', hon⟩ := hdeg k x h2 heq
    have hlt := h4 j hj e' he'
    have hle := (hg2 e').2 _ hon
    obtain ⟨⟨Q, ⟨u, -, -, rfl⟩, hd⟩, -⟩ := hg2 x
    have : x.1 + u • (x.2 - x.1) = x.1 := by rw [heq]; ext <;> simp
    rw [this] at hd
    simp only [id] at hlt
    rw [← hd] at hlt
    exact absurd hle (not_le.mpr hlt)
  obtain ⟨c, hc, hd⟩ := pointSegDistSq_eq p x.1 x.2
  obtain ⟨c', hc', k1, k2⟩ := pointSegClosest_spec p ⟨x.1, x.2⟩
  rw [hc] at hc'
  cases hc'
  have hgd : sqDist p c = g x := Except.ok.inj (hd.symm.trans (hg1 x))
  refine ⟨x, hx, _, c, h1, ?_, ⟨x, hx, k1⟩, ?_⟩
  · rw [pointSegClosestPts_eq _ _ _ hnd]; exact hc
  · rintro Q ⟨e, he, hQ⟩
    have := (h3 e he).trans ((hg2 e).2 Q hQ)
    simp only [id] at this
    rw [← hgd] at this
    exact this

/-- The loops over edges for a segment. -/
theorem segEdges_min (p1 p2 : P2 K) {ι : Type*} (pa pb : ι → P2 K) (es : List ι) (hne : es ≠ []) :
    ∃ x r, ∃ k : Nat,
      minLoop (fun e => segSegClosest Cmp.direct p1 p2 (pa e) (pb e)) SegSegClosest.d2 es none =
        .ok (some (x, r)) ∧ es[k]? = some x ∧
      segSegClosest Cmp.direct p1 p2 (pa x) (pb x) = .ok r ∧
      OnSegment p1 p2 r.c1 ∧ OnSegment (pa x) (pb x) r.c2 ∧ r.d2 = sqDist r.c1 r.c2 ∧
      (∀ P, OnSegment p1 p2 P → ∀ e ∈ es, ∀ Q, OnSegment (pa e) (pb e) Q → r.d2 ≤ sqDist P Q) ∧
      ∀ j < k, ∀ e, es[j]? = some e → ∀ P, OnSegment p1 p2 P → ∀ Q, OnSegment (pa e) (pb e) Q →
        r.d2 < sqDist P Q := by
  choose g hg using fun e : ι => segSegClosest_spec p1 p2 (pa e) (pb e)
  obtain ⟨x, k, h1, h2, h3, h4⟩ := minLoop_none
    (fun e => segSegClosest Cmp.direct p1 p2 (pa e) (pb e)) g SegSegClosest.d2 es
    (fun e _ => (hg e).1) hne
  obtain ⟨e1, a1, a2, a3, a4, a5, a6, a7, a8⟩ := hg x
  refine ⟨x, g x, k, h1, h2, e1, ⟨_, a1, a2, a5⟩, ⟨_, a3, a4, a6⟩, a7, ?_, ?_⟩
  · intro P hP e he Q hQ
    exact (h3 e he).trans ((hg e).2.2.2.2.2.2.2.2 P Q hP hQ)
  · intro j hj e he P hP Q hQ
    exact (h4 j hj e he).trans_le ((hg e).2.2.2.2.2.2.2.2 P Q hP hQ)

theorem segSegDistSq_spec (p1 q1 p2 q2 : P2 K) :
    ∃ d, segSegDistSq Cmp.direct p1 q1 p2 q2 = .ok d ∧
      IsMinDist (OnSegment p1 q1) (OnSegment p2 q2) d := by
  obtain ⟨r, h, a1, a2, a3, a4, a5, a6, a7, a8⟩ := segSegClosest_spec p1 q1 p2 q2
  refine ⟨r.d2, by simp [segSegDistSq, h], ⟨(r.c1, r.c2), ⟨⟨_, a1, a2, a5⟩, _, a3, a4, a6⟩,
    a7.symm⟩, fun PQ hPQ => a8 _ _ hPQ.1 hPQ.2⟩

/-- The loops over edges for the distance of a segment. -/
theorem segEdgesDist_min (p1 p2 : P2 K) (es : List (P2 K × P2 K)) (hne : es ≠ []) :
    ∃ d, minLoopValue (fun e => segSegDistSq Cmp.direct p1 p2 e.1 e.2) es = .ok (some d) ∧
      IsMinDist (OnSegment p1 p2) (fun Q => ∃ e ∈ es, OnSegment e.1 e.2 Q) d := by
  choose g hg using fun e : P2 K × P2 K => segSegClosest_spec p1 p2 e.1 e.2
  obtain ⟨x, k, h1, h2, h3, h4⟩ := minLoop_none
    (fun e => segSegDistSq Cmp.direct p1 p2 e.1 e.2) (fun e => (g e).d2) id es
    (fun e _ => by simp [segSegDistSq, (hg e).1]) hne
  have hx : x ∈ es := List.mem_iff_getElem?.mpr ⟨k, h2⟩
  obtain ⟨e1, a1, a2, a3, a4, a5, a6, a7, a8⟩ := hg x
  refine ⟨(g x).d2, by simp only [minLoopValue, h1], ⟨((g x).c1, (g x).c2),
    ⟨⟨_, a1, a2, a5⟩, x, hx, _, a3, a4, a6⟩, a7.symm⟩, ?_⟩
  rintro ⟨P, Q⟩ ⟨hP, e, he, hQ⟩
  exact (h3 e he).trans ((hg e).2.2.2.2.2.2.2.2 P Q hP hQ)

theorem openEdgesIdx_get (poly : List (P2 K)) (k : Nat) (x : Nat × P2 K × P2 K) :
    (openEdgesIdx poly)[k]? = some x ↔ x.1 = k ∧ IsEdge poly k x.2.1 x.2.2 := by
  obtain ⟨i, A, B⟩ := x
  unfold openEdgesIdx IsEdge
  rw [← openEdges_get]
  simp only [List.getElem?_map, List.getElem?_zipIdx, Option.map_map, Option.map_eq_some_iff,
    Function.comp_apply, Prod.mk.injEq]
  constructor
  · rintro ⟨a, h1, h2, rfl⟩
    exact ⟨by omega, h1⟩
  · rintro ⟨rfl, h⟩
    exact ⟨_, h, by omega, rfl⟩

theorem closedEdgesIdx_get (poly : List (P2 K)) (k : Nat) (x : Nat × P2 K × P2 K) :
    (closedEdgesIdx poly)[k]? = some x ↔
      k < poly.length ∧ x.1 = closedStart poly.length k ∧
        IsPolygonEdge poly (closedStart poly.length k) x.2.1 x.2.2 := by
  obtain ⟨i, A, B⟩ := x
  unfold closedEdgesIdx IsPolygonEdge
  have key : ∀ P : P2 K × P2 K, (closedEdges poly)[k]? = some P ↔ k < poly.length ∧
      poly[closedStart poly.length k]? = some P.1 ∧
        poly[(closedStart poly.length k + 1) % poly.length]? = some P.2 := by
    rintro ⟨a, b⟩
    rw [closedEdges_get]
    constructor
    · rintro ⟨h1, h2⟩
      have hk := (List.getElem?_eq_some_iff.mp h2).1
      refine ⟨hk, h1, ?_⟩
      have : (closedStart poly.length k + 1) % poly.length = k := by
        unfold closedStart
        split_ifs with h0
        · rw [Nat.sub_add_cancel (by omega), Nat.mod_self, h0]
        · rw [Nat.sub_add_cancel (by omega), Nat.mod_eq_of_lt hk]
      rw [this]; exact h2
    · rintro ⟨hk, h1, h2⟩
      refine ⟨h1, ?_⟩
      have : (closedStart poly.length k + 1) % poly.length = k := by
        unfold closedStart
        split_ifs with h0
        · rw [Nat.sub_add_cancel (by omega), Nat.mod_self, h0]
        · rw [Nat.sub_add_cancel (by omega), Nat.mod_eq_of_lt hk]
      rw [this] at h2; exact h2
  simp only [List.getElem?_map, List.getElem?_zipIdx, Option.map_map, Option.map_eq_some_iff,
    Function.comp_apply, Prod.mk.injEq, key, Nat.zero_add, closedStart]
  constructor
  · rintro ⟨a, ⟨h0, h1, h2⟩, h3, rfl⟩
    exact ⟨h0, h3.symm, h1, h2⟩
  · rintro ⟨h0, rfl, h1, h2⟩
    exact ⟨_, ⟨h0, h1, h2⟩, rfl, rfl⟩

end Geometrix
