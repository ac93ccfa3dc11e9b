import Verif.Lemmas.RayIntersection

/-!
# C11: rays with segments and lines
-/

set_option linter.unusedSectionVars false

namespace Geometrix

open Spec

variable {K : Type*} [Field K] [LinearOrder K] [IsStrictOrderedRing K]

/-- C11: for a unit direction and a non degenerate segment the overload with outputs is right. It
reports no crossing exactly when ray and segment are disjoint; otherwise it writes the smallest
parameter at which the ray is on the segment; the points are the only common point, or the two ends
of the common part; and the classification tells which. -/
theorem C11_ray_segment (O v A B : P2 K) (hv : dot v v = 1) (hAB : A ≠ B) :
    ∃ h : RayHit K, raySegment Cmp.direct O v A B = .ok h ∧
      CorrectRayAnswer O v A B h.type h.t h.pts := by
  have hv0 : v ≠ 0 := unit_ne_zero hv
  have hw : B - A ≠ 0 := sub_ne_zero_P2 hAB
  by_cases hd : cross v (B - A) = 0
  · obtain ⟨k, hk⟩ := (cross_eq_zero_iff hv0).mp hd
    have hpar : Parallel v (B - A) := Or.inl ⟨k, hk⟩
    have hk0 : k ≠ 0 := by rintro rfl; apply hw; rw [hk]; ext <;> simp
    by_cases hcol : OnLine A B O
    · obtain ⟨c, hc⟩ := hcol
      -- parameters of the ends on the ray's line
      obtain ⟨a, ha⟩ : ∃ a, A = O + a • v := ⟨-(c * k), by rw [hc, hk]; ext <;> simp <;> ring⟩
      have hb : B = O + (a + k) • v := by
        have : B = A + (B - A) := by ext <;> simp
        rw [this, hk, ha]; ext <;> simp <;> ring
      set b := a + k with hbdef
      have hab : a ≠ b := by intro h; apply hk0; linarith
      have hOA : dot (-(O - A)) v = a := by
        have : dot (-(O - A)) v = a * dot v v := by
          rw [ha]; simp [dot]; ring
        rw [this, hv, mul_one]
      have hOB : dot (B - O) v = b := by
        have : dot (B - O) v = b * dot v v := by
          rw [hb]; simp [dot]; ring
        rw [this, hv, mul_one]
      have hori : getOrientation Cmp.direct A B O = .collinear :=
        (orient_collinear_iff hAB).mpr ⟨c, hc⟩
      have hseg : ∀ t, OnSegment A B (O + t • v) ↔ Btw a b t := by
        intro t
        rw [ha, hb]; exact onSegment_param hv0 a b t
      have hcom : ∀ X, (OnRay O v X ∧ OnSegment A B X) ↔
          ∃ t, X = O + t • v ∧ 0 ≤ t ∧ Btw a b t := by
        intro X
        constructor
        · rintro ⟨⟨t, h0, rfl⟩, h2⟩; exact ⟨t, rfl, h0, (hseg t).mp h2⟩
        · rintro ⟨t, rfl, h0, h2⟩; exact ⟨⟨t, h0, rfl⟩, (hseg t).mpr h2⟩
      have hex : (∃ P, OnRay O v P ∧ OnSegment A B P) ↔ (0 ≤ a ∨ 0 ≤ b) := by
        simp only [hcom]
        constructor
        · rintro ⟨P, t, _, h0, h | h⟩
          · right; linarith [h.2]
          · left; linarith [h.2]
        · rintro (h | h)
          · exact ⟨_, a, rfl, h, by simp [Btw, le_total]⟩
          · exact ⟨_, b, rfl, h, by simp [Btw, le_total]⟩
      have hl2 : OnLine A B (O + v) := by
        refine ⟨c + 1 / k, ?_⟩
        rw [hk]
        have : O = A + c • (k • v) := by rw [← hk]; exact hc
        rw [this]; ext <;> simp <;> field_simp <;> ring
      have hpts : ∀ p q : K, (∀ t, (0 ≤ t ∧ Btw a b t) ↔ Btw p q t) →
          ∀ X, (OnRay O v X ∧ OnSegment A B X) ↔ OnSegment (O + p • v) (O + q • v) X := by
        intro p q hpq X
        rw [hcom]
        constructor
        · rintro ⟨t, rfl, h⟩; exact (onSegment_param hv0 p q t).mpr ((hpq t).mp h)
        · intro h
          have h' := h
          obtain ⟨u, _, _, hX⟩ := h'
          have hX' : X = O + (p + u * (q - p)) • v := by
            rw [hX]; ext <;> simp <;> ring
          rw [hX'] at h
          exact ⟨_, hX', (hpq _).mpr ((onSegment_param hv0 p q _).mp h)⟩
      have fin : ∀ t p q : K, 0 ≤ t → Btw a b t → (∀ t', 0 ≤ t' → Btw a b t' → t ≤ t') →
          (∀ t, (0 ≤ t ∧ Btw a b t) ↔ Btw p q t) →
          raySegment Cmp.direct O v A B = .ok ⟨.overlapping, some t, [O + p • v, O + q • v]⟩ →
          ∃ h : RayHit K, raySegment Cmp.direct O v A B = .ok h ∧
            CorrectRayAnswer O v A B h.type h.t h.pts := by
        intro t p q h0 h1 h2 h3 h4
        refine ⟨_, h4, ?_, ?_, ?_, by simp [hpar], by simp [hpar], by simp,
          fun _ => ⟨_, _, rfl, hpts p q h3⟩⟩
        · simp only [reduceCtorEq, false_iff, not_not]
          exact ⟨_, ⟨t, h0, rfl⟩, (hseg t).mpr h1⟩
        · exact fun _ => ⟨t, rfl, h0, (hseg t).mpr h1, fun t' h5 h6 => h2 t' h5 ((hseg t').mp h6)⟩
        · simp only [true_iff]
          exact ⟨⟨c, hc⟩, hl2, _, ⟨t, h0, rfl⟩, (hseg t).mpr h1⟩
      have hO : O + (0 : K) • v = O := P2.add_zero_param O v
      by_cases h1 : a < 0
      · by_cases h2 : b < 0
        · refine ⟨⟨.nonCrossing, none, []⟩, ?_, ?_, by simp, ?_, by simp [hpar], by simp [hpar],
            by simp, by simp⟩
          · simp [raySegment, dot_leftNormal, hd, hori, hOA, hOB, h1, h2]
          · simp only [true_iff, hex]; push Not; exact ⟨h1, h2⟩
          · simp only [reduceCtorEq, false_iff, hex]
            rintro ⟨_, _, h | h⟩ <;> linarith
        · refine fin 0 0 b le_rfl ?_ (fun t' h _ => h) ?_ ?_
          · push Not at h2; exact Or.inl ⟨h1.le, h2⟩
          · intro t; push Not at h2; simp only [Btw]; grind
          · simp only [raySegment, dot_leftNormal, hd, hori, hOA, hOB, direct_equals, direct_lt,
              h1, h2, hO, ← hb]
            simp
      · by_cases h2 : b < 0
        · refine fin 0 0 a le_rfl ?_ (fun t' h _ => h) ?_ ?_
          · push Not at h1; exact Or.inr ⟨h2.le, h1⟩
          · intro t; push Not at h1; simp only [Btw]; grind
          · simp only [raySegment, dot_leftNormal, hd, hori, hOA, hOB, direct_equals, direct_lt,
              h1, h2, hO, ← ha]
            simp
        · by_cases h3 : a < b
          · refine fin a a b (not_lt.mp h1) (by simp [Btw, le_total]) ?_ ?_ ?_
            · intro t' _ h
              rcases h with h | h <;> linarith [h.1, h.2]
            · intro t; push Not at h1 h2; simp only [Btw]; grind
            · simp only [raySegment, dot_leftNormal, hd, hori, hOA, hOB, direct_equals, direct_lt,
                h1, h2, h3, ← ha, ← hb]
              simp
          · refine fin b b a (not_lt.mp h2) (by simp [Btw, le_total]) ?_ ?_ ?_
            · intro t' _ h
              rcases h with h | h <;> linarith [h.1, h.2]
            · intro t; push Not at h1 h2; simp only [Btw]; grind
            · simp only [raySegment, dot_leftNormal, hd, hori, hOA, hOB, direct_equals, direct_lt,
                h1, h2, h3, ← ha, ← hb]
              simp
    · have hori : getOrientation Cmp.direct A B O ≠ .collinear :=
        fun h => hcol ((orient_collinear_iff hAB).mp h)
      refine ⟨⟨.nonCrossing, none, []⟩, ?_, ?_, by simp, by simp [hcol], by simp [hpar],
        by simp [hpar], by simp, by simp⟩
      · simp [raySegment, dot_leftNormal, hd, hori]
      · simp only [true_iff]
        rintro ⟨P, ⟨t, _, h1⟩, ⟨s, _, _, h2⟩⟩
        apply hcol
        refine ⟨s - t / k, ?_⟩
        rw [h1, hk] at h2
        have hx := congrArg P2.x h2
        have hy := congrArg P2.y h2
        simp only [P2.add_x, P2.smul_x, P2.add_y, P2.smul_y] at hx hy
        rw [hk]
        ext
        · simp only [P2.add_x, P2.smul_x]
          rw [eq_comm, sub_mul, ← mul_assoc (t / k), div_mul_cancel₀ t hk0]; linarith
        · simp only [P2.add_y, P2.smul_y]
          rw [eq_comm, sub_mul, ← mul_assoc (t / k), div_mul_cancel₀ t hk0]; linarith
  · have hnp : ¬ Parallel v (B - A) := by rw [parallel_iff_cross hv0]; exact hd
    have hs := ray_solves (O := O) (A := A) hd
    have huniq := fun s t => ray_unique (O := O) (A := A) (s := s) (t := t) hd
    set t1 := cross (B - A) (O - A) / cross v (B - A) with ht1
    set t2 := cross v (O - A) / cross v (B - A) with ht2
    have hc1 : cdiv (cross (B - A) (O - A)) (cross v (B - A)) = .ok t1 := by simp [cdiv, hd, ht1]
    have hc2 : cdiv (cross v (O - A)) (cross v (B - A)) = .ok t2 := by simp [cdiv, hd, ht2]
    have hnl : ¬ (OnLine A B O ∧ OnLine A B (O + v)) := by
      rintro ⟨⟨c, h1⟩, ⟨e, h2⟩⟩
      apply hd
      have hx1 := congrArg P2.x h1
      have hy1 := congrArg P2.y h1
      have hx2 := congrArg P2.x h2
      have hy2 := congrArg P2.y h2
      simp only [P2.add_x, P2.smul_x, P2.add_y, P2.smul_y, P2.sub_x, P2.sub_y] at hx1 hy1 hx2 hy2
      have e1 : v.x = (e - c) * (B.x - A.x) := by linear_combination hx2 - hx1
      have e2 : v.y = (e - c) * (B.y - A.y) := by linear_combination hy2 - hy1
      simp only [cross, P2.sub_x, P2.sub_y]; rw [e1, e2]; ring
    have hcom : ∀ X, (OnRay O v X ∧ OnSegment A B X) ↔
        (X = O + t1 • v ∧ 0 ≤ t1 ∧ 0 ≤ t2 ∧ t2 ≤ 1) := by
      intro X
      constructor
      · rintro ⟨⟨s, h0, rfl⟩, ⟨u, h2, h3, he⟩⟩
        obtain ⟨e1, e2⟩ := huniq s u he
        subst e1; subst e2; exact ⟨rfl, h0, h2, h3⟩
      · rintro ⟨rfl, h0, h2, h3⟩; exact ⟨⟨t1, h0, rfl⟩, ⟨t2, h2, h3, hs⟩⟩
    have hin : (∃ P, OnRay O v P ∧ InsideSegment A B P) ↔ (0 ≤ t1 ∧ 0 < t2 ∧ t2 < 1) := by
      constructor
      · rintro ⟨P, ⟨s, h0, rfl⟩, ⟨u, h2, h3, he⟩⟩
        obtain ⟨e1, e2⟩ := huniq s u he
        subst e1; subst e2; exact ⟨h0, h2, h3⟩
      · rintro ⟨h0, h2, h3⟩; exact ⟨_, ⟨t1, h0, rfl⟩, ⟨t2, h2, h3, hs⟩⟩
    have hrA : OnRay O v A ↔ (0 ≤ t1 ∧ t2 = 0) := by
      constructor
      · rintro ⟨s, h0, h⟩
        obtain ⟨e1, e2⟩ := huniq s 0 (by rw [P2.add_zero_param]; exact h.symm)
        subst e1; exact ⟨h0, e2.symm⟩
      · rintro ⟨h0, h⟩
        refine ⟨t1, h0, ?_⟩
        rw [hs, h, P2.add_zero_param]
    have hrB : OnRay O v B ↔ (0 ≤ t1 ∧ t2 = 1) := by
      constructor
      · rintro ⟨s, h0, h⟩
        obtain ⟨e1, e2⟩ := huniq s 1 (by rw [P2.add_sub_cancel_param]; exact h.symm)
        subst e1; exact ⟨h0, e2.symm⟩
      · rintro ⟨h0, h⟩
        refine ⟨t1, h0, ?_⟩
        rw [hs, h, P2.add_sub_cancel_param]
    have hno : ¬ (0 ≤ t1 ∧ 0 ≤ t2 ∧ t2 ≤ 1) →
        raySegment Cmp.direct O v A B = .ok ⟨.nonCrossing, none, []⟩ →
        ∃ h : RayHit K, raySegment Cmp.direct O v A B = .ok h ∧
          CorrectRayAnswer O v A B h.type h.t h.pts := by
      intro h0 h
      refine ⟨_, h, ?_, by simp, ?_, ?_, ?_, by simp, by simp⟩
      · simp only [true_iff]; rintro ⟨P, hP⟩; exact h0 ((hcom P).mp hP).2
      · simp only [reduceCtorEq, false_iff]; rintro ⟨h1, h2, _⟩; exact hnl ⟨h1, h2⟩
      · simp only [reduceCtorEq, false_iff, hin]; rintro ⟨_, h1, h2, h3⟩
        exact h0 ⟨h1, h2.le, h3.le⟩
      · simp only [reduceCtorEq, false_iff, hrA, hrB]
        rintro ⟨_, ⟨h1, h2⟩ | ⟨h1, h2⟩⟩
        · exact h0 ⟨h1, by linarith, by linarith⟩
        · exact h0 ⟨h1, by linarith, by linarith⟩
    by_cases h1 : t1 < 0
    · refine hno (fun h => by linarith [h.1]) ?_
      simp [raySegment, dot_leftNormal, hd, hc1, h1]
    · by_cases h2 : t2 < 0 ∨ 1 < t2
      · refine hno (fun h => by rcases h2 with h2 | h2 <;> linarith [h.2.1, h.2.2]) ?_
        simp [raySegment, dot_leftNormal, hd, hc1, hc2, h1, h2]
      · have h2' := h2
        push Not at h1 h2'
        have hX : ∀ t', 0 ≤ t' → OnSegment A B (O + t' • v) → t' = t1 := by
          intro t' h0 hh
          exact (param_inj hv0).mp ((hcom _).mp ⟨⟨t', h0, rfl⟩, hh⟩).1
        refine ⟨⟨if t2 = 0 ∨ t2 = 1 then .endpoint else .crossing, some t1, [O + t1 • v]⟩,
          ?_, ?_, ?_, ?_, ?_, ?_, ?_, ?_⟩
        · simp [raySegment, dot_leftNormal, hd, hc1, hc2, not_lt.mpr h1, h2]
        · have : ¬ (if t2 = 0 ∨ t2 = 1 then IType.endpoint else IType.crossing) = .nonCrossing := by
            split_ifs <;> simp
          simp only [this, false_iff, not_not]
          exact ⟨_, (hcom _).mpr ⟨rfl, h1, h2'⟩⟩
        · intro _
          exact ⟨t1, rfl, h1, ((hcom _).mpr ⟨rfl, h1, h2'⟩).2, fun t' h3 h4 => (hX t' h3 h4).ge⟩
        · have : ¬ (if t2 = 0 ∨ t2 = 1 then IType.endpoint else IType.crossing) = .overlapping := by
            split_ifs <;> simp
          simp only [this, false_iff]
          rintro ⟨h3, h4, _⟩; exact hnl ⟨h3, h4⟩
        · simp only [hin, hnp, not_false_eq_true, true_and]
          by_cases h3 : t2 = 0 ∨ t2 = 1
          · simp only [h3, if_true, reduceCtorEq, false_iff]
            rintro ⟨_, h5, h6⟩; rcases h3 with h3 | h3 <;> linarith
          · simp only [h3, if_false, true_iff]
            push Not at h3
            exact ⟨h1, lt_of_le_of_ne h2'.1 (Ne.symm h3.1), lt_of_le_of_ne h2'.2 h3.2⟩
        · simp only [hrA, hrB, hnp, not_false_eq_true, true_and]
          by_cases h3 : t2 = 0 ∨ t2 = 1
          · simp [h3, h1]
          · simp only [h3, if_false, reduceCtorEq, false_iff]
            rintro (⟨_, h⟩ | ⟨_, h⟩)
            · exact h3 (Or.inl h)
            · exact h3 (Or.inr h)
        · intro _
          exact ⟨_, rfl, fun X => ⟨fun h => ((hcom X).mp h).1, fun h => (hcom X).mpr ⟨h, h1, h2'⟩⟩⟩
        · intro h
          exfalso
          revert h
          simp only
          split_ifs <;> simp

example : dot (⟨3 / 5, 4 / 5⟩ : P2 ℚ) ⟨3 / 5, 4 / 5⟩ = 1 ∧ (⟨1, 0⟩ : P2 ℚ) ≠ ⟨0, 5⟩ := by
  decide +kernel

/-- C11, the overload without outputs: it agrees with the other overload unless the ray is parallel
to the segment but not on its line. Missing for the full claim: that case, see
`C11_overloads_disagree_refuted`. -/
theorem C11_overloads_agree_partial (O v A B : P2 K) (hv : dot v v = 1) (hAB : A ≠ B)
    (h : ¬ (Parallel v (B - A) ∧ ¬ OnLine A B O)) :
    ∃ hit : RayHit K, raySegment Cmp.direct O v A B = .ok hit ∧
      raySegmentNoOutput Cmp.direct O v A B = .ok hit.type := by
  have hv0 : v ≠ 0 := unit_ne_zero hv
  by_cases hd : cross v (B - A) = 0
  · have hp : Parallel v (B - A) := (parallel_iff_cross hv0).mpr hd
    have hl : OnLine A B O := by by_contra hn; exact h ⟨hp, hn⟩
    have hori := (orient_collinear_iff (O := O) hAB).mpr hl
    have hori2 := (orientV_collinear_iff v (B - A)).mpr hd
    simp only [raySegment, raySegmentNoOutput, dot_leftNormal, hd, hori, hori2, direct_equals,
      if_true, ne_eq, not_true_eq_false, decide_false, Bool.false_eq_true, if_false]
    split_ifs <;> exact ⟨_, rfl, rfl⟩
  · simp only [raySegment, raySegmentNoOutput, dot_leftNormal, hd, direct_equals, if_false, cdiv]
    split_ifs <;> exact ⟨_, rfl, rfl⟩

example : dot (⟨3 / 5, 4 / 5⟩ : P2 ℚ) ⟨3 / 5, 4 / 5⟩ = 1 ∧ (⟨1, 0⟩ : P2 ℚ) ≠ ⟨0, 5⟩ ∧
    ¬ (Parallel (⟨3 / 5, 4 / 5⟩ : P2 ℚ) ((⟨0, 5⟩ : P2 ℚ) - ⟨1, 0⟩) ∧
      ¬ OnLine (⟨1, 0⟩ : P2 ℚ) ⟨0, 5⟩ ⟨0, 0⟩) := by
  refine ⟨by decide +kernel, by decide +kernel, ?_⟩
  rw [parallel_iff_cross (by decide +kernel)]
  rintro ⟨h, _⟩
  revert h; decide +kernel

/-- Disagreement: the overload without outputs reports an overlap for every parallel segment ahead,
however far from the ray's line; the overload with outputs reports none. -/
theorem C11_overloads_disagree_refuted :
    raySegment Cmp.direct (⟨0, 0⟩ : P2 ℚ) ⟨1, 0⟩ ⟨1, 100⟩ ⟨2, 100⟩ = .ok ⟨.nonCrossing, none, []⟩ ∧
    raySegmentNoOutput Cmp.direct (⟨0, 0⟩ : P2 ℚ) ⟨1, 0⟩ ⟨1, 100⟩ ⟨2, 100⟩ = .ok .overlapping := by
  decide +kernel

/-- Disagreement: `ray_line_intersection` answers that parallel disjoint lines intersect. -/
theorem C11_ray_line_parallel_refuted :
    ¬ ∀ O v A w : P2 ℚ, dot v v = 1 → w ≠ 0 → ∀ h, rayLine Cmp.direct O v A w = .ok h →
      (h.intersecting = true ↔ ∃ P, OnRay O v P ∧ OnLine A (A + w) P) := by
  intro h
  have h1 := (h ⟨0, 0⟩ ⟨1, 0⟩ ⟨0, 1⟩ ⟨1, 0⟩ (by decide +kernel) (by decide +kernel) _
    (show rayLine Cmp.direct (⟨0, 0⟩ : P2 ℚ) ⟨1, 0⟩ ⟨0, 1⟩ ⟨1, 0⟩ = .ok ⟨true, true, none⟩ by
      decide +kernel)).mp rfl
  obtain ⟨P, ⟨t, _, h2⟩, ⟨s, h3⟩⟩ := h1
  rw [h2] at h3
  have := congrArg P2.y h3
  simp at this

/-- Disagreement: `ray_line_intersection` misses the half of the line behind its reference point. -/
theorem C11_ray_line_half_refuted :
    rayLine Cmp.direct (⟨-1, -1⟩ : P2 ℚ) ⟨0, 1⟩ ⟨0, 0⟩ ⟨1, 0⟩ = .ok ⟨false, false, none⟩ ∧
    ∃ P, OnRay (⟨-1, -1⟩ : P2 ℚ) ⟨0, 1⟩ P ∧ OnLine (⟨0, 0⟩ : P2 ℚ) (⟨0, 0⟩ + ⟨1, 0⟩) P := by
  refine ⟨by decide +kernel, ⟨-1, 0⟩, ⟨1, by norm_num, ?_⟩, ⟨-1, ?_⟩⟩ <;> ext <;> norm_num

/-- C11 for `ray_line_intersection`, what is left: when direction and line are not parallel, the
answer is yes exactly when ray and the half line ahead of the reference point meet, and the point is
that point. Missing: parallel lines, and the other half of the line. -/
theorem C11_ray_line_partial (O v A w : P2 K) (hv : v ≠ 0) (hn : ¬ Parallel v w) :
    ∃ h : RayLineHit K, rayLine Cmp.direct O v A w = .ok h ∧
      (h.intersecting = true ↔ ∃ P, OnRay O v P ∧ OnRay A w P) ∧ h.overlapping = false ∧
      (∀ P, h.point = some P ↔ OnRay O v P ∧ OnRay A w P) := by
  have hd : cross v w ≠ 0 := by
    intro h; exact hn ((parallel_iff_cross hv).mpr h)
  have hs := ray_solves (O := O) (A := A) hd
  have huniq := fun s t => ray_unique (O := O) (A := A) (s := s) (t := t) hd
  set t1 := cross w (O - A) / cross v w with ht1
  set t2 := cross v (O - A) / cross v w with ht2
  have hc1 : cdiv (cross w (O - A)) (cross v w) = .ok t1 := by simp [cdiv, hd, ht1]
  have hc2 : cdiv (cross v (O - A)) (cross v w) = .ok t2 := by simp [cdiv, hd, ht2]
  have hcom : ∀ X, (OnRay O v X ∧ OnRay A w X) ↔ (X = O + t1 • v ∧ 0 ≤ t1 ∧ 0 ≤ t2) := by
    intro X
    constructor
    · rintro ⟨⟨s, h0, rfl⟩, ⟨u, h2, he⟩⟩
      obtain ⟨e1, e2⟩ := huniq s u he
      subst e1; subst e2; exact ⟨rfl, h0, h2⟩
    · rintro ⟨rfl, h0, h2⟩; exact ⟨⟨t1, h0, rfl⟩, ⟨t2, h2, hs⟩⟩
  simp only [hcom]
  by_cases h1 : t1 < 0
  · refine ⟨⟨false, false, none⟩, ?_, ?_, rfl, ?_⟩
    · simp [rayLine, dot_leftNormal, hd, hc1, h1]
    · simp only [Bool.false_eq_true, false_iff]
      rintro ⟨P, _, h, _⟩; linarith
    · intro P; simp only [reduceCtorEq, false_iff]; rintro ⟨_, h, _⟩; linarith
  · by_cases h2 : t2 < 0
    · refine ⟨⟨false, false, none⟩, ?_, ?_, rfl, ?_⟩
      · simp [rayLine, dot_leftNormal, hd, hc1, hc2, h1, h2]
      · simp only [Bool.false_eq_true, false_iff]
        rintro ⟨P, _, _, h⟩; linarith
      · intro P; simp only [reduceCtorEq, false_iff]; rintro ⟨_, _, h⟩; linarith
    · refine ⟨⟨true, false, some (O + t1 • v)⟩, ?_, ?_, rfl, ?_⟩
      · simp [rayLine, dot_leftNormal, hd, hc1, hc2, h1, h2]
      · simp only [true_iff]
        exact ⟨_, rfl, not_lt.mp h1, not_lt.mp h2⟩
      · intro P
        simp only [Option.some.injEq]
        exact ⟨fun h => ⟨h.symm, not_lt.mp h1, not_lt.mp h2⟩, fun h => h.1.symm⟩

example : (⟨1, 0⟩ : P2 ℚ) ≠ 0 ∧ ¬ Parallel (⟨1, 0⟩ : P2 ℚ) ⟨1, 1⟩ := by
  refine ⟨by decide +kernel, ?_⟩
  rw [parallel_iff_cross (by decide +kernel)]
  decide +kernel

end Geometrix
