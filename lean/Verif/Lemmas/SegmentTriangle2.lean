import Verif.Lemmas.SegmentTriangle

/-!
# Lemmas about the intersection of a segment and a triangle, continued
-/

set_option linter.unusedSectionVars false

namespace Geometrix

open Spec

variable {K : Type*} [Field K] [LinearOrder K] [IsStrictOrderedRing K]

/-- One side adds the ends of its common part and nothing else. -/
theorem triangleSide_step {A B C D t0 t1 t2 : P2 K} (hAB : A ≠ B) (hCD : C ≠ D) {S : List (P2 K)}
    (hS : S.Pairwise LexLT) (k : Fin 3)
    (hE : ∀ s, Common A B C D (along A B s) ↔
      (0 ≤ s ∧ s ≤ 1) ∧ (∀ j, 0 ≤ sideAt A B t0 t1 t2 j s) ∧ sideAt A B t0 t1 t2 k s = 0) :
    ∃ S', triangleSide Cmp.direct A B C D S = .ok S' ∧ S'.Pairwise LexLT ∧ (∀ X ∈ S, X ∈ S') ∧
      (∀ u, 0 ≤ u → u ≤ 1 → (∀ j, 0 ≤ sideAt A B t0 t1 t2 j u) → sideAt A B t0 t1 t2 k u = 0 →
        (∃ a, a ≤ u ∧ along A B a ∈ S') ∧ ∃ b, u ≤ b ∧ along A B b ∈ S') ∧
      ∀ X ∈ S', X ∈ S ∨ ∃ q, X = along A B q ∧ 0 ≤ q ∧ q ≤ 1 ∧ (∀ j, 0 ≤ sideAt A B t0 t1 t2 j q) ∧
        sideAt A B t0 t1 t2 k q = 0 ∧
      ((∀ s, 0 ≤ s → s ≤ 1 → (∀ j, 0 ≤ sideAt A B t0 t1 t2 j s) → sideAt A B t0 t1 t2 k s = 0 → q ≤ s) ∨
        ∀ s, 0 ≤ s → s ≤ 1 → (∀ j, 0 ≤ sideAt A B t0 t1 t2 j s) → sideAt A B t0 t1 t2 k s = 0 → s ≤ q) := by
  obtain ⟨S', hrun, hp, h⟩ := triangleSide_spec hAB hCD hS
  refine ⟨S', hrun, hp, ?_⟩
  rcases h with ⟨hm, hn⟩ | ⟨a, b, hab, hc, hm⟩
  · refine ⟨fun X hX => (hm X).2 hX, ?_, fun X hX => Or.inl ((hm X).1 hX)⟩
    intro u h0 h1 hj hk
    exact absurd ((hE u).2 ⟨⟨h0, h1⟩, hj, hk⟩) (hn u)
  · refine ⟨fun X hX => (hm X).2 (Or.inr hX), ?_, ?_⟩
    · intro u h0 h1 hj hk
      obtain ⟨ha, hb⟩ := (hc u).1 ((hE u).2 ⟨⟨h0, h1⟩, hj, hk⟩)
      exact ⟨⟨a, ha, (hm _).2 (Or.inl (Or.inl rfl))⟩, b, hb, (hm _).2 (Or.inl (Or.inr rfl))⟩
    · intro X hX
      rcases (hm X).1 hX with (rfl | rfl) | hX
      · right
        obtain ⟨⟨h0, h1⟩, hj, hk⟩ := (hE a).1 ((hc a).2 ⟨le_refl _, hab⟩)
        exact ⟨a, rfl, h0, h1, hj, hk, Or.inl fun s s0 s1 sj sk =>
          ((hc s).1 ((hE s).2 ⟨⟨s0, s1⟩, sj, sk⟩)).1⟩
      · right
        obtain ⟨⟨h0, h1⟩, hj, hk⟩ := (hE b).1 ((hc b).2 ⟨hab, le_refl _⟩)
        exact ⟨b, rfl, h0, h1, hj, hk, Or.inr fun s s0 s1 sj sk =>
          ((hc s).1 ((hE s).2 ⟨⟨s0, s1⟩, sj, sk⟩)).2⟩
      · exact Or.inl hX

theorem forall_three {p : Fin 3 → Prop} : (∀ k, p k) ↔ p 0 ∧ p 1 ∧ p 2 := by
  constructor
  · intro h; exact ⟨h 0, h 1, h 2⟩
  · rintro ⟨h0, h1, h2⟩ k
    match k with
    | 0 => exact h0
    | 1 => exact h1
    | 2 => exact h2

theorem corner_ne {A B C : P2 K} (h : 0 < area2 A B C) : A ≠ B ∧ B ≠ C ∧ C ≠ A := by
  refine ⟨?_, ?_, ?_⟩ <;> rintro rfl
  · have : area2 A A C = 0 := by unfold area2; ring
    linarith
  · have : area2 A B B = 0 := by unfold area2; ring
    linarith
  · have : area2 C B C = 0 := by unfold area2; ring
    linarith

theorem inside_iff_sideAt {A B t0 t1 t2 : P2 K} {r : K} :
    pointInTriangle Cmp.direct (along A B r) t0 t1 t2 = true ↔ ∀ k, 0 ≤ sideAt A B t0 t1 t2 k r := by
  rw [pointInTriangle_iff, forall_three]; rfl

theorem common_side {A B t0 t1 t2 : P2 K} (hAB : A ≠ B) (h : 0 < area2 t0 t1 t2) (s : K) :
    (Common A B t0 t1 (along A B s) ↔
      (0 ≤ s ∧ s ≤ 1) ∧ (∀ j, 0 ≤ sideAt A B t0 t1 t2 j s) ∧ sideAt A B t0 t1 t2 0 s = 0) ∧
    (Common A B t1 t2 (along A B s) ↔
      (0 ≤ s ∧ s ≤ 1) ∧ (∀ j, 0 ≤ sideAt A B t0 t1 t2 j s) ∧ sideAt A B t0 t1 t2 1 s = 0) ∧
    (Common A B t2 t0 (along A B s) ↔
      (0 ≤ s ∧ s ≤ 1) ∧ (∀ j, 0 ≤ sideAt A B t0 t1 t2 j s) ∧ sideAt A B t0 t1 t2 2 s = 0) := by
  have h1 : 0 < area2 t1 t2 t0 := by
    have : area2 t1 t2 t0 = area2 t0 t1 t2 := by unfold area2; ring
    rw [this]; exact h
  have h2 : 0 < area2 t2 t0 t1 := by
    have : area2 t2 t0 t1 = area2 t0 t1 t2 := by unfold area2; ring
    rw [this]; exact h
  simp only [Common, onSegment_along hAB, side_iff h, side_iff h1, side_iff h2, forall_three, sideAt]
  refine ⟨trivial, ?_, ?_⟩ <;> tauto

/-- The points found by the function. -/
theorem segmentTriangle_found {A B t0 t1 t2 : P2 K} (hAB : A ≠ B) (h : 0 < area2 t0 t1 t2)
    (hn : ¬ (pointInTriangle Cmp.direct A t0 t1 t2 = true ∧ pointInTriangle Cmp.direct B t0 t1 t2 = true)) :
    ∃ S, segmentTriangle Cmp.direct A B t0 t1 t2 = .ok (S.take 2) ∧ Found A B t0 t1 t2 S := by
  obtain ⟨n1, n2, n3⟩ := corner_ne h
  obtain ⟨S0, hS0, hp0, hlow, hhigh, honly⟩ : ∃ S0, S0 = (if pointInTriangle Cmp.direct A t0 t1 t2 then
      setInsert (lexCompare Cmp.direct) [] A
      else if pointInTriangle Cmp.direct B t0 t1 t2 then setInsert (lexCompare Cmp.direct) [] B else []) ∧
      S0.Pairwise LexLT ∧ ((∀ k, 0 ≤ sideAt A B t0 t1 t2 k 0) → along A B 0 ∈ S0) ∧
      ((∀ k, 0 ≤ sideAt A B t0 t1 t2 k 1) → along A B 1 ∈ S0) ∧
      ∀ X ∈ S0, ∃ q, X = along A B q ∧ 0 ≤ q ∧ q ≤ 1 ∧ (∀ j, 0 ≤ sideAt A B t0 t1 t2 j q) ∧
        (q = 0 ∨ q = 1) := by
    refine ⟨_, rfl, ?_⟩
    rw [← inside_iff_sideAt, ← inside_iff_sideAt, along_zero, along_one]
    by_cases ha : pointInTriangle Cmp.direct A t0 t1 t2 = true
    · have hb : ¬ pointInTriangle Cmp.direct B t0 t1 t2 = true := fun hb => hn ⟨ha, hb⟩
      rw [if_pos ha]
      refine ⟨by simp [setInsert], fun _ => by simp [setInsert], fun hb' => absurd hb' hb, ?_⟩
      intro X hX
      have : X = A := by simpa [setInsert] using hX
      subst this
      refine ⟨0, (along_zero _ _).symm, le_refl _, zero_le_one, ?_, Or.inl rfl⟩
      rw [← inside_iff_sideAt, along_zero]; exact ha
    · rw [if_neg ha]
      by_cases hb : pointInTriangle Cmp.direct B t0 t1 t2 = true
      · rw [if_pos hb]
        refine ⟨by simp [setInsert], fun ha' => absurd ha' ha, fun _ => by simp [setInsert], ?_⟩
        intro X hX
        have : X = B := by simpa [setInsert] using hX
        subst this
        refine ⟨1, (along_one _ _).symm, zero_le_one, le_refl _, ?_, Or.inr rfl⟩
        rw [← inside_iff_sideAt, along_one]; exact hb
      · rw [if_neg hb]
        exact ⟨List.Pairwise.nil, fun ha' => absurd ha' ha, fun hb' => absurd hb' hb, by simp⟩
  obtain ⟨S1, r1, p1, m1, s1, o1⟩ := triangleSide_step hAB n1 hp0 0 (fun s => (common_side hAB h s).1)
  obtain ⟨S2, r2, p2, m2, s2, o2⟩ := triangleSide_step hAB n2 p1 1 (fun s => (common_side hAB h s).2.1)
  obtain ⟨S3, r3, p3, m3, s3, o3⟩ := triangleSide_step hAB n3 p2 2 (fun s => (common_side hAB h s).2.2)
  refine ⟨S3, ?_, ?_⟩
  · unfold segmentTriangle
    simp only
    rw [if_neg (by simpa using hn), ← hS0, r1]
    simp only [r2, r3]
  · refine ⟨p3, fun hl => m3 _ (m2 _ (m1 _ (hlow hl))), fun hl => m3 _ (m2 _ (m1 _ (hhigh hl))), ?_, ?_⟩
    · intro k u h0 h1 hj hk
      match k with
      | 0 =>
        obtain ⟨⟨a, ha, hm⟩, b, hb, hm'⟩ := s1 u h0 h1 hj hk
        exact ⟨⟨a, ha, m3 _ (m2 _ hm)⟩, b, hb, m3 _ (m2 _ hm')⟩
      | 1 =>
        obtain ⟨⟨a, ha, hm⟩, b, hb, hm'⟩ := s2 u h0 h1 hj hk
        exact ⟨⟨a, ha, m3 _ hm⟩, b, hb, m3 _ hm'⟩
      | 2 => exact s3 u h0 h1 hj hk
    · intro X hX
      rcases o3 X hX with hX | ⟨q, e, q0, q1, qj, qk, hc⟩
      · rcases o2 X hX with hX | ⟨q, e, q0, q1, qj, qk, hc⟩
        · rcases o1 X hX with hX | ⟨q, e, q0, q1, qj, qk, hc⟩
          · obtain ⟨q, e, q0, q1, qj, hc⟩ := honly X hX
            rcases hc with hc | hc
            · exact ⟨q, e, q0, q1, qj, Or.inl hc⟩
            · exact ⟨q, e, q0, q1, qj, Or.inr (Or.inl hc)⟩
          · exact ⟨q, e, q0, q1, qj, Or.inr (Or.inr ⟨0, qk, hc⟩)⟩
        · exact ⟨q, e, q0, q1, qj, Or.inr (Or.inr ⟨1, qk, hc⟩)⟩
      · exact ⟨q, e, q0, q1, qj, Or.inr (Or.inr ⟨2, qk, hc⟩)⟩

/-- The common points in parameters. -/
theorem common_iff {A B t0 t1 t2 : P2 K} (hAB : A ≠ B) (h : 0 < area2 t0 t1 t2) (r : K) :
    (OnSegment A B (along A B r) ∧ InTriangle t0 t1 t2 (along A B r)) ↔
      0 ≤ r ∧ r ≤ 1 ∧ ∀ k, 0 ≤ sideAt A B t0 t1 t2 k r := by
  rw [onSegment_along hAB, inTriangle_iff h, forall_three, and_assoc]; rfl

/-! ## The separating axes -/

theorem axisSeparates_iff {big : K} {n A B t0 t1 t2 : P2 K}
    (hb : ∀ X ∈ [A, B, t0, t1, t2], -big ≤ dot n X ∧ dot n X ≤ big) :
    axisSeparates big n A B t0 t1 t2 = true ↔
      ((∀ X ∈ [A, B], ∀ Y ∈ [t0, t1, t2], dot n X < dot n Y) ∨
        ∀ X ∈ [A, B], ∀ Y ∈ [t0, t1, t2], dot n Y < dot n X) := by
  have hA := hb A (by simp)
  have hB := hb B (by simp)
  have h0 := hb t0 (by simp)
  have h1 := hb t1 (by simp)
  have h2 := hb t2 (by simp)
  unfold axisSeparates
  simp only [min_eq_right h0.2, max_eq_right h0.1, min_eq_right hA.2, max_eq_right hA.1, Bool.or_eq_true,
    decide_eq_true_eq, gt_iff_lt, max_lt_iff, lt_min_iff, List.mem_cons, List.not_mem_nil, or_false,
    forall_eq_or_imp, forall_eq]
  tauto

/-- The projections of the segment and of the triangle on the axis are apart. -/
def AxisApart (n A B t0 t1 t2 : P2 K) : Prop :=
  (∀ X ∈ [A, B], ∀ Y ∈ [t0, t1, t2], dot n X < dot n Y) ∨ ∀ X ∈ [A, B], ∀ Y ∈ [t0, t1, t2], dot n Y < dot n X

theorem apart_disjoint {n A B t0 t1 t2 : P2 K} (h : AxisApart n A B t0 t1 t2) :
    ¬ ∃ X, OnSegment A B X ∧ InTriangle t0 t1 t2 X := by
  rintro ⟨X, ⟨t, h0, h1, hX⟩, a, b, c, ha, hb, hc, hs, hX'⟩
  have e1 : dot n X = (1 - t) * dot n A + t * dot n B := by
    rw [hX]; simp only [dot, P2.add_x, P2.add_y, P2.smul_x, P2.smul_y, P2.sub_x, P2.sub_y]; ring
  have e2 : dot n X = a * dot n t0 + b * dot n t1 + c * dot n t2 := by
    rw [hX']; simp only [dot, P2.add_x, P2.add_y, P2.smul_x, P2.smul_y]; ring
  have hc' : c = 1 - a - b := by linarith
  rcases h with h | h
  · have hl : ∀ Y ∈ [t0, t1, t2], dot n X < dot n Y := by
      intro Y hY
      have k1 := h A (by simp) Y hY
      have k2 := h B (by simp) Y hY
      rw [e1]
      rcases h0.eq_or_lt with h0 | h0
      · subst h0; linarith
      · have := mul_lt_mul_of_pos_left k2 h0
        have := mul_le_mul_of_nonneg_left k1.le (sub_nonneg.2 h1)
        linarith
    have k0 := hl t0 (by simp)
    have k1 := hl t1 (by simp)
    have k2 := hl t2 (by simp)
    have m0 := mul_nonneg ha (sub_nonneg.2 k0.le)
    have m1 := mul_nonneg hb (sub_nonneg.2 k1.le)
    have m2 := mul_nonneg hc (sub_nonneg.2 k2.le)
    have hz : a * (dot n t0 - dot n X) + b * (dot n t1 - dot n X) + c * (dot n t2 - dot n X) = 0 := by
      linear_combination -e2 - dot n X * hs
    have z0 : a * (dot n t0 - dot n X) = 0 := by linarith
    have z1 : b * (dot n t1 - dot n X) = 0 := by linarith
    have z2 : c * (dot n t2 - dot n X) = 0 := by linarith
    have a0 := (mul_eq_zero.1 z0).resolve_right (sub_pos.2 k0).ne'
    have b0 := (mul_eq_zero.1 z1).resolve_right (sub_pos.2 k1).ne'
    have c0 := (mul_eq_zero.1 z2).resolve_right (sub_pos.2 k2).ne'
    rw [a0, b0, c0] at hs; norm_num at hs
  · have hl : ∀ Y ∈ [t0, t1, t2], dot n Y < dot n X := by
      intro Y hY
      have k1 := h A (by simp) Y hY
      have k2 := h B (by simp) Y hY
      rw [e1]
      rcases h0.eq_or_lt with h0 | h0
      · subst h0; linarith
      · have := mul_lt_mul_of_pos_left k2 h0
        have := mul_le_mul_of_nonneg_left k1.le (sub_nonneg.2 h1)
        linarith
    have k0 := hl t0 (by simp)
    have k1 := hl t1 (by simp)
    have k2 := hl t2 (by simp)
    have m0 := mul_nonneg ha (sub_nonneg.2 k0.le)
    have m1 := mul_nonneg hb (sub_nonneg.2 k1.le)
    have m2 := mul_nonneg hc (sub_nonneg.2 k2.le)
    have hz : a * (dot n X - dot n t0) + b * (dot n X - dot n t1) + c * (dot n X - dot n t2) = 0 := by
      linear_combination e2 + dot n X * hs
    have z0 : a * (dot n X - dot n t0) = 0 := by linarith
    have z1 : b * (dot n X - dot n t1) = 0 := by linarith
    have z2 : c * (dot n X - dot n t2) = 0 := by linarith
    have a0 := (mul_eq_zero.1 z0).resolve_right (sub_pos.2 k0).ne'
    have b0 := (mul_eq_zero.1 z1).resolve_right (sub_pos.2 k1).ne'
    have c0 := (mul_eq_zero.1 z2).resolve_right (sub_pos.2 k2).ne'
    rw [a0, b0, c0] at hs; norm_num at hs

/-- Two affine functions that are never both not negative on `[0, 1]`, though each is somewhere. -/
theorem affine_pair {a b c d : K} (hf : ∃ r, 0 ≤ r ∧ r ≤ 1 ∧ 0 ≤ a + b * r) (hg : ∃ r, 0 ≤ r ∧ r ≤ 1 ∧ 0 ≤ c + d * r)
    (hno : ∀ r, 0 ≤ r → r ≤ 1 → 0 ≤ a + b * r → c + d * r < 0) :
    ∃ l m : K, 0 < l ∧ 0 < m ∧ b ≠ 0 ∧ l * b + m * d = 0 ∧ l * a + m * c < 0 := by
  have key : ∀ {a b c d : K}, 0 ≤ a → (∃ r, 0 ≤ r ∧ r ≤ 1 ∧ 0 ≤ c + d * r) →
      (∀ r, 0 ≤ r → r ≤ 1 → 0 ≤ a + b * r → c + d * r < 0) → 0 < d ∧ b < 0 ∧ d * a + -b * c < 0 := by
    rintro a b c d ha ⟨r, h0, h1, hr⟩ hno
    have hc := hno 0 (le_refl _) zero_le_one (by linarith)
    have hd : 0 < d := by
      by_contra hd
      have := mul_nonpos_of_nonpos_of_nonneg (not_lt.1 hd) h0
      linarith
    have hz0 : 0 ≤ -c / d := div_nonneg (by linarith) hd.le
    have hz1 : -c / d ≤ r := by rw [div_le_iff₀ hd]; linarith
    have hzz : d * (-c / d) = -c := by field_simp
    have hfz : a + b * (-c / d) < 0 := by
      by_contra hc'
      have := hno _ hz0 (hz1.trans h1) (not_lt.1 hc')
      linarith
    have hb : b < 0 := by
      by_contra hb
      have := mul_nonneg (not_lt.1 hb) hz0
      linarith
    refine ⟨hd, hb, ?_⟩
    have := mul_neg_of_pos_of_neg hd hfz
    have e : d * (a + b * (-c / d)) = d * a + b * (d * (-c / d)) := by ring
    rw [e, hzz] at this; linarith
  rcases le_or_gt 0 a with ha | ha
  · obtain ⟨h1, h2, h3⟩ := key ha hg hno
    exact ⟨d, -b, h1, by linarith, h2.ne, by ring, h3⟩
  · rcases le_or_gt 0 c with hc | hc
    · obtain ⟨h1, h2, h3⟩ := key (a := c) (b := d) (c := a) (d := b) hc hf (by
        intro r h0 h1 hr
        by_contra hn
        have := hno r h0 h1 (not_lt.1 hn)
        linarith)
      exact ⟨-d, b, by linarith, h1, h1.ne', by ring, by linarith⟩
    · exfalso
      obtain ⟨r, r0, r1, hr⟩ := hf
      obtain ⟨s, s0, s1, hs⟩ := hg
      have hb : 0 ≤ b := by
        by_contra hb
        have := mul_nonpos_of_nonpos_of_nonneg (not_le.1 hb).le r0
        linarith
      have hd : 0 ≤ d := by
        by_contra hd
        have := mul_nonpos_of_nonpos_of_nonneg (not_le.1 hd).le s0
        linarith
      have k1 := mul_le_mul_of_nonneg_left r1 hb
      have k2 := mul_le_mul_of_nonneg_left s1 hd
      have := hno 1 zero_le_one (le_refl _) (by linarith)
      linarith

/-- Where an affine function is not negative on `[0, 1]`. -/
theorem affine_interval {a b : K} (hf : ∃ r, 0 ≤ r ∧ r ≤ 1 ∧ 0 ≤ a + b * r) :
    ∃ l u, l ≤ u ∧ ∀ r, (0 ≤ r ∧ r ≤ 1 ∧ 0 ≤ a + b * r) ↔ l ≤ r ∧ r ≤ u := by
  obtain ⟨s, s0, s1, hs⟩ := hf
  rcases lt_trichotomy b 0 with hb | hb | hb
  · refine ⟨0, min 1 (a / -b), ?_, ?_⟩
    · refine le_min zero_le_one (div_nonneg ?_ (by linarith))
      have := mul_nonpos_of_nonpos_of_nonneg hb.le s0
      linarith
    · intro r
      rw [le_min_iff, le_div_iff₀ (by linarith)]
      constructor
      · rintro ⟨h0, h1, h2⟩; exact ⟨h0, h1, by linarith⟩
      · rintro ⟨h0, h1, h2⟩; exact ⟨h0, h1, by linarith⟩
  · subst hb
    refine ⟨0, 1, zero_le_one, fun r => ?_⟩
    constructor
    · rintro ⟨h0, h1, h2⟩; exact ⟨h0, h1⟩
    · rintro ⟨h0, h1⟩; exact ⟨h0, h1, by linarith⟩
  · refine ⟨max 0 (-a / b), 1, ?_, ?_⟩
    · refine max_le zero_le_one ?_
      rw [div_le_iff₀ hb]
      have := mul_le_mul_of_nonneg_left s1 hb.le
      linarith
    · intro r
      rw [max_le_iff, div_le_iff₀ hb]
      constructor
      · rintro ⟨h0, h1, h2⟩; exact ⟨⟨h0, by linarith⟩, h1⟩
      · rintro ⟨⟨h0, h1⟩, h2⟩; exact ⟨h0, h2, by linarith⟩

/-- Three intervals that meet pairwise have a common point. -/
theorem three_intervals {l u : Fin 3 → K} (h : ∀ j k, l j ≤ u k) : ∃ r, ∀ k, l k ≤ r ∧ r ≤ u k := by
  refine ⟨max (l 0) (max (l 1) (l 2)), forall_three.2 ⟨⟨?_, ?_⟩, ⟨?_, ?_⟩, ?_, ?_⟩⟩
  · exact le_max_left _ _
  · exact max_le (h _ _) (max_le (h _ _) (h _ _))
  · exact (le_max_left _ _).trans (le_max_right _ _)
  · exact max_le (h _ _) (max_le (h _ _) (h _ _))
  · exact (le_max_right _ _).trans (le_max_right _ _)
  · exact max_le (h _ _) (max_le (h _ _) (h _ _))

/-- The corner from which a side starts. -/
def corner (t0 t1 t2 : P2 K) (k : Fin 3) : P2 K :=
  match k with
  | 0 => t0
  | 1 => t1
  | 2 => t2

/-- The direction of a side. -/
def edge (t0 t1 t2 : P2 K) (k : Fin 3) : P2 K :=
  match k with
  | 0 => t1 - t0
  | 1 => t2 - t1
  | 2 => t0 - t2

theorem sideAt_eq (A B t0 t1 t2 : P2 K) (k : Fin 3) (r : K) : sideAt A B t0 t1 t2 k r =
    dot (leftNormal (edge t0 t1 t2 k)) (A - corner t0 t1 t2 k) +
      dot (leftNormal (edge t0 t1 t2 k)) (B - A) * r := by
  match k with
  | 0 => simp only [sideAt, area2, along_x, along_y, dot, leftNormal, edge, corner, P2.sub_x, P2.sub_y]; ring
  | 1 => simp only [sideAt, area2, along_x, along_y, dot, leftNormal, edge, corner, P2.sub_x, P2.sub_y]; ring
  | 2 => simp only [sideAt, area2, along_x, along_y, dot, leftNormal, edge, corner, P2.sub_x, P2.sub_y]; ring

theorem corners_inside {t0 t1 t2 : P2 K} (h : 0 < area2 t0 t1 t2) (k : Fin 3) :
    ∀ Y ∈ [t0, t1, t2], 0 ≤ dot (leftNormal (edge t0 t1 t2 k)) (Y - corner t0 t1 t2 k) := by
  have e1 : area2 t0 t1 t2 = (t1.x - t0.x) * (t2.y - t0.y) - (t1.y - t0.y) * (t2.x - t0.x) := rfl
  simp only [List.mem_cons, List.not_mem_nil, or_false, forall_eq_or_imp, forall_eq]
  match k with
  | 0 =>
    simp only [dot, leftNormal, edge, corner, P2.sub_x, P2.sub_y]
    exact ⟨by linarith, by linarith, by linarith⟩
  | 1 =>
    simp only [dot, leftNormal, edge, corner, P2.sub_x, P2.sub_y]
    exact ⟨by linarith, by linarith, by linarith⟩
  | 2 =>
    simp only [dot, leftNormal, edge, corner, P2.sub_x, P2.sub_y]
    exact ⟨by linarith, by linarith, by linarith⟩

/-- If no axis separates, there is a common point. -/
theorem not_apart_common {A B t0 t1 t2 : P2 K} (h : 0 < area2 t0 t1 t2)
    (hn : ¬ AxisApart (leftNormal (B - A)) A B t0 t1 t2)
    (he : ∀ k, ¬ AxisApart (leftNormal (edge t0 t1 t2 k)) A B t0 t1 t2) :
    ∃ X, OnSegment A B X ∧ InTriangle t0 t1 t2 X := by
  have hsome : ∀ k, ∃ r, 0 ≤ r ∧ r ≤ 1 ∧ 0 ≤ dot (leftNormal (edge t0 t1 t2 k)) (A - corner t0 t1 t2 k) +
      dot (leftNormal (edge t0 t1 t2 k)) (B - A) * r := by
    intro k
    by_contra hc
    push Not at hc
    apply he k
    left
    have c0 := hc 0 (le_refl _) zero_le_one
    have c1 := hc 1 zero_le_one (le_refl _)
    have hY := corners_inside h k
    intro X hX Y hY'
    have := hY Y hY'
    simp only [dot, P2.sub_x, P2.sub_y] at this c0 c1 ⊢
    simp only [List.mem_cons, List.not_mem_nil, or_false] at hX
    rcases hX with rfl | rfl <;> linarith
  have hint := fun k => affine_interval (hsome k)
  choose l u hlu hi using hint
  obtain ⟨r, hr⟩ : ∃ r, ∀ k, l k ≤ r ∧ r ≤ u k := by
    apply three_intervals
    intro j k
    by_contra hjk
    push Not at hjk
    obtain ⟨p, q, hp, hq, hb, hz, hneg⟩ := affine_pair (hsome j) (hsome k) (by
      intro r h0 h1 hr
      by_contra hc
      have m1 := (hi j r).1 ⟨h0, h1, hr⟩
      have m2 := (hi k r).1 ⟨h0, h1, not_lt.1 hc⟩
      linarith [m1.1, m2.2])
    apply hn
    set w : P2 K := p • leftNormal (edge t0 t1 t2 j) + q • leftNormal (edge t0 t1 t2 k) with hw
    have hwv : dot w (B - A) = 0 := by
      rw [← hz, hw]; simp only [dot, P2.add_x, P2.add_y, P2.smul_x, P2.smul_y, P2.sub_x, P2.sub_y]; ring
    have hv : 0 < (B.x - A.x) ^ 2 + (B.y - A.y) ^ 2 := by
      by_contra hc
      have hx : B.x - A.x = 0 := by nlinarith [sq_nonneg (B.x - A.x), sq_nonneg (B.y - A.y)]
      have hy : B.y - A.y = 0 := by nlinarith [sq_nonneg (B.x - A.x), sq_nonneg (B.y - A.y)]
      apply hb
      simp only [dot, P2.sub_x, P2.sub_y, hx, hy]; ring
    have hYA : ∀ Y ∈ [t0, t1, t2], 0 < dot w (Y - A) := by
      intro Y hY
      have k1 := mul_nonneg hp.le (corners_inside h j Y hY)
      have k2 := mul_nonneg hq.le (corners_inside h k Y hY)
      rw [hw]
      simp only [dot, P2.add_x, P2.add_y, P2.smul_x, P2.smul_y, P2.sub_x, P2.sub_y] at k1 k2 hneg ⊢
      linarith
    have hpar : ∀ Y : P2 K, ((B.x - A.x) ^ 2 + (B.y - A.y) ^ 2) * dot w (Y - A) = dot w (leftNormal (B - A)) *
        (dot (leftNormal (B - A)) Y - dot (leftNormal (B - A)) A) := by
      intro Y
      simp only [dot, leftNormal, P2.sub_x, P2.sub_y] at hwv ⊢
      linear_combination ((B.x - A.x) * (Y.x - A.x) + (B.y - A.y) * (Y.y - A.y)) * hwv
    have hBA : dot (leftNormal (B - A)) B = dot (leftNormal (B - A)) A := by
      simp only [dot, leftNormal, P2.sub_x, P2.sub_y]; ring
    rcases lt_or_ge 0 (dot w (leftNormal (B - A))) with hc | hc
    · left
      intro X hX Y hY
      have hXA : dot (leftNormal (B - A)) X = dot (leftNormal (B - A)) A := by
        simp only [List.mem_cons, List.not_mem_nil, or_false] at hX
        rcases hX with rfl | rfl
        · rfl
        · exact hBA
      have := mul_pos hv (hYA Y hY)
      rw [hpar] at this
      rw [hXA]
      exact sub_pos.1 ((mul_pos_iff_of_pos_left hc).1 this)
    · right
      intro X hX Y hY
      have hXA : dot (leftNormal (B - A)) X = dot (leftNormal (B - A)) A := by
        simp only [List.mem_cons, List.not_mem_nil, or_false] at hX
        rcases hX with rfl | rfl
        · rfl
        · exact hBA
      have := mul_pos hv (hYA Y hY)
      rw [hpar] at this
      rw [hXA]
      by_contra hcc
      have := mul_nonpos_of_nonpos_of_nonneg hc (sub_nonneg.2 (not_lt.1 hcc))
      linarith
  refine ⟨along A B r, ?_, ?_⟩
  · obtain ⟨h0, h1, -⟩ := (hi 0 r).2 (hr 0)
    exact ⟨r, h0, h1, rfl⟩
  · rw [inTriangle_iff h]
    have : ∀ k, 0 ≤ sideAt A B t0 t1 t2 k r := by
      intro k; rw [sideAt_eq]; exact ((hi k r).2 (hr k)).2.2
    exact forall_three.1 this

theorem inTriangle_swap {t0 t1 t2 X : P2 K} : InTriangle t0 t1 t2 X ↔ InTriangle t0 t2 t1 X := by
  have : ∀ {t0 t1 t2 : P2 K}, InTriangle t0 t1 t2 X → InTriangle t0 t2 t1 X := by
    rintro t0 t1 t2 ⟨a, b, c, ha, hb, hc, hs, hX⟩
    refine ⟨a, c, b, ha, hc, hb, by linarith, ?_⟩
    rw [hX]; ext
    · simp only [P2.add_x, P2.smul_x]; ring
    · simp only [P2.add_y, P2.smul_y]; ring
  exact ⟨this, this⟩

theorem apart_perm {n m A B t0 t1 t2 : P2 K} (hm : ∀ X, dot m X = -dot n X) (h : AxisApart m A B t0 t2 t1) :
    AxisApart n A B t0 t1 t2 := by
  rcases h with h | h
  · right
    intro X hX Y hY
    have := h X hX Y (by simp only [List.mem_cons, List.not_mem_nil, or_false] at hY ⊢; tauto)
    rw [hm, hm] at this; linarith
  · left
    intro X hX Y hY
    have := h X hX Y (by simp only [List.mem_cons, List.not_mem_nil, or_false] at hY ⊢; tauto)
    rw [hm, hm] at this; linarith

theorem apart_swap {n A B t0 t1 t2 : P2 K} (h : AxisApart n A B t0 t2 t1) : AxisApart n A B t0 t1 t2 := by
  rcases h with h | h
  · left
    intro X hX Y hY
    exact h X hX Y (by simp only [List.mem_cons, List.not_mem_nil, or_false] at hY ⊢; tauto)
  · right
    intro X hX Y hY
    exact h X hX Y (by simp only [List.mem_cons, List.not_mem_nil, or_false] at hY ⊢; tauto)

theorem not_apart_common' {A B t0 t1 t2 : P2 K} (h : area2 t0 t1 t2 ≠ 0)
    (hn : ¬ AxisApart (leftNormal (B - A)) A B t0 t1 t2)
    (he : ∀ k, ¬ AxisApart (leftNormal (edge t0 t1 t2 k)) A B t0 t1 t2) :
    ∃ X, OnSegment A B X ∧ InTriangle t0 t1 t2 X := by
  rcases lt_or_gt_of_ne h with hneg | hpos
  · have hs : 0 < area2 t0 t2 t1 := by
      have : area2 t0 t2 t1 = -area2 t0 t1 t2 := by unfold area2; ring
      linarith
    obtain ⟨X, h1, h2⟩ := not_apart_common (A := A) (B := B) hs (fun hc => hn (apart_swap hc)) (by
      rw [forall_three] at he ⊢
      refine ⟨fun hc => he.2.2 (apart_perm ?_ hc), fun hc => he.2.1 (apart_perm ?_ hc),
        fun hc => he.1 (apart_perm ?_ hc)⟩
      all_goals
        intro X
        simp only [dot, leftNormal, edge, P2.sub_x, P2.sub_y]; ring)
    exact ⟨X, h1, inTriangle_swap.2 h2⟩
  · exact not_apart_common hpos hn he

theorem segmentTriangleTest_iff {big : K} {A B t0 t1 t2 : P2 K}
    (hb : ∀ v ∈ [B - A, t1 - t0, t2 - t1, t0 - t2], ∀ X ∈ [A, B, t0, t1, t2],
      -big ≤ dot (leftNormal v) X ∧ dot (leftNormal v) X ≤ big) :
    segmentTriangleTest big A B t0 t1 t2 = true ↔ ¬ AxisApart (leftNormal (B - A)) A B t0 t1 t2 ∧
      ∀ k, ¬ AxisApart (leftNormal (edge t0 t1 t2 k)) A B t0 t1 t2 := by
  have h0 := axisSeparates_iff (hb (B - A) (by simp))
  have h1 := axisSeparates_iff (hb (t1 - t0) (by simp))
  have h2 := axisSeparates_iff (hb (t2 - t1) (by simp))
  have h3 := axisSeparates_iff (hb (t0 - t2) (by simp))
  rw [forall_three]
  simp only [edge, AxisApart, ← h0, ← h1, ← h2, ← h3]
  unfold segmentTriangleTest
  split_ifs <;> simp_all

end Geometrix
