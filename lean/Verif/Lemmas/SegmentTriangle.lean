import Verif.Model.SegmentTriangle
import Verif.Lemmas.Convex
import Verif.Lemmas.PolygonContainment
import Verif.Lemmas.CohenSutherland
import Verif.Props.SegmentIntersection
import Mathlib.Data.Finset.Max
import Mathlib.Data.Fintype.Basic

/-!
# Lemmas about the intersection of a segment and a triangle
-/

set_option linter.unusedSectionVars false

namespace Geometrix

open Spec

variable {K : Type*} [Field K] [LinearOrder K] [IsStrictOrderedRing K]

/-! ## One variable -/

/-- Where three affine functions first are all not negative, one of them vanishes. -/
theorem first_entry {α β : Fin 3 → K} {x : K} (hx : 0 ≤ x) (hin : ∀ k, 0 ≤ α k + β k * x)
    (hout : ∃ k, α k < 0) :
    ∃ u, 0 ≤ u ∧ u ≤ x ∧ (∀ k, 0 ≤ α k + β k * u) ∧ ∃ k, α k + β k * u = 0 := by
  have hpos : ∀ k, α k < 0 → 0 < x ∧ 0 < β k := by
    intro k hk
    have h1 := hin k
    have hx' : 0 < x := by
      rcases hx.eq_or_lt with h | h
      · rw [← h] at h1; linarith
      · exact h
    refine ⟨hx', ?_⟩
    by_contra hb
    have : β k * x ≤ 0 := mul_nonpos_of_nonpos_of_nonneg (not_lt.1 hb) hx
    linarith
  obtain ⟨k0, hk0⟩ := hout
  obtain ⟨k, hkm, hmax⟩ := Finset.exists_max_image (Finset.univ.filter (fun k => α k < 0)) (fun k => -α k / β k)
    ⟨k0, by simpa using hk0⟩
  simp only [Finset.mem_filter, Finset.mem_univ, true_and] at hkm hmax
  obtain ⟨hx', hb⟩ := hpos k hkm
  have hu0 : 0 ≤ -α k / β k := div_nonneg (by linarith) hb.le
  have hux : -α k / β k ≤ x := by
    rw [div_le_iff₀ hb]; linarith [hin k]
  refine ⟨-α k / β k, hu0, hux, ?_, k, by field_simp; ring⟩
  intro j
  by_cases hj : α j < 0
  · have h1 := hmax j hj
    have hbj := (hpos j hj).2
    rw [div_le_iff₀ hbj] at h1
    linarith
  · push Not at hj
    by_cases hbj : 0 ≤ β j
    · have := mul_nonneg hbj hu0; linarith
    · have := mul_le_mul_of_nonpos_left hux (not_le.1 hbj).le
      linarith [hin j]

/-- A value of an affine function that is not negative on both sides of a zero vanishes there. -/
theorem affine_flat {a b p q r : K} (hpq : p < q) (hqr : q < r) (hp : 0 ≤ a + b * p) (hr : 0 ≤ a + b * r)
    (hq : a + b * q = 0) : b = 0 ∧ a = 0 := by
  have hb : b = 0 := by
    apply le_antisymm
    · by_contra h
      have := mul_lt_mul_of_pos_left hpq (not_le.1 h)
      linarith
    · by_contra h
      have := mul_lt_mul_of_neg_left hqr (not_le.1 h)
      linarith
  subst hb
  exact ⟨rfl, by linarith⟩

/-! ## The sides -/

/-- The points of a side of a triangle. -/
theorem side_iff {A B C p : P2 K} (h : 0 < area2 A B C) :
    OnSegment A B p ↔ (0 ≤ area2 A B p ∧ 0 ≤ area2 B C p ∧ 0 ≤ area2 C A p) ∧ area2 A B p = 0 := by
  constructor
  · rintro ⟨t, h0, h1, rfl⟩
    have e1 : area2 A B (A + t • (B - A)) = 0 := by
      simp only [area2, P2.add_x, P2.add_y, P2.smul_x, P2.smul_y, P2.sub_x, P2.sub_y]; ring
    have e2 : area2 B C (A + t • (B - A)) = (1 - t) * area2 A B C := by
      simp only [area2, P2.add_x, P2.add_y, P2.smul_x, P2.smul_y, P2.sub_x, P2.sub_y]; ring
    have e3 : area2 C A (A + t • (B - A)) = t * area2 A B C := by
      simp only [area2, P2.add_x, P2.add_y, P2.smul_x, P2.smul_y, P2.sub_x, P2.sub_y]; ring
    rw [e1, e2, e3]
    exact ⟨⟨le_refl _, mul_nonneg (by linarith) h.le, mul_nonneg h0 h.le⟩, rfl⟩
  · rintro ⟨⟨h1, h2, h3⟩, h0⟩
    have hne := h.ne'
    have hsum : area2 B C p + area2 C A p + area2 A B p = area2 A B C := by unfold area2; ring
    refine ⟨area2 C A p / area2 A B C, div_nonneg h3 h.le, ?_, ?_⟩
    · rw [div_le_one h]; linarith
    · ext
      · simp only [P2.add_x, P2.smul_x, P2.sub_x]
        rw [div_mul_eq_mul_div, ← sub_eq_iff_eq_add', eq_div_iff hne]
        have : (p.x - A.x) * area2 A B C - area2 C A p * (B.x - A.x) = (C.x - A.x) * area2 A B p := by
          unfold area2; ring
        rw [h0] at this; linarith
      · simp only [P2.add_y, P2.smul_y, P2.sub_y]
        rw [div_mul_eq_mul_div, ← sub_eq_iff_eq_add', eq_div_iff hne]
        have : (p.y - A.y) * area2 A B C - area2 C A p * (B.y - A.y) = (C.y - A.y) * area2 A B p := by
          unfold area2; ring
        rw [h0] at this; linarith

/-- Points of the segment with different parameters differ. -/
theorem along_inj {A B : P2 K} (h : A ≠ B) {s t : K} (e : along A B s = along A B t) : s = t := by
  by_contra hst
  have hne : s - t ≠ 0 := sub_ne_zero.2 hst
  have ex := congrArg P2.x e
  have ey := congrArg P2.y e
  rw [along_x, along_x] at ex
  rw [along_y, along_y] at ey
  have hx : (s - t) * (B.x - A.x) = 0 := by linear_combination ex
  have hy : (s - t) * (B.y - A.y) = 0 := by linear_combination ey
  rcases mul_eq_zero.1 hx with h1 | h1
  · exact hne h1
  rcases mul_eq_zero.1 hy with h2 | h2
  · exact hne h2
  exact h (P2.ext (by linarith) (by linarith))

theorem onSegment_along {A B : P2 K} (h : A ≠ B) {r : K} : OnSegment A B (along A B r) ↔ 0 ≤ r ∧ r ≤ 1 := by
  constructor
  · rintro ⟨t, h0, h1, e⟩
    have := along_inj h (s := r) (t := t) e
    subst this; exact ⟨h0, h1⟩
  · rintro ⟨h0, h1⟩; exact ⟨r, h0, h1, rfl⟩

theorem onSegment_along_along {A B : P2 K} (h : A ≠ B) {a b r : K} (hab : a ≤ b) :
    OnSegment (along A B a) (along A B b) (along A B r) ↔ a ≤ r ∧ r ≤ b := by
  constructor
  · rintro ⟨t, h0, h1, e⟩
    have e' : along A B r = along A B (a + t * (b - a)) := by
      rw [e]; ext
      · simp only [P2.add_x, P2.smul_x, P2.sub_x, along_x]; ring
      · simp only [P2.add_y, P2.smul_y, P2.sub_y, along_y]; ring
    have := along_inj h e'
    subst this
    have h2 := mul_nonneg h0 (sub_nonneg.2 hab)
    have h3 := mul_nonneg (sub_nonneg.2 h1) (sub_nonneg.2 hab)
    exact ⟨by linarith, by nlinarith⟩
  · rintro ⟨h0, h1⟩
    rcases hab.eq_or_lt with he | hl
    · subst he
      have : r = a := le_antisymm h1 h0
      subst this
      refine ⟨0, le_refl _, zero_le_one, ?_⟩
      ext <;> simp
    · have hp : 0 < b - a := sub_pos.2 hl
      refine ⟨(r - a) / (b - a), div_nonneg (by linarith) hp.le, ?_, ?_⟩
      · rw [div_le_one hp]; linarith
      · have hk : (r - a) / (b - a) * (b - a) = r - a := div_mul_cancel₀ _ hp.ne'
        ext
        · simp only [P2.add_x, P2.smul_x, P2.sub_x, along_x]; linear_combination -(B.x - A.x) * hk
        · simp only [P2.add_y, P2.smul_y, P2.sub_y, along_y]; linear_combination -(B.y - A.y) * hk

theorem onSegment_of_along {A B P Q X : P2 K} (hP : ∃ p, P = along A B p) (hQ : ∃ q, Q = along A B q)
    (hX : OnSegment P Q X) : ∃ r, X = along A B r := by
  obtain ⟨p, rfl⟩ := hP
  obtain ⟨q, rfl⟩ := hQ
  obtain ⟨t, -, -, rfl⟩ := hX
  refine ⟨p + t * (q - p), ?_⟩
  ext
  · simp only [P2.add_x, P2.smul_x, P2.sub_x, along_x]; ring
  · simp only [P2.add_y, P2.smul_y, P2.sub_y, along_y]; ring

theorem inside_of_on {A B P : P2 K} (h : OnSegment A B P) (h1 : P ≠ A) (h2 : P ≠ B) : InsideSegment A B P := by
  obtain ⟨t, h0, hl, rfl⟩ := h
  refine ⟨t, lt_of_le_of_ne h0 ?_, lt_of_le_of_ne hl ?_, rfl⟩
  · rintro rfl; exact h1 (by ext <;> simp)
  · rintro rfl; exact h2 (by ext <;> simp)

/-- What one call adds: nothing, or the two ends of the common part (which may agree). -/
theorem hits_spec {A B C D : P2 K} (hAB : A ≠ B) (hCD : C ≠ D) :
    ∃ r pts, segSegIntersection Cmp.direct A B C D = .ok (r, pts) ∧
      ((hitPoints r pts = [] ∧ ∀ s, ¬ Common A B C D (along A B s)) ∨
        ∃ a b, a ≤ b ∧ (∀ s, Common A B C D (along A B s) ↔ a ≤ s ∧ s ≤ b) ∧
          ∀ X, X ∈ hitPoints r pts ↔ X = along A B a ∨ X = along A B b) := by
  obtain ⟨r, pts, hrun, hc⟩ := C09_segment_segment A B C D hAB hCD
  refine ⟨r, pts, hrun, ?_⟩
  have hsome : r ≠ .nonCrossing → ∃ P, Common A B C D P := by
    intro h; by_contra hn; exact h (hc.nonCrossing.2 hn)
  have hone : (r = .crossing ∨ r = .endpoint) → ∃ a b, a ≤ b ∧
      (∀ s, Common A B C D (along A B s) ↔ a ≤ s ∧ s ≤ b) ∧
          ∀ X, X ∈ hitPoints r pts ↔ X = along A B a ∨ X = along A B b := by
    intro hr
    obtain ⟨P, rfl, hP⟩ := hc.point hr
    obtain ⟨⟨t, h0, h1, rfl⟩, hPD⟩ := (hP P).2 rfl
    refine ⟨t, t, le_refl _, ?_, ?_⟩
    · intro s
      rw [hP]
      constructor
      · intro e
        have := along_inj hAB (s := s) (t := t) e
        subst this; exact ⟨le_refl _, le_refl _⟩
      · rintro ⟨ha, hb⟩
        rw [le_antisymm hb ha]; rfl
    · intro X
      rcases hr with rfl | rfl <;> simp [hitPoints, along]
  have hgood : r ≠ .nonCrossing → r = .overlapping ∨ r = .crossing ∨ r = .endpoint := by
    intro h
    obtain ⟨P, hPA, hPD⟩ := hsome h
    by_cases hp : Parallel (B - A) (D - C)
    · have hon : OnLine A B C ∧ OnLine A B D := by
        have hv : B - A ≠ 0 := sub_ne_zero_P2 hAB
        obtain ⟨k, hk⟩ : ∃ k : K, D - C = k • (B - A) := by
          rcases hp with ⟨k, hk⟩ | ⟨k, hk⟩
          · exact ⟨k, hk⟩
          · have hk0 : k ≠ 0 := by
              rintro rfl
              exact hv (by rw [hk]; ext <;> simp)
            refine ⟨k⁻¹, ?_⟩
            rw [hk]; ext
            · simp only [P2.smul_x]; field_simp
            · simp only [P2.smul_y]; field_simp
        obtain ⟨t, -, -, ht⟩ := hPA
        obtain ⟨u, -, -, hu⟩ := hPD
        have ex := congrArg P2.x hk
        have ey := congrArg P2.y hk
        have tx := congrArg P2.x (ht.symm.trans hu)
        have ty := congrArg P2.y (ht.symm.trans hu)
        simp only [P2.add_x, P2.add_y, P2.smul_x, P2.smul_y, P2.sub_x, P2.sub_y] at ex ey tx ty
        refine ⟨⟨t - u * k, ?_⟩, ⟨t + (1 - u) * k, ?_⟩⟩
        · ext
          · simp only [P2.add_x, P2.smul_x, P2.sub_x]; linear_combination -tx - u * ex
          · simp only [P2.add_y, P2.smul_y, P2.sub_y]; linear_combination -ty - u * ey
        · ext
          · simp only [P2.add_x, P2.smul_x, P2.sub_x]; linear_combination -tx + (1 - u) * ex
          · simp only [P2.add_y, P2.smul_y, P2.sub_y]; linear_combination -ty + (1 - u) * ey
      exact Or.inl (hc.overlapping.2 ⟨hon.1, hon.2, P, hPA, hPD⟩)
    · by_cases he : P = A ∨ P = B ∨ P = C ∨ P = D
      · exact Or.inr (Or.inr (hc.endpoint.2 ⟨hp, P, ⟨hPA, hPD⟩, he⟩))
      · push Not at he
        obtain ⟨n1, n2, n3, n4⟩ := he
        refine Or.inr (Or.inl (hc.crossing.2 ⟨P, inside_of_on hPA n1 n2, inside_of_on hPD n3 n4, ?_⟩))
        · rintro Q ⟨hQA, hQD⟩
          by_contra hQP
          obtain ⟨t, -, -, ht⟩ := hPA
          obtain ⟨u, -, -, hu⟩ := hPD
          obtain ⟨t', -, -, ht'⟩ := hQA
          obtain ⟨u', -, -, hu'⟩ := hQD
          have htt : t' - t ≠ 0 := by
            intro e
            have : t' = t := by linarith
            subst this; exact hQP (ht'.trans ht.symm)
          apply hp
          right
          refine ⟨(u' - u) / (t' - t), ?_⟩
          have e1 := ht.symm.trans hu
          have e2 := ht'.symm.trans hu'
          have x1 := congrArg P2.x e1
          have y1 := congrArg P2.y e1
          have x2 := congrArg P2.x e2
          have y2 := congrArg P2.y e2
          simp only [P2.add_x, P2.add_y, P2.smul_x, P2.smul_y, P2.sub_x, P2.sub_y] at x1 y1 x2 y2
          ext
          · simp only [P2.smul_x, P2.sub_x]
            rw [div_mul_eq_mul_div, eq_div_iff htt]; linear_combination x2 - x1
          · simp only [P2.smul_y, P2.sub_y]
            rw [div_mul_eq_mul_div, eq_div_iff htt]; linear_combination y2 - y1
  cases r with
  | nonCrossing =>
    left
    have := hc.nonCrossing.1 rfl
    exact ⟨rfl, fun s hs => this ⟨_, hs⟩⟩
  | crossing => exact Or.inr (hone (Or.inl rfl))
  | endpoint => exact Or.inr (hone (Or.inr rfl))
  | invalid => simp at hgood
  | rightLeft => simp at hgood
  | leftRight => simp at hgood
  | overlapping =>
    right
    obtain ⟨P, Q, rfl, hX⟩ := hc.part rfl
    obtain ⟨⟨p, hp0, hp1, hpe⟩, -⟩ := (hX P).2 ⟨0, le_refl _, zero_le_one, by ext <;> simp⟩
    obtain ⟨⟨q, hq0, hq1, hqe⟩, -⟩ := (hX Q).2 ⟨1, zero_le_one, le_refl _, by ext <;> simp⟩
    have hP : P = along A B p := hpe
    have hQ : Q = along A B q := hqe
    subst hP; subst hQ
    rcases le_total p q with h | h
    · refine ⟨p, q, h, ?_, ?_⟩
      · intro s; rw [hX, onSegment_along_along hAB h]
      · intro X; simp [hitPoints]
    · refine ⟨q, p, h, ?_, ?_⟩
      · intro s; rw [hX, onSegment_swap, onSegment_along_along hAB h]
      · intro X; simp [hitPoints, or_comm]

/-- Inserting several points. -/
theorem foldInsert_spec (l : List (P2 K)) : ∀ {S : List (P2 K)}, S.Pairwise LexLT →
    (l.foldl (setInsert (lexCompare Cmp.direct)) S).Pairwise LexLT ∧
      ∀ y, y ∈ l.foldl (setInsert (lexCompare Cmp.direct)) S ↔ y ∈ l ∨ y ∈ S := by
  induction l with
  | nil => intro S hS; exact ⟨hS, by simp⟩
  | cons x l ih =>
    intro S hS
    obtain ⟨h1, h2⟩ := lexInsert_spec hS x
    obtain ⟨h3, h4⟩ := ih h1
    refine ⟨h3, fun y => ?_⟩
    rw [List.foldl_cons, h4, h2, List.mem_cons]; tauto

/-- One side of the triangle. -/
theorem triangleSide_spec {A B C D : P2 K} (hAB : A ≠ B) (hCD : C ≠ D) {S : List (P2 K)} (hS : S.Pairwise LexLT) :
    ∃ S', triangleSide Cmp.direct A B C D S = .ok S' ∧ S'.Pairwise LexLT ∧
      (((∀ X, X ∈ S' ↔ X ∈ S) ∧ ∀ s, ¬ Common A B C D (along A B s)) ∨
        ∃ a b, a ≤ b ∧ (∀ s, Common A B C D (along A B s) ↔ a ≤ s ∧ s ≤ b) ∧
          ∀ X, X ∈ S' ↔ (X = along A B a ∨ X = along A B b) ∨ X ∈ S) := by
  obtain ⟨r, pts, hrun, h⟩ := hits_spec hAB hCD
  obtain ⟨h1, h2⟩ := foldInsert_spec (hitPoints r pts) hS
  refine ⟨_, by simp only [triangleSide, hrun], h1, ?_⟩
  rcases h with ⟨he, hn⟩ | ⟨a, b, hab, hc, hm⟩
  · left; exact ⟨fun X => by rw [h2, he]; simp, hn⟩
  · right; exact ⟨a, b, hab, hc, fun X => by rw [h2, hm]⟩

/-- The functions whose signs say on which side of the three edges a point of the segment is. -/
def sideAt (A B t0 t1 t2 : P2 K) (k : Fin 3) (r : K) : K :=
  match k with
  | 0 => area2 t0 t1 (along A B r)
  | 1 => area2 t1 t2 (along A B r)
  | 2 => area2 t2 t0 (along A B r)

theorem sideAt_affine (A B t0 t1 t2 : P2 K) (k : Fin 3) (r : K) : sideAt A B t0 t1 t2 k r =
    sideAt A B t0 t1 t2 k 0 + (sideAt A B t0 t1 t2 k 1 - sideAt A B t0 t1 t2 k 0) * r := by
  match k with
  | 0 => simp only [sideAt, area2, along_x, along_y]; ring
  | 1 => simp only [sideAt, area2, along_x, along_y]; ring
  | 2 => simp only [sideAt, area2, along_x, along_y]; ring

/-- What the set of points found satisfies, in parameters: `E k` are the parameters on side `k`. -/
structure Found (A B t0 t1 t2 : P2 K) (S : List (P2 K)) : Prop where
  nodup : S.Pairwise LexLT
  /-- the start of the segment, if it is in the triangle -/
  low : (∀ k, 0 ≤ sideAt A B t0 t1 t2 k 0) → along A B 0 ∈ S
  high : (∀ k, 0 ≤ sideAt A B t0 t1 t2 k 1) → along A B 1 ∈ S
  side : ∀ k u, 0 ≤ u → u ≤ 1 → (∀ j, 0 ≤ sideAt A B t0 t1 t2 j u) → sideAt A B t0 t1 t2 k u = 0 →
    (∃ a, a ≤ u ∧ along A B a ∈ S) ∧ ∃ b, u ≤ b ∧ along A B b ∈ S
  only : ∀ X ∈ S, ∃ q, X = along A B q ∧ 0 ≤ q ∧ q ≤ 1 ∧ (∀ j, 0 ≤ sideAt A B t0 t1 t2 j q) ∧
    (q = 0 ∨ q = 1 ∨ ∃ k, sideAt A B t0 t1 t2 k q = 0 ∧
      ((∀ s, 0 ≤ s → s ≤ 1 → (∀ j, 0 ≤ sideAt A B t0 t1 t2 j s) → sideAt A B t0 t1 t2 k s = 0 → q ≤ s) ∨
        ∀ s, 0 ≤ s → s ≤ 1 → (∀ j, 0 ≤ sideAt A B t0 t1 t2 j s) → sideAt A B t0 t1 t2 k s = 0 → s ≤ q))

theorem Found.lower {A B t0 t1 t2 : P2 K} {S : List (P2 K)} (h : Found A B t0 t1 t2 S) {x : K} (h0 : 0 ≤ x)
    (h1 : x ≤ 1) (hx : ∀ k, 0 ≤ sideAt A B t0 t1 t2 k x) : ∃ a, a ≤ x ∧ along A B a ∈ S := by
  by_cases hz : ∀ k, 0 ≤ sideAt A B t0 t1 t2 k 0
  · exact ⟨0, h0, h.low hz⟩
  · push Not at hz
    obtain ⟨u, hu0, hux, hin, k, hk⟩ := first_entry (α := fun k => sideAt A B t0 t1 t2 k 0)
      (β := fun k => sideAt A B t0 t1 t2 k 1 - sideAt A B t0 t1 t2 k 0) h0
      (fun k => by rw [← sideAt_affine]; exact hx k) hz
    simp only [← sideAt_affine] at hin hk
    obtain ⟨⟨a, ha, hm⟩, -⟩ := h.side k u hu0 (hux.trans h1) hin hk
    exact ⟨a, ha.trans hux, hm⟩

theorem Found.upper {A B t0 t1 t2 : P2 K} {S : List (P2 K)} (h : Found A B t0 t1 t2 S) {x : K} (h0 : 0 ≤ x)
    (h1 : x ≤ 1) (hx : ∀ k, 0 ≤ sideAt A B t0 t1 t2 k x) : ∃ a, x ≤ a ∧ along A B a ∈ S := by
  by_cases hz : ∀ k, 0 ≤ sideAt A B t0 t1 t2 k 1
  · exact ⟨1, h1, h.high hz⟩
  · push Not at hz
    have hrev : ∀ k (w : K), sideAt A B t0 t1 t2 k 1 + (sideAt A B t0 t1 t2 k 0 - sideAt A B t0 t1 t2 k 1) * w =
        sideAt A B t0 t1 t2 k (1 - w) := by
      intro k w; rw [sideAt_affine A B t0 t1 t2 k (1 - w)]; ring
    obtain ⟨u, hu0, hux, hin, k, hk⟩ := first_entry (α := fun k => sideAt A B t0 t1 t2 k 1)
      (β := fun k => sideAt A B t0 t1 t2 k 0 - sideAt A B t0 t1 t2 k 1) (x := 1 - x) (by linarith)
      (fun k => by rw [hrev, sub_sub_cancel]; exact hx k) hz
    simp only [hrev] at hin hk
    obtain ⟨-, b, hb, hm⟩ := h.side k (1 - u) (by linarith) (by linarith) hin hk
    exact ⟨b, by linarith, hm⟩

/-- No point found lies strictly between two common points. -/
theorem Found.between {A B t0 t1 t2 : P2 K} {S : List (P2 K)} (hAB : A ≠ B) (h : Found A B t0 t1 t2 S) {p q r : K}
    (hp0 : 0 ≤ p) (hp : ∀ k, 0 ≤ sideAt A B t0 t1 t2 k p) (hq : along A B q ∈ S) (hr1 : r ≤ 1)
    (hr : ∀ k, 0 ≤ sideAt A B t0 t1 t2 k r) (hpq : p < q) (hqr : q < r) : False := by
  obtain ⟨q', he, hq0, hq1, -, hc⟩ := h.only _ hq
  have := along_inj hAB he
  subst this
  rcases hc with rfl | rfl | ⟨k, hk, hc⟩
  · linarith
  · linarith
  have hz : ∀ s, sideAt A B t0 t1 t2 k s = 0 := by
    have h1 := hp k
    have h2 := hr k
    rw [sideAt_affine] at h1 h2 hk
    obtain ⟨hb, ha⟩ := affine_flat hpq hqr h1 h2 hk
    intro s; rw [sideAt_affine, hb, ha]; ring
  rcases hc with hc | hc
  · have := hc p hp0 (by linarith) hp (hz p); linarith
  · have := hc r (by linarith) hr1 hr (hz r); linarith

/-- There are at most two points, and they delimit the common part. -/
theorem Found.answer {A B t0 t1 t2 : P2 K} {S : List (P2 K)} (hAB : A ≠ B) (h : Found A B t0 t1 t2 S) :
    (S = [] ∧ ∀ r, ¬ (0 ≤ r ∧ r ≤ 1 ∧ ∀ k, 0 ≤ sideAt A B t0 t1 t2 k r)) ∨
    (∃ p, S = [along A B p] ∧ ∀ r, (0 ≤ r ∧ r ≤ 1 ∧ ∀ k, 0 ≤ sideAt A B t0 t1 t2 k r) ↔ r = p) ∨
    ∃ p q, p ≠ q ∧ S = [along A B p, along A B q] ∧
      ∀ r, (0 ≤ r ∧ r ≤ 1 ∧ ∀ k, 0 ≤ sideAt A B t0 t1 t2 k r) ↔ min p q ≤ r ∧ r ≤ max p q := by
  have hconv : ∀ {p q r : K}, p ≤ r → r ≤ q → (∀ k, 0 ≤ sideAt A B t0 t1 t2 k p) →
      (∀ k, 0 ≤ sideAt A B t0 t1 t2 k q) → ∀ k, 0 ≤ sideAt A B t0 t1 t2 k r := by
    intro p q r h1 h2 hp hq k
    have e1 := hp k
    have e2 := hq k
    rw [sideAt_affine] at e1 e2 ⊢
    rcases le_total 0 (sideAt A B t0 t1 t2 k 1 - sideAt A B t0 t1 t2 k 0) with hb | hb
    · have := mul_le_mul_of_nonneg_left h1 hb; linarith
    · have := mul_le_mul_of_nonpos_left h2 hb; linarith
  have hne : ∀ {X Y : P2 K}, LexLT X Y → X ≠ Y := by
    rintro X Y hl rfl
    rcases hl with hl | ⟨-, hl⟩ <;> exact lt_irrefl _ hl
  match S, h with
  | [], h =>
    refine Or.inl ⟨rfl, ?_⟩
    rintro r ⟨h0, h1, hr⟩
    obtain ⟨a, -, hm⟩ := h.lower h0 h1 hr
    simp at hm
  | [X], h =>
    right; left
    obtain ⟨p, rfl, hp0, hp1, hp, -⟩ := h.only X (by simp)
    refine ⟨p, rfl, fun r => ⟨?_, ?_⟩⟩
    · rintro ⟨h0, h1, hr⟩
      obtain ⟨a, ha, hm⟩ := h.lower h0 h1 hr
      obtain ⟨b, hb, hm'⟩ := h.upper h0 h1 hr
      have e1 := along_inj hAB (List.mem_singleton.1 hm)
      have e2 := along_inj hAB (List.mem_singleton.1 hm')
      subst e1; subst e2; exact le_antisymm hb ha
    · rintro rfl; exact ⟨hp0, hp1, hp⟩
  | [X, Y], h =>
    right; right
    obtain ⟨p, rfl, hp0, hp1, hp, -⟩ := h.only X (by simp)
    obtain ⟨q, rfl, hq0, hq1, hq, -⟩ := h.only Y (by simp)
    have hpq : p ≠ q := by
      rintro rfl
      have := h.nodup
      simp only [List.pairwise_cons, List.mem_singleton, forall_eq] at this
      exact hne this.1 rfl
    refine ⟨p, q, hpq, rfl, fun r => ⟨?_, ?_⟩⟩
    · rintro ⟨h0, h1, hr⟩
      obtain ⟨a, ha, hm⟩ := h.lower h0 h1 hr
      obtain ⟨b, hb, hm'⟩ := h.upper h0 h1 hr
      simp only [List.mem_cons, List.not_mem_nil, or_false] at hm hm'
      constructor
      · rcases hm with e | e <;> have := along_inj hAB e <;> subst this
        · exact (min_le_left _ _).trans ha
        · exact (min_le_right _ _).trans ha
      · rcases hm' with e | e <;> have := along_inj hAB e <;> subst this
        · exact hb.trans (le_max_left _ _)
        · exact hb.trans (le_max_right _ _)
    · rintro ⟨h1, h2⟩
      rcases le_total p q with hl | hl
      · rw [min_eq_left hl] at h1; rw [max_eq_right hl] at h2
        exact ⟨hp0.trans h1, h2.trans hq1, hconv h1 h2 hp hq⟩
      · rw [min_eq_right hl] at h1; rw [max_eq_left hl] at h2
        exact ⟨hq0.trans h1, h2.trans hp1, hconv h1 h2 hq hp⟩
  | X :: Y :: Z :: S, h =>
    exfalso
    obtain ⟨p, rfl, hp0, hp1, hp, -⟩ := h.only X (by simp)
    obtain ⟨q, rfl, hq0, hq1, hq, -⟩ := h.only Y (by simp)
    obtain ⟨r, rfl, hr0, hr1, hr, -⟩ := h.only Z (by simp)
    have := h.nodup
    simp only [List.pairwise_cons, List.mem_cons, forall_eq_or_imp] at this
    obtain ⟨⟨l1, l2, -⟩, ⟨l3, -⟩, -⟩ := this
    have n1 : p ≠ q := by rintro rfl; exact hne l1 rfl
    have n2 : p ≠ r := by rintro rfl; exact hne l2 rfl
    have n3 : q ≠ r := by rintro rfl; exact hne l3 rfl
    have m1 : along A B p ∈ along A B p :: along A B q :: along A B r :: S := by simp
    have m2 : along A B q ∈ along A B p :: along A B q :: along A B r :: S := by simp
    have m3 : along A B r ∈ along A B p :: along A B q :: along A B r :: S := by simp
    rcases lt_or_gt_of_ne n1 with a | a <;> rcases lt_or_gt_of_ne n2 with b | b <;>
      rcases lt_or_gt_of_ne n3 with c | c
    · exact h.between hAB hp0 hp m2 hr1 hr a c
    · exact h.between hAB hp0 hp m3 hq1 hq b c
    · linarith
    · exact h.between hAB hr0 hr m1 hq1 hq b a
    · exact h.between hAB hq0 hq m1 hr1 hr a b
    · linarith
    · exact h.between hAB hq0 hq m3 hp1 hp c b
    · exact h.between hAB hr0 hr m2 hp1 hp c a

end Geometrix
