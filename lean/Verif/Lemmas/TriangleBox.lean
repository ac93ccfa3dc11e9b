import Verif.Lemmas.Mesh
import Verif.Lemmas.Box
import Verif.Lemmas.SeparatingAxis
import Verif.Lemmas.PolylineSplit
import Verif.Props.BoxIntersection

/-!
# Lemmas about the test of a triangle and a box
-/

set_option linter.unusedSectionVars false

namespace Geometrix
open Spec

/-- Three vertices relative to the centre of a box with these half widths are all beyond the same one of the two lines with
this normal that touch the box. -/
def BeyondAxis (n : P2 ℝ) (e0 e1 : ℝ) (v0 v1 v2 : P2 ℝ) : Prop :=
  (dot v0 n < -(e0 * |n.x| + e1 * |n.y|) ∧ dot v1 n < -(e0 * |n.x| + e1 * |n.y|) ∧
    dot v2 n < -(e0 * |n.x| + e1 * |n.y|)) ∨
  (e0 * |n.x| + e1 * |n.y| < dot v0 n ∧ e0 * |n.x| + e1 * |n.y| < dot v1 n ∧ e0 * |n.x| + e1 * |n.y| < dot v2 n)

/-- The normal of a side. -/
def sideNormal (d : P2 ℝ) : P2 ℝ := ⟨d.y, -d.x⟩

theorem axisApart_direct (p0 p1 p2 r : ℝ) : axisApart Cmp.direct p0 p1 p2 r = true ↔
    (p0 < -r ∧ p1 < -r ∧ p2 < -r) ∨ (r < p0 ∧ r < p1 ∧ r < p2) := by
  simp only [axisApart, Cmp.direct, Bool.or_eq_true, decide_eq_true_eq, gt_iff_lt, max_lt_iff, lt_min_iff]

theorem axisApart_absolute {e : ℝ} (he : 0 ≤ e) {p0 p1 p2 r : ℝ}
    (h : axisApart (Cmp.absolute e) p0 p1 p2 r = true) :
    (p0 < -r ∧ p1 < -r ∧ p2 < -r) ∨ (r < p0 ∧ r < p1 ∧ r < p2) := by
  rw [← axisApart_direct]
  simp only [axisApart, Cmp.direct, Cmp.absolute, Bool.or_eq_true, decide_eq_true_eq] at h ⊢
  rcases h with h | h
  · exact Or.inl (by linarith)
  · exact Or.inr (by linarith)

theorem normalize2_scaled {v u : P2 ℝ} (h : normalize2 v = .ok u) : ∃ k : ℝ, 0 < k ∧ u = k • v := by
  unfold normalize2 at h
  split_ifs at h with h0
  exact ⟨_, by have := Real.sqrt_nonneg (normSq v); positivity, (Except.ok.inj h).symm⟩

theorem normalize2_of_ne {v : P2 ℝ} (h : v ≠ 0) : ∃ u, normalize2 v = .ok u := by
  unfold normalize2
  rw [if_neg]
  · exact ⟨_, rfl⟩
  · intro h0
    exact h (normSq_eq_zero.1 ((Real.sqrt_eq_zero (by exact normSq_nonneg v)).1 h0))

theorem scaled_apart {k : ℝ} (hk : 0 < k) (d : P2 ℝ) (e0 e1 : ℝ) (v0 v1 v2 : P2 ℝ) :
    ((dot v0 ⟨(k • d).y, -(k • d).x⟩ < -(e0 * |dot ⟨1, 0⟩ (⟨(k • d).y, -(k • d).x⟩ : P2 ℝ)| +
        e1 * |dot ⟨0, 1⟩ (⟨(k • d).y, -(k • d).x⟩ : P2 ℝ)|) ∧
      dot v1 ⟨(k • d).y, -(k • d).x⟩ < -(e0 * |dot ⟨1, 0⟩ (⟨(k • d).y, -(k • d).x⟩ : P2 ℝ)| +
        e1 * |dot ⟨0, 1⟩ (⟨(k • d).y, -(k • d).x⟩ : P2 ℝ)|) ∧
      dot v2 ⟨(k • d).y, -(k • d).x⟩ < -(e0 * |dot ⟨1, 0⟩ (⟨(k • d).y, -(k • d).x⟩ : P2 ℝ)| +
        e1 * |dot ⟨0, 1⟩ (⟨(k • d).y, -(k • d).x⟩ : P2 ℝ)|)) ∨
     (e0 * |dot ⟨1, 0⟩ (⟨(k • d).y, -(k • d).x⟩ : P2 ℝ)| + e1 * |dot ⟨0, 1⟩ (⟨(k • d).y, -(k • d).x⟩ : P2 ℝ)| <
        dot v0 ⟨(k • d).y, -(k • d).x⟩ ∧
      e0 * |dot ⟨1, 0⟩ (⟨(k • d).y, -(k • d).x⟩ : P2 ℝ)| + e1 * |dot ⟨0, 1⟩ (⟨(k • d).y, -(k • d).x⟩ : P2 ℝ)| <
        dot v1 ⟨(k • d).y, -(k • d).x⟩ ∧
      e0 * |dot ⟨1, 0⟩ (⟨(k • d).y, -(k • d).x⟩ : P2 ℝ)| + e1 * |dot ⟨0, 1⟩ (⟨(k • d).y, -(k • d).x⟩ : P2 ℝ)| <
        dot v2 ⟨(k • d).y, -(k • d).x⟩)) ↔ BeyondAxis (sideNormal d) e0 e1 v0 v1 v2 := by
  have e : ∀ v : P2 ℝ, dot v ⟨(k • d).y, -(k • d).x⟩ = k * dot v (sideNormal d) := by
    intro v; simp only [dot, sideNormal, P2.smul_x, P2.smul_y]; ring
  have ex : e0 * |dot ⟨1, 0⟩ (⟨(k • d).y, -(k • d).x⟩ : P2 ℝ)| + e1 * |dot ⟨0, 1⟩ (⟨(k • d).y, -(k • d).x⟩ : P2 ℝ)| =
      k * (e0 * |(sideNormal d).x| + e1 * |(sideNormal d).y|) := by
    have h1 : dot ⟨1, 0⟩ (⟨(k • d).y, -(k • d).x⟩ : P2 ℝ) = k * (sideNormal d).x := by
      simp only [dot, sideNormal, P2.smul_x, P2.smul_y]; ring
    have h2 : dot ⟨0, 1⟩ (⟨(k • d).y, -(k • d).x⟩ : P2 ℝ) = k * (sideNormal d).y := by
      simp only [dot, sideNormal, P2.smul_x, P2.smul_y]; ring
    rw [h1, h2, abs_mul, abs_mul, abs_of_pos hk]; ring
  rw [ex, e, e, e]
  unfold BeyondAxis
  simp only [← mul_neg, mul_lt_mul_iff_right₀ hk]

theorem sideAxisApart_direct {d f : P2 ℝ} (hf : normalize2 d = .ok f) (e0 e1 : ℝ) (v0 v1 v2 : P2 ℝ) :
    sideAxisApart Cmp.direct v0 v1 v2 f e0 e1 = true ↔ BeyondAxis (sideNormal d) e0 e1 v0 v1 v2 := by
  obtain ⟨k, hk, rfl⟩ := normalize2_scaled hf
  unfold sideAxisApart
  dsimp only
  rw [axisApart_direct]
  exact scaled_apart hk d e0 e1 v0 v1 v2

theorem sideAxisApart_absolute {e : ℝ} (he : 0 ≤ e) {d f : P2 ℝ} (hf : normalize2 d = .ok f) {e0 e1 : ℝ}
    {v0 v1 v2 : P2 ℝ} (h : sideAxisApart (Cmp.absolute e) v0 v1 v2 f e0 e1 = true) :
    BeyondAxis (sideNormal d) e0 e1 v0 v1 v2 := by
  obtain ⟨k, hk, rfl⟩ := normalize2_scaled hf
  unfold sideAxisApart at h
  dsimp only at h
  exact (scaled_apart hk d e0 e1 v0 v1 v2).1 (axisApart_absolute he h)

/-- The centre of a box. -/
noncomputable def boxCentre (b : Box ℝ) : P2 ℝ := (1 / 2 : ℝ) • (b.lo + b.hi)

/-- The triangle and the box are apart along one of the five axes. -/
def SomeAxis (A B C : P2 ℝ) (b : Box ℝ) : Prop :=
  ∃ n ∈ [sideNormal (A - B), sideNormal (B - C), sideNormal (C - A), (⟨1, 0⟩ : P2 ℝ), ⟨0, 1⟩],
    BeyondAxis n ((b.hi.x - b.lo.x) * (1 / 2)) ((b.hi.y - b.lo.y) * (1 / 2)) (A - boxCentre b) (B - boxCentre b)
      (C - boxCentre b)

theorem centred_sub (A B c : P2 ℝ) : A - c - (B - c) = A - B := by ext <;> simp

theorem apart_x (e0 e1 : ℝ) (v0 v1 v2 : P2 ℝ) : BeyondAxis ⟨1, 0⟩ e0 e1 v0 v1 v2 ↔
    (v0.x < -e0 ∧ v1.x < -e0 ∧ v2.x < -e0) ∨ (e0 < v0.x ∧ e0 < v1.x ∧ e0 < v2.x) := by
  simp [BeyondAxis, dot]

theorem apart_y (e0 e1 : ℝ) (v0 v1 v2 : P2 ℝ) : BeyondAxis ⟨0, 1⟩ e0 e1 v0 v1 v2 ↔
    (v0.y < -e1 ∧ v1.y < -e1 ∧ v2.y < -e1) ∨ (e1 < v0.y ∧ e1 < v1.y ∧ e1 < v2.y) := by
  simp [BeyondAxis, dot]

theorem triangleBox_direct {A B C : P2 ℝ} (hAB : A ≠ B) (hBC : B ≠ C) (hCA : C ≠ A) (b : Box ℝ) :
    ∃ r, triangleBox Cmp.direct A B C b = .ok r ∧ (r = false ↔ SomeAxis A B C b) := by
  obtain ⟨f0, h0⟩ := normalize2_of_ne (fun h => hAB (sub_eq_zero_P2.1 h).symm)
  obtain ⟨f1, h1⟩ := normalize2_of_ne (fun h => hBC (sub_eq_zero_P2.1 h).symm)
  obtain ⟨f2, h2⟩ := normalize2_of_ne (fun h => hCA (sub_eq_zero_P2.1 h).symm)
  have k0 := sideAxisApart_direct h0 ((b.hi.x - b.lo.x) * (1 / 2)) ((b.hi.y - b.lo.y) * (1 / 2)) (A - boxCentre b)
    (B - boxCentre b) (C - boxCentre b)
  have k1 := sideAxisApart_direct h1 ((b.hi.x - b.lo.x) * (1 / 2)) ((b.hi.y - b.lo.y) * (1 / 2)) (A - boxCentre b)
    (B - boxCentre b) (C - boxCentre b)
  have k2 := sideAxisApart_direct h2 ((b.hi.x - b.lo.x) * (1 / 2)) ((b.hi.y - b.lo.y) * (1 / 2)) (A - boxCentre b)
    (B - boxCentre b) (C - boxCentre b)
  have k3 : axisApart Cmp.direct (dot (A - boxCentre b) ⟨1, 0⟩) (dot (B - boxCentre b) ⟨1, 0⟩)
      (dot (C - boxCentre b) ⟨1, 0⟩) ((b.hi.x - b.lo.x) * (1 / 2)) = true ↔
      BeyondAxis ⟨1, 0⟩ ((b.hi.x - b.lo.x) * (1 / 2)) ((b.hi.y - b.lo.y) * (1 / 2)) (A - boxCentre b) (B - boxCentre b)
        (C - boxCentre b) := by
    rw [axisApart_direct]; simp [BeyondAxis]
  have k4 : axisApart Cmp.direct (dot (A - boxCentre b) ⟨0, 1⟩) (dot (B - boxCentre b) ⟨0, 1⟩)
      (dot (C - boxCentre b) ⟨0, 1⟩) ((b.hi.y - b.lo.y) * (1 / 2)) = true ↔
      BeyondAxis ⟨0, 1⟩ ((b.hi.x - b.lo.x) * (1 / 2)) ((b.hi.y - b.lo.y) * (1 / 2)) (A - boxCentre b) (B - boxCentre b)
        (C - boxCentre b) := by
    rw [axisApart_direct]; simp [BeyondAxis]
  have hc : (1 / 2 : ℝ) • (b.lo + b.hi) = boxCentre b := rfl
  unfold triangleBox
  simp only [hc, centred_sub, h0, h1, h2]
  unfold SomeAxis
  simp only [List.mem_cons, List.not_mem_nil, or_false, exists_eq_or_imp, exists_eq_left]
  split_ifs with c0 c1 c2 c3 c4
  · exact ⟨false, rfl, iff_of_true rfl (Or.inl (k0.1 c0))⟩
  · exact ⟨false, rfl, iff_of_true rfl (Or.inr (Or.inl (k1.1 c1)))⟩
  · exact ⟨false, rfl, iff_of_true rfl (Or.inr (Or.inr (Or.inl (k2.1 c2))))⟩
  · exact ⟨false, rfl, iff_of_true rfl (Or.inr (Or.inr (Or.inr (Or.inl (k3.1 c3)))))⟩
  · exact ⟨false, rfl, iff_of_true rfl (Or.inr (Or.inr (Or.inr (Or.inr (k4.1 c4)))))⟩
  · refine ⟨true, rfl, ?_⟩
    rw [k0] at c0
    rw [k1] at c1
    rw [k2] at c2
    have c3' := fun h => c3 (k3.2 h)
    have c4' := fun h => c4 (k4.2 h)
    simp only [Bool.true_eq_false, false_iff]
    tauto

theorem triangleBox_absolute {e : ℝ} (he : 0 ≤ e) {A B C : P2 ℝ} (hAB : A ≠ B) (hBC : B ≠ C) (hCA : C ≠ A)
    (b : Box ℝ) : ∃ r, triangleBox (Cmp.absolute e) A B C b = .ok r ∧ (r = false → SomeAxis A B C b) := by
  obtain ⟨f0, h0⟩ := normalize2_of_ne (fun h => hAB (sub_eq_zero_P2.1 h).symm)
  obtain ⟨f1, h1⟩ := normalize2_of_ne (fun h => hBC (sub_eq_zero_P2.1 h).symm)
  obtain ⟨f2, h2⟩ := normalize2_of_ne (fun h => hCA (sub_eq_zero_P2.1 h).symm)
  have hc : (1 / 2 : ℝ) • (b.lo + b.hi) = boxCentre b := rfl
  unfold triangleBox
  simp only [hc, centred_sub, h0, h1, h2]
  unfold SomeAxis
  simp only [List.mem_cons, List.not_mem_nil, or_false, exists_eq_or_imp, exists_eq_left]
  split_ifs with c0 c1 c2 c3 c4
  · exact ⟨false, rfl, fun _ => Or.inl (sideAxisApart_absolute he h0 c0)⟩
  · exact ⟨false, rfl, fun _ => Or.inr (Or.inl (sideAxisApart_absolute he h1 c1))⟩
  · exact ⟨false, rfl, fun _ => Or.inr (Or.inr (Or.inl (sideAxisApart_absolute he h2 c2)))⟩
  · refine ⟨false, rfl, fun _ => Or.inr (Or.inr (Or.inr (Or.inl ?_)))⟩
    have := axisApart_absolute he c3
    simpa [BeyondAxis] using this
  · refine ⟨false, rfl, fun _ => Or.inr (Or.inr (Or.inr (Or.inr ?_)))⟩
    have := axisApart_absolute he c4
    simpa [BeyondAxis] using this
  · exact ⟨true, rfl, fun h => by simp at h⟩

theorem triangleBox_same {cmp : Cmp ℝ} {A B C : P2 ℝ} (h : A = B ∨ B = C ∨ C = A) (b : Box ℝ) :
    triangleBox cmp A B C b = .error .assertFailed := by
  have hz : ∀ P : P2 ℝ, normalize2 (P - P) = .error .assertFailed := by
    intro P
    unfold normalize2
    rw [if_pos]
    simp [normSq, dot]
  have hf : ∀ v : P2 ℝ, normalize2 v = .error .assertFailed ∨ ∃ u, normalize2 v = .ok u := by
    intro v
    unfold normalize2
    split_ifs
    · exact Or.inl rfl
    · exact Or.inr ⟨_, rfl⟩
  have hc : (1 / 2 : ℝ) • (b.lo + b.hi) = boxCentre b := rfl
  unfold triangleBox
  simp only [hc, centred_sub]
  rcases hf (A - B) with h0 | ⟨f0, h0⟩
  · rw [h0]
  rcases hf (B - C) with h1 | ⟨f1, h1⟩
  · rw [h0, h1]
  rcases h with h | h | h
  · rw [h, hz] at h0; simp at h0
  · rw [h, hz] at h1; simp at h1
  · rw [h0, h1, h, hz]

/-! ## Geometry -/

theorem dot_box {n v : P2 ℝ} {e0 e1 : ℝ} (h0 : |v.x| ≤ e0) (h1 : |v.y| ≤ e1) :
    |dot v n| ≤ e0 * |n.x| + e1 * |n.y| := by
  unfold dot
  calc |v.x * n.x + v.y * n.y| ≤ |v.x * n.x| + |v.y * n.y| := abs_add_le _ _
    _ = |v.x| * |n.x| + |v.y| * |n.y| := by rw [abs_mul, abs_mul]
    _ ≤ _ := add_le_add (mul_le_mul_of_nonneg_right h0 (abs_nonneg _)) (mul_le_mul_of_nonneg_right h1 (abs_nonneg _))

theorem inBox_abs {b : Box ℝ} {X : P2 ℝ} : InBox b X ↔
    |(X - boxCentre b).x| ≤ (b.hi.x - b.lo.x) * (1 / 2) ∧ |(X - boxCentre b).y| ≤ (b.hi.y - b.lo.y) * (1 / 2) := by
  simp only [InBox, boxCentre, P2.sub_x, P2.sub_y, P2.smul_x, P2.smul_y, P2.add_x, P2.add_y, abs_le]
  constructor
  · rintro ⟨h1, h2, h3, h4⟩
    refine ⟨⟨?_, ?_⟩, ?_, ?_⟩ <;> linarith
  · rintro ⟨⟨h1, h2⟩, h3, h4⟩
    refine ⟨?_, ?_, ?_, ?_⟩ <;> linarith

theorem not_common_of_someAxis {A B C X : P2 ℝ} {b : Box ℝ} (h : SomeAxis A B C b) (ht : InTriangle A B C X)
    (hb : InBox b X) : False := by
  obtain ⟨n, _, h⟩ := h
  obtain ⟨h0, h1⟩ := inBox_abs.1 hb
  have hd := dot_box (n := n) h0 h1
  obtain ⟨p, q, r, hp, hq, hr, hs, rfl⟩ := ht
  have e : dot (p • A + q • B + r • C - boxCentre b) n =
      p * dot (A - boxCentre b) n + q * dot (B - boxCentre b) n + r * dot (C - boxCentre b) n := by
    simp only [dot, P2.sub_x, P2.sub_y, P2.smul_x, P2.smul_y, P2.add_x, P2.add_y]
    linear_combination (((boxCentre b).x * n.x + (boxCentre b).y * n.y)) * hs
  rw [e, abs_le] at hd
  set R := (b.hi.x - b.lo.x) * (1 / 2) * |n.x| + (b.hi.y - b.lo.y) * (1 / 2) * |n.y| with hR
  rcases h with ⟨a1, a2, a3⟩ | ⟨a1, a2, a3⟩
  · rw [← hR] at a1 a2 a3
    have hm : ∃ m, m < -R ∧ dot (A - boxCentre b) n ≤ m ∧ dot (B - boxCentre b) n ≤ m ∧ dot (C - boxCentre b) n ≤ m :=
      ⟨_, max_lt (max_lt a1 a2) a3, (le_max_left _ _).trans (le_max_left _ _),
        (le_max_right _ _).trans (le_max_left _ _), le_max_right _ _⟩
    obtain ⟨m, m0, m1, m2, m3⟩ := hm
    have k1 := mul_le_mul_of_nonneg_left m1 hp
    have k2 := mul_le_mul_of_nonneg_left m2 hq
    have k3 := mul_le_mul_of_nonneg_left m3 hr
    have : p * m + q * m + r * m = m := by linear_combination m * hs
    linarith [hd.1]
  · rw [← hR] at a1 a2 a3
    have hm : ∃ m, R < m ∧ m ≤ dot (A - boxCentre b) n ∧ m ≤ dot (B - boxCentre b) n ∧ m ≤ dot (C - boxCentre b) n :=
      ⟨_, lt_min (lt_min a1 a2) a3, (min_le_left _ _).trans (min_le_left _ _),
        (min_le_left _ _).trans (min_le_right _ _), min_le_right _ _⟩
    obtain ⟨m, m0, m1, m2, m3⟩ := hm
    have k1 := mul_le_mul_of_nonneg_left m1 hp
    have k2 := mul_le_mul_of_nonneg_left m2 hq
    have k3 := mul_le_mul_of_nonneg_left m3 hr
    have : p * m + q * m + r * m = m := by linear_combination m * hs
    linarith [hd.2]

/-- Two sets of half planes: if each one of either set has a common point with all those of the other, all have one. -/
theorem common_halfplanes {S T : Finset (ℝ × P2 ℝ × P2 ℝ)}
    (n1 : ∃ X : P2 ℝ, ∀ j ∈ S, 0 ≤ j.1 * area2 j.2.1 j.2.2 X) (n2 : ∃ X : P2 ℝ, ∀ j ∈ T, 0 ≤ j.1 * area2 j.2.1 j.2.2 X)
    (h1 : ∀ i ∈ S, ∃ X : P2 ℝ, 0 ≤ i.1 * area2 i.2.1 i.2.2 X ∧ ∀ j ∈ T, 0 ≤ j.1 * area2 j.2.1 j.2.2 X)
    (h2 : ∀ i ∈ T, ∃ X : P2 ℝ, 0 ≤ i.1 * area2 i.2.1 i.2.2 X ∧ ∀ j ∈ S, 0 ≤ j.1 * area2 j.2.1 j.2.2 X) :
    ∃ X : P2 ℝ, ∀ j ∈ S ∪ T, 0 ≤ j.1 * area2 j.2.1 j.2.2 X := by
  classical
  refine halfplanes (S ∪ T) ?_
  intro I hI hcard
  have hsplit : (I.filter (· ∈ S)).card + (I.filter (· ∉ S)).card = I.card := Finset.card_filter_add_card_filter_not _
  have hT : ∀ j ∈ I, j ∉ S → j ∈ T := fun j hj hjS => (Finset.mem_union.1 (hI hj)).resolve_left hjS
  by_cases hS : (I.filter (· ∈ S)).card ≤ 1
  · rcases Nat.lt_or_ge (I.filter (· ∈ S)).card 1 with h0 | h0
    · have he : I.filter (· ∈ S) = ∅ := Finset.card_eq_zero.1 (by omega)
      obtain ⟨v, hv⟩ := n2
      refine ⟨v, fun j hj => hv j (hT j hj fun hjS => ?_)⟩
      have : j ∈ I.filter (· ∈ S) := Finset.mem_filter.2 ⟨hj, hjS⟩
      rw [he] at this; simp at this
    · obtain ⟨i, hi⟩ := Finset.card_eq_one.1 (show (I.filter (· ∈ S)).card = 1 by omega)
      have him : i ∈ I.filter (· ∈ S) := by rw [hi]; simp
      obtain ⟨v, hv, hv2⟩ := h1 i (Finset.mem_filter.1 him).2
      refine ⟨v, fun j hj => ?_⟩
      by_cases hjS : j ∈ S
      · have : j ∈ I.filter (· ∈ S) := Finset.mem_filter.2 ⟨hj, hjS⟩
        rw [hi, Finset.mem_singleton] at this
        rw [this]; exact hv
      · exact hv2 j (hT j hj hjS)
  · rcases Nat.lt_or_ge (I.filter (· ∉ S)).card 1 with h0 | h0
    · have he : I.filter (· ∉ S) = ∅ := Finset.card_eq_zero.1 (by omega)
      obtain ⟨v, hv⟩ := n1
      refine ⟨v, fun j hj => hv j ?_⟩
      by_contra hjS
      have : j ∈ I.filter (· ∉ S) := Finset.mem_filter.2 ⟨hj, hjS⟩
      rw [he] at this; simp at this
    · obtain ⟨i, hi⟩ := Finset.card_eq_one.1 (show (I.filter (· ∉ S)).card = 1 by omega)
      have him : i ∈ I.filter (· ∉ S) := by rw [hi]; simp
      obtain ⟨him1, him2⟩ := Finset.mem_filter.1 him
      obtain ⟨v, hv, hv2⟩ := h2 i (hT i him1 him2)
      refine ⟨v, fun j hj => ?_⟩
      by_cases hjS : j ∈ S
      · exact hv2 j hjS
      · have : j ∈ I.filter (· ∉ S) := Finset.mem_filter.2 ⟨hj, hjS⟩
        rw [hi, Finset.mem_singleton] at this
        rw [this]; exact hv

/-- A corner of the box furthest in a direction. -/
theorem box_corner {b : Box ℝ} (hb : ValidBox b) (n : P2 ℝ) {σ : ℝ} (hσ : σ = 1 ∨ σ = -1) : ∃ X, InBox b X ∧
    σ * dot (X - boxCentre b) n = (b.hi.x - b.lo.x) * (1 / 2) * |n.x| + (b.hi.y - b.lo.y) * (1 / 2) * |n.y| := by
  obtain ⟨hb1, hb2⟩ := hb
  refine ⟨⟨if 0 ≤ σ * n.x then b.hi.x else b.lo.x, if 0 ≤ σ * n.y then b.hi.y else b.lo.y⟩, ?_, ?_⟩
  · unfold InBox
    dsimp only
    split_ifs <;> refine ⟨?_, ?_, ?_, ?_⟩ <;> linarith
  · have ax : |n.x| = |σ * n.x| := by rcases hσ with rfl | rfl <;> simp
    have ay : |n.y| = |σ * n.y| := by rcases hσ with rfl | rfl <;> simp
    rw [ax, ay]
    simp only [dot, boxCentre, P2.sub_x, P2.sub_y, P2.smul_x, P2.smul_y, P2.add_x, P2.add_y]
    split_ifs with c1 c2 c2
    · rw [abs_of_nonneg c1, abs_of_nonneg c2]; ring
    · rw [abs_of_nonneg c1, abs_of_neg (not_le.1 c2)]; ring
    · rw [abs_of_neg (not_le.1 c1), abs_of_nonneg c2]; ring
    · rw [abs_of_neg (not_le.1 c1), abs_of_neg (not_le.1 c2)]; ring

theorem area2_sideNormal (A B X c : P2 ℝ) :
    area2 A B X = dot (X - c) (sideNormal (A - B)) - dot (A - c) (sideNormal (A - B)) := by
  simp only [area2, dot, sideNormal, P2.sub_x, P2.sub_y]; ring

/-- If no side of a triangle with positive area separates it from the box, each of its half planes has a point of the
box. -/
theorem side_common {A B C : P2 ℝ} {b : Box ℝ} (hb : ValidBox b) {σ : ℝ} (hσ : σ = 1 ∨ σ = -1)
    (hC : 0 ≤ σ * area2 A B C)
    (h : ¬ BeyondAxis (sideNormal (A - B)) ((b.hi.x - b.lo.x) * (1 / 2)) ((b.hi.y - b.lo.y) * (1 / 2)) (A - boxCentre b)
      (B - boxCentre b) (C - boxCentre b)) : ∃ X, 0 ≤ σ * area2 A B X ∧ InBox b X := by
  obtain ⟨X, hX, e⟩ := box_corner hb (sideNormal (A - B)) hσ
  refine ⟨X, ?_, hX⟩
  by_contra hn
  apply h
  have hAB : dot (B - boxCentre b) (sideNormal (A - B)) = dot (A - boxCentre b) (sideNormal (A - B)) := by
    simp only [dot, sideNormal, P2.sub_x, P2.sub_y]; ring
  rw [area2_sideNormal A B X (boxCentre b), mul_sub, e] at hn
  rw [area2_sideNormal A B C (boxCentre b), mul_sub] at hC
  unfold BeyondAxis
  rw [hAB]
  rcases hσ with rfl | rfl
  · right; refine ⟨?_, ?_, ?_⟩ <;> linarith
  · left; refine ⟨?_, ?_, ?_⟩ <;> linarith

theorem inTriangle_iff_signed {A B C : P2 ℝ} {σ : ℝ} (hσ : σ = 1 ∨ σ = -1) (h : 0 < σ * area2 A B C) (X : P2 ℝ) :
    InTriangle A B C X ↔ 0 ≤ σ * area2 A B X ∧ 0 ≤ σ * area2 B C X ∧ 0 ≤ σ * area2 C A X := by
  have hne : area2 A B C ≠ 0 := fun e => by rw [e] at h; simp at h
  have hsum : area2 A B X + area2 B C X + area2 C A X = area2 A B C := by unfold area2; ring
  constructor
  · rintro ⟨p, q, r, hp, hq, hr, hs, rfl⟩
    obtain rfl : p = 1 - q - r := by linarith
    have e1 : area2 A B ((1 - q - r) • A + q • B + r • C) = r * area2 A B C := by
      simp only [area2, P2.add_x, P2.add_y, P2.smul_x, P2.smul_y]; ring
    have e2 : area2 B C ((1 - q - r) • A + q • B + r • C) = (1 - q - r) * area2 A B C := by
      simp only [area2, P2.add_x, P2.add_y, P2.smul_x, P2.smul_y]; ring
    have e3 : area2 C A ((1 - q - r) • A + q • B + r • C) = q * area2 A B C := by
      simp only [area2, P2.add_x, P2.add_y, P2.smul_x, P2.smul_y]; ring
    rw [e1, e2, e3]
    refine ⟨?_, ?_, ?_⟩
    · nlinarith [mul_nonneg hr h.le]
    · nlinarith [mul_nonneg hp h.le]
    · nlinarith [mul_nonneg hq h.le]
  · rintro ⟨h1, h2, h3⟩
    refine ⟨area2 B C X / area2 A B C, area2 C A X / area2 A B C, area2 A B X / area2 A B C, ?_, ?_, ?_, ?_, ?_⟩
    · rw [← mul_div_mul_left _ _ (show σ ≠ 0 by rcases hσ with rfl | rfl <;> norm_num)]; exact div_nonneg h2 h.le
    · rw [← mul_div_mul_left _ _ (show σ ≠ 0 by rcases hσ with rfl | rfl <;> norm_num)]; exact div_nonneg h3 h.le
    · rw [← mul_div_mul_left _ _ (show σ ≠ 0 by rcases hσ with rfl | rfl <;> norm_num)]; exact div_nonneg h1 h.le
    · field_simp; linarith
    · ext
      · simp only [P2.add_x, P2.smul_x]
        field_simp
        unfold area2; ring
      · simp only [P2.add_y, P2.smul_y]
        field_simp
        unfold area2; ring

theorem common_of_not_someAxis {A B C : P2 ℝ} {b : Box ℝ} (hb : ValidBox b) (hn : area2 A B C ≠ 0)
    (h : ¬ SomeAxis A B C b) : ∃ X, InTriangle A B C X ∧ InBox b X := by
  obtain ⟨σ, hσ, hpos⟩ : ∃ σ : ℝ, (σ = 1 ∨ σ = -1) ∧ 0 < σ * area2 A B C := by
    rcases lt_or_gt_of_ne hn with h | h
    · exact ⟨-1, Or.inr rfl, by linarith⟩
    · exact ⟨1, Or.inl rfl, by linarith⟩
  unfold SomeAxis at h
  simp only [List.mem_cons, List.not_mem_nil, or_false, exists_eq_or_imp, exists_eq_left, not_or] at h
  obtain ⟨g0, g1, g2, g3, g4⟩ := h
  rw [apart_x] at g3
  rw [apart_y] at g4
  have rot : ∀ {n : P2 ℝ} {e0 e1 : ℝ} {u v w : P2 ℝ}, BeyondAxis n e0 e1 u v w → BeyondAxis n e0 e1 w u v := by
    intro n e0 e1 u v w h
    rcases h with ⟨a, b, c⟩ | ⟨a, b, c⟩
    · exact Or.inl ⟨c, a, b⟩
    · exact Or.inr ⟨c, a, b⟩
  have r1 : area2 B C A = area2 A B C := by unfold area2; ring
  have r2 : area2 C A B = area2 A B C := by unfold area2; ring
  obtain ⟨X0, x0, x0'⟩ := side_common hb hσ hpos.le g0
  obtain ⟨X1, x1, x1'⟩ := side_common (A := B) (B := C) (C := A) hb hσ (by rw [r1]; exact hpos.le) (fun h => g1 (rot h))
  obtain ⟨X2, x2, x2'⟩ := side_common (A := C) (B := A) (C := B) hb hσ (by rw [r2]; exact hpos.le)
    (fun h => g2 (rot (rot h)))
  have tA : InTriangle A B C A := ⟨1, 0, 0, by norm_num, by norm_num, by norm_num, by norm_num, by ext <;> simp⟩
  have tB : InTriangle A B C B := ⟨0, 1, 0, by norm_num, by norm_num, by norm_num, by norm_num, by ext <;> simp⟩
  have tC : InTriangle A B C C := ⟨0, 0, 1, by norm_num, by norm_num, by norm_num, by norm_num, by ext <;> simp⟩
  have vx : ∀ (p : P2 ℝ → Prop), (¬ p A → ¬ p B → ¬ p C → False) → ∃ X, InTriangle A B C X ∧ p X := by
    intro p hp
    by_cases pA : p A
    · exact ⟨A, tA, pA⟩
    by_cases pB : p B
    · exact ⟨B, tB, pB⟩
    by_cases pC : p C
    · exact ⟨C, tC, pC⟩
    exact (hp pA pB pC).elim
  simp only [boxCentre, P2.sub_x, P2.sub_y, P2.smul_x, P2.smul_y, P2.add_x, P2.add_y, not_or, not_and] at g3 g4
  obtain ⟨Y0, y0, y0'⟩ := vx (fun X => b.lo.x ≤ X.x) (fun a1 a2 a3 => g3.1 (by linarith) (by linarith) (by linarith))
  obtain ⟨Y1, y1, y1'⟩ := vx (fun X => X.x ≤ b.hi.x) (fun a1 a2 a3 => g3.2 (by linarith) (by linarith) (by linarith))
  obtain ⟨Y2, y2, y2'⟩ := vx (fun X => b.lo.y ≤ X.y) (fun a1 a2 a3 => g4.1 (by linarith) (by linarith) (by linarith))
  obtain ⟨Y3, y3, y3'⟩ := vx (fun X => X.y ≤ b.hi.y) (fun a1 a2 a3 => g4.2 (by linarith) (by linarith) (by linarith))
  classical
  let S : Finset (ℝ × P2 ℝ × P2 ℝ) := {(σ, A, B), (σ, B, C), (σ, C, A)}
  let T : Finset (ℝ × P2 ℝ × P2 ℝ) := {(1, ⟨b.lo.x, 1⟩, ⟨b.lo.x, 0⟩), (1, ⟨b.hi.x, 0⟩, ⟨b.hi.x, 1⟩),
    (1, ⟨0, b.lo.y⟩, ⟨1, b.lo.y⟩), (1, ⟨1, b.hi.y⟩, ⟨0, b.hi.y⟩)}
  have hS : ∀ X : P2 ℝ, (∀ j ∈ S, 0 ≤ j.1 * area2 j.2.1 j.2.2 X) ↔ InTriangle A B C X := by
    intro X
    rw [inTriangle_iff_signed hσ hpos]
    simp only [S, Finset.mem_insert, Finset.mem_singleton, forall_eq_or_imp, forall_eq]
  have hT : ∀ X : P2 ℝ, (∀ j ∈ T, 0 ≤ j.1 * area2 j.2.1 j.2.2 X) ↔ InBox b X := by
    intro X
    simp only [T, Finset.mem_insert, Finset.mem_singleton, forall_eq_or_imp, forall_eq, InBox, area2]
    constructor
    · rintro ⟨h1, h2, h3, h4⟩; refine ⟨?_, ?_, ?_, ?_⟩ <;> linarith
    · rintro ⟨h1, h2, h3, h4⟩; refine ⟨?_, ?_, ?_, ?_⟩ <;> linarith
  obtain ⟨X, hX⟩ := common_halfplanes (S := S) (T := T) ⟨A, (hS A).2 tA⟩ ⟨X0, (hT X0).2 x0'⟩
    (by
      intro i hi
      simp only [S, Finset.mem_insert, Finset.mem_singleton] at hi
      rcases hi with rfl | rfl | rfl
      · exact ⟨X0, x0, (hT _).2 x0'⟩
      · exact ⟨X1, x1, (hT _).2 x1'⟩
      · exact ⟨X2, x2, (hT _).2 x2'⟩)
    (by
      intro i hi
      simp only [T, Finset.mem_insert, Finset.mem_singleton] at hi
      rcases hi with rfl | rfl | rfl | rfl
      · exact ⟨Y0, by simp only [area2]; linarith, (hS _).2 y0⟩
      · exact ⟨Y1, by simp only [area2]; linarith, (hS _).2 y1⟩
      · exact ⟨Y2, by simp only [area2]; linarith, (hS _).2 y2⟩
      · exact ⟨Y3, by simp only [area2]; linarith, (hS _).2 y3⟩)
  exact ⟨X, (hS X).1 fun j hj => hX j (Finset.mem_union_left _ hj), (hT X).1 fun j hj => hX j (Finset.mem_union_right _ hj)⟩

/-! ## Flat triangles -/

theorem segment_common {P Q : P2 ℝ} {b : Box ℝ} (hb : ValidBox b)
    (gx : ¬ BeyondAxis ⟨1, 0⟩ ((b.hi.x - b.lo.x) * (1 / 2)) ((b.hi.y - b.lo.y) * (1 / 2)) (P - boxCentre b)
      (Q - boxCentre b) (Q - boxCentre b))
    (gy : ¬ BeyondAxis ⟨0, 1⟩ ((b.hi.x - b.lo.x) * (1 / 2)) ((b.hi.y - b.lo.y) * (1 / 2)) (P - boxCentre b)
      (Q - boxCentre b) (Q - boxCentre b))
    (gn : ¬ BeyondAxis (sideNormal (P - Q)) ((b.hi.x - b.lo.x) * (1 / 2)) ((b.hi.y - b.lo.y) * (1 / 2)) (P - boxCentre b)
      (Q - boxCentre b) (Q - boxCentre b)) : ∃ X, OnSegment P Q X ∧ InBox b X := by
  rw [← C12_segment_exact P Q b hb]
  rw [apart_x] at gx
  rw [apart_y] at gy
  have hPQ : dot (Q - boxCentre b) (sideNormal (P - Q)) = dot (P - boxCentre b) (sideNormal (P - Q)) := by
    simp only [dot, sideNormal, P2.sub_x, P2.sub_y]; ring
  unfold BeyondAxis at gn
  rw [hPQ] at gn
  simp only [and_self, not_or, not_lt] at gx gy gn
  unfold segmentAabb
  simp only [P2.add_x, P2.add_y, P2.sub_x, P2.sub_y, add_zero, gt_iff_lt]
  obtain ⟨hb1, hb2⟩ := hb
  simp only [boxCentre, P2.sub_x, P2.sub_y, P2.smul_x, P2.smul_y, P2.add_x, P2.add_y, not_and_or, not_lt] at gx gy
  rw [if_neg, if_neg, if_neg]
  · rw [not_lt]
    have e : (P.x - b.lo.x + (Q.x - b.hi.x)) * (Q.y - P.y) - (P.y - b.lo.y + (Q.y - b.hi.y)) * (Q.x - P.x) =
        -(2 * dot (P - boxCentre b) (sideNormal (P - Q))) := by
      simp only [dot, sideNormal, boxCentre, P2.sub_x, P2.sub_y, P2.smul_x, P2.smul_y, P2.add_x, P2.add_y]; ring
    have a1 : |(sideNormal (P - Q)).x| = |Q.y - P.y| := by simp only [sideNormal, P2.sub_y]; exact abs_sub_comm _ _
    have a2 : |(sideNormal (P - Q)).y| = |Q.x - P.x| := by simp only [sideNormal, P2.sub_x, abs_neg]; exact abs_sub_comm _ _
    rw [a1, a2] at gn
    rw [e, abs_neg, abs_le]
    constructor
    · linarith [gn.1]
    · linarith [gn.2]
  · rw [not_lt, abs_le]
    rcases gy with ⟨h1, h2⟩
    have l1 := le_abs_self (Q.y - P.y)
    have l2 := neg_abs_le (Q.y - P.y)
    constructor
    · rcases h1 with h | h <;> linarith
    · rcases h2 with h | h <;> linarith
  · rw [not_lt, abs_le]
    rcases gx with ⟨h1, h2⟩
    have l1 := le_abs_self (Q.x - P.x)
    have l2 := neg_abs_le (Q.x - P.x)
    constructor
    · rcases h1 with h | h <;> linarith
    · rcases h2 with h | h <;> linarith

/-- A vertex between the two others does not matter for an axis. -/
theorem beyond_between {n : P2 ℝ} {e0 e1 : ℝ} {P M Q c : P2 ℝ} (hM : OnSegment P Q M)
    (h : BeyondAxis n e0 e1 (P - c) (Q - c) (Q - c)) : BeyondAxis n e0 e1 (P - c) (M - c) (Q - c) := by
  obtain ⟨t, h0, h1, rfl⟩ := hM
  have e : dot (P + t • (Q - P) - c) n = (1 - t) * dot (P - c) n + t * dot (Q - c) n := by
    simp only [dot, P2.sub_x, P2.sub_y, P2.smul_x, P2.smul_y, P2.add_x, P2.add_y]; ring
  set R := e0 * |n.x| + e1 * |n.y| with hR
  unfold BeyondAxis at h ⊢
  rw [← hR] at h ⊢
  rw [e]
  rcases h with ⟨a, b, _⟩ | ⟨a, b, _⟩
  · left
    refine ⟨a, ?_, b⟩
    rcases eq_or_lt_of_le h0 with rfl | h0
    · linarith
    · nlinarith [mul_le_mul_of_nonneg_left a.le (sub_nonneg.2 h1), mul_lt_mul_of_pos_left b h0]
  · right
    refine ⟨a, ?_, b⟩
    rcases eq_or_lt_of_le h0 with rfl | h0
    · linarith
    · nlinarith [mul_le_mul_of_nonneg_left a.le (sub_nonneg.2 h1), mul_lt_mul_of_pos_left b h0]

/-- Of three points on a line one is between the others. -/
theorem one_between {A B C : P2 ℝ} (h : area2 A B C = 0) :
    OnSegment A C B ∨ OnSegment B A C ∨ OnSegment C B A := by
  by_cases hAB : A = B
  · subst hAB; exact Or.inl ⟨0, by norm_num, by norm_num, by ext <;> simp⟩
  obtain ⟨t, ht⟩ : ∃ t : ℝ, C = A + t • (B - A) := by
    have hn : normSq (B - A) ≠ 0 := fun h0 => hAB (sub_eq_zero_P2.1 (normSq_eq_zero.1 h0))
    refine ⟨dot (C - A) (B - A) / normSq (B - A), ?_⟩
    simp only [normSq, dot, P2.sub_x, P2.sub_y] at hn
    simp only [area2] at h
    ext
    · simp only [P2.add_x, P2.smul_x, P2.sub_x, normSq, dot, P2.sub_y]
      rw [div_mul_eq_mul_div, ← sub_eq_iff_eq_add', eq_div_iff hn]
      linear_combination (-(B.y - A.y)) * h
    · simp only [P2.add_y, P2.smul_y, P2.sub_x, normSq, dot, P2.sub_y]
      rw [div_mul_eq_mul_div, ← sub_eq_iff_eq_add', eq_div_iff hn]
      linear_combination ((B.x - A.x)) * h
  rcases lt_or_ge t 0 with h0 | h0
  · refine Or.inr (Or.inr ⟨-t / (1 - t), ?_, ?_, ?_⟩)
    · exact div_nonneg (by linarith) (by linarith)
    · rw [div_le_one (by linarith)]; linarith
    · have : (1 - t) ≠ 0 := by linarith
      rw [ht]
      ext
      · simp only [P2.add_x, P2.smul_x, P2.sub_x]; field_simp; ring
      · simp only [P2.add_y, P2.smul_y, P2.sub_y]; field_simp; ring
  rcases le_or_gt t 1 with h1 | h1
  · refine Or.inr (Or.inl ⟨1 - t, by linarith, by linarith, ?_⟩)
    rw [ht]
    ext
    · simp only [P2.add_x, P2.smul_x, P2.sub_x]; ring
    · simp only [P2.add_y, P2.smul_y, P2.sub_y]; ring
  · refine Or.inl ⟨1 / t, by positivity, ?_, ?_⟩
    · rw [div_le_one (by linarith)]; linarith
    · have : t ≠ 0 := by linarith
      rw [ht]
      ext
      · simp only [P2.add_x, P2.smul_x, P2.sub_x]; field_simp; ring
      · simp only [P2.add_y, P2.smul_y, P2.sub_y]; field_simp; ring

theorem beyond_rot {n : P2 ℝ} {e0 e1 : ℝ} {u v w : P2 ℝ} (h : BeyondAxis n e0 e1 u v w) : BeyondAxis n e0 e1 w u v := by
  rcases h with ⟨a, b, c⟩ | ⟨a, b, c⟩
  · exact Or.inl ⟨c, a, b⟩
  · exact Or.inr ⟨c, a, b⟩

theorem sideNormal_swap (P Q : P2 ℝ) {e0 e1 : ℝ} {u v w : P2 ℝ} (h : BeyondAxis (sideNormal (P - Q)) e0 e1 u v w) :
    BeyondAxis (sideNormal (Q - P)) e0 e1 u v w := by
  have e : ∀ x : P2 ℝ, dot x (sideNormal (Q - P)) = -dot x (sideNormal (P - Q)) := by
    intro x; simp only [dot, sideNormal, P2.sub_x, P2.sub_y]; ring
  have a1 : |(sideNormal (Q - P)).x| = |(sideNormal (P - Q)).x| := by
    simp only [sideNormal, P2.sub_y]; exact abs_sub_comm _ _
  have a2 : |(sideNormal (Q - P)).y| = |(sideNormal (P - Q)).y| := by
    simp only [sideNormal, P2.sub_x, abs_neg]; exact abs_sub_comm _ _
  unfold BeyondAxis at h ⊢
  rw [a1, a2, e, e, e]
  rcases h with ⟨a, b, c⟩ | ⟨a, b, c⟩
  · right; refine ⟨?_, ?_, ?_⟩ <;> linarith
  · left; refine ⟨?_, ?_, ?_⟩ <;> linarith

theorem flat_common {A B C : P2 ℝ} {b : Box ℝ} (hb : ValidBox b) (hf : area2 A B C = 0)
    (h : ¬ SomeAxis A B C b) : ∃ X, InTriangle A B C X ∧ InBox b X := by
  unfold SomeAxis at h
  simp only [List.mem_cons, List.not_mem_nil, or_false, exists_eq_or_imp, exists_eq_left, not_or] at h
  obtain ⟨g0, g1, g2, g3, g4⟩ := h
  rcases one_between hf with hm | hm | hm
  · obtain ⟨X, ⟨t, t0, t1, e⟩, hX⟩ := segment_common (P := A) (Q := C) hb (fun h => g3 (beyond_between hm h))
      (fun h => g4 (beyond_between hm h)) (fun h => g2 (sideNormal_swap _ _ (beyond_between hm h)))
    exact ⟨X, ⟨1 - t, 0, t, by linarith, le_refl _, t0, by ring, by rw [e]; ext <;> simp <;> ring⟩, hX⟩
  · obtain ⟨X, ⟨t, t0, t1, e⟩, hX⟩ := segment_common (P := B) (Q := A) hb
      (fun h => g3 (beyond_rot (beyond_between hm h)))
      (fun h => g4 (beyond_rot (beyond_between hm h))) (fun h => g0 (sideNormal_swap _ _ (beyond_rot (beyond_between hm h))))
    exact ⟨X, ⟨t, 1 - t, 0, t0, by linarith, le_refl _, by ring, by rw [e]; ext <;> simp <;> ring⟩, hX⟩
  · obtain ⟨X, ⟨t, t0, t1, e⟩, hX⟩ := segment_common (P := C) (Q := B) hb
      (fun h => g3 (beyond_rot (beyond_rot (beyond_between hm h))))
      (fun h => g4 (beyond_rot (beyond_rot (beyond_between hm h))))
      (fun h => g1 (sideNormal_swap _ _ (beyond_rot (beyond_rot (beyond_between hm h)))))
    exact ⟨X, ⟨0, t, 1 - t, le_refl _, t0, by linarith, by ring, by rw [e]; ext <;> simp <;> ring⟩, hX⟩

theorem someAxis_iff {A B C : P2 ℝ} {b : Box ℝ} (hb : ValidBox b) :
    SomeAxis A B C b ↔ ¬ ∃ X, InTriangle A B C X ∧ InBox b X := by
  constructor
  · rintro h ⟨X, h1, h2⟩; exact not_common_of_someAxis h h1 h2
  · intro h
    by_contra hn
    by_cases hf : area2 A B C = 0
    · exact h (flat_common hb hf hn)
    · exact h (common_of_not_someAxis hb hf hn)

/-! ## The tolerance -/

/-- The box made wider by `e` on all sides. -/
def grownBox (b : Box ℝ) (e : ℝ) : Box ℝ := ⟨⟨b.lo.x - e, b.lo.y - e⟩, ⟨b.hi.x + e, b.hi.y + e⟩⟩

theorem unit_normal {d f : P2 ℝ} (hf : normalize2 d = .ok f) : 1 ≤ |f.y| + |f.x| := by
  unfold normalize2 at hf
  split_ifs at hf with h0
  obtain rfl := Except.ok.inj hf
  have hn := normSq_nonneg d
  have hs := Real.sq_sqrt hn
  have hx : normSq ((1 / Real.sqrt (normSq d)) • d) = 1 := by
    have : normSq ((1 / Real.sqrt (normSq d)) • d) = (1 / Real.sqrt (normSq d)) ^ 2 * normSq d := by
      simp only [normSq, dot, P2.smul_x, P2.smul_y]; ring
    rw [this, div_pow, one_pow, hs]
    exact one_div_mul_cancel (fun h => h0 (by rw [h, Real.sqrt_zero]))
  generalize (1 / Real.sqrt (normSq d)) • d = g at hx ⊢
  simp only [normSq, dot] at hx
  by_contra hc
  push Not at hc
  nlinarith [abs_nonneg g.x, abs_nonneg g.y, abs_mul_abs_self g.x, abs_mul_abs_self g.y]

theorem axisApart_of {e p0 p1 p2 r : ℝ} (h : (p0 < -(r + e) ∧ p1 < -(r + e) ∧ p2 < -(r + e)) ∨
    (r + e < p0 ∧ r + e < p1 ∧ r + e < p2)) : axisApart (Cmp.absolute e) p0 p1 p2 r = true := by
  simp only [axisApart, Cmp.absolute, Bool.or_eq_true, decide_eq_true_eq, gt_iff_lt]
  rcases h with ⟨a, b, c⟩ | ⟨a, b, c⟩
  · left
    have := max_lt a (max_lt b c)
    linarith
  · right
    have := lt_min a (lt_min b c)
    linarith

theorem sideAxisApart_of {e : ℝ} (he : 0 ≤ e) {d f : P2 ℝ} (hf : normalize2 d = .ok f) {e0 e1 : ℝ} {v0 v1 v2 : P2 ℝ}
    (h : BeyondAxis (sideNormal d) (e0 + e) (e1 + e) v0 v1 v2) :
    sideAxisApart (Cmp.absolute e) v0 v1 v2 f e0 e1 = true := by
  have hu := unit_normal hf
  obtain ⟨k, hk, rfl⟩ := normalize2_scaled hf
  rw [← scaled_apart hk] at h
  unfold sideAxisApart
  dsimp only
  apply axisApart_of
  have e1' : |dot ⟨1, 0⟩ (⟨(k • d).y, -(k • d).x⟩ : P2 ℝ)| = |(k • d).y| := by simp [dot]
  have e2' : |dot ⟨0, 1⟩ (⟨(k • d).y, -(k • d).x⟩ : P2 ℝ)| = |(k • d).x| := by simp [dot]
  rw [e1', e2'] at h ⊢
  have hm : e ≤ e * (|(k • d).y| + |(k • d).x|) := le_mul_of_one_le_right he hu
  rcases h with ⟨a, b, c⟩ | ⟨a, b, c⟩
  · left; refine ⟨?_, ?_, ?_⟩ <;> linarith
  · right; refine ⟨?_, ?_, ?_⟩ <;> linarith

theorem grown_centre (b : Box ℝ) (e : ℝ) : boxCentre (grownBox b e) = boxCentre b := by
  ext
  · simp only [boxCentre, grownBox, P2.smul_x, P2.add_x]; ring
  · simp only [boxCentre, grownBox, P2.smul_y, P2.add_y]; ring

theorem triangleBox_grown {e : ℝ} (he : 0 ≤ e) {A B C : P2 ℝ} (hAB : A ≠ B) (hBC : B ≠ C) (hCA : C ≠ A) (b : Box ℝ)
    (h : SomeAxis A B C (grownBox b e)) : triangleBox (Cmp.absolute e) A B C b = .ok false := by
  obtain ⟨f0, h0⟩ := normalize2_of_ne (fun h => hAB (sub_eq_zero_P2.1 h).symm)
  obtain ⟨f1, h1⟩ := normalize2_of_ne (fun h => hBC (sub_eq_zero_P2.1 h).symm)
  obtain ⟨f2, h2⟩ := normalize2_of_ne (fun h => hCA (sub_eq_zero_P2.1 h).symm)
  have hc : (1 / 2 : ℝ) • (b.lo + b.hi) = boxCentre b := rfl
  unfold triangleBox
  simp only [hc, centred_sub, h0, h1, h2]
  unfold SomeAxis at h
  have w0 : ((grownBox b e).hi.x - (grownBox b e).lo.x) * (1 / 2) = (b.hi.x - b.lo.x) * (1 / 2) + e := by
    simp only [grownBox]; ring
  have w1 : ((grownBox b e).hi.y - (grownBox b e).lo.y) * (1 / 2) = (b.hi.y - b.lo.y) * (1 / 2) + e := by
    simp only [grownBox]; ring
  rw [w0, w1, grown_centre] at h
  simp only [List.mem_cons, List.not_mem_nil, or_false, exists_eq_or_imp, exists_eq_left] at h
  split_ifs with c0 c1 c2 c3 c4
  · rfl
  · rfl
  · rfl
  · rfl
  · rfl
  · rcases h with h | h | h | h | h
    · exact absurd (sideAxisApart_of he h0 h) c0
    · exact absurd (sideAxisApart_of he h1 h) c1
    · exact absurd (sideAxisApart_of he h2 h) c2
    · refine absurd (axisApart_of ?_) c3
      rw [apart_x] at h
      simpa [dot] using h
    · refine absurd (axisApart_of ?_) c4
      rw [apart_y] at h
      simpa [dot] using h

end Geometrix
