import Verif.Model.CohenSutherland
import Verif.Spec.Box
import Verif.Lemmas.Box
import Verif.Lemmas.Distance

set_option linter.unusedSectionVars false

namespace Geometrix

open Spec

variable {K : Type*} [Field K] [LinearOrder K] [IsStrictOrderedRing K]

theorem outCode_left (b : Box K) (p : P2 K) :
    (outCode Cmp.direct b p).left = true ↔ p.x < b.lo.x := by
  simp [outCode]

theorem outCode_right (b : Box K) (hb : ValidBox b) (p : P2 K) :
    (outCode Cmp.direct b p).right = true ↔ b.hi.x < p.x := by
  obtain ⟨h1, h2⟩ := hb
  simp [outCode]
  intro h; linarith

theorem outCode_bottom (b : Box K) (p : P2 K) :
    (outCode Cmp.direct b p).bottom = true ↔ p.y < b.lo.y := by
  simp [outCode]

theorem outCode_top (b : Box K) (hb : ValidBox b) (p : P2 K) :
    (outCode Cmp.direct b p).top = true ↔ b.hi.y < p.y := by
  obtain ⟨h1, h2⟩ := hb
  simp [outCode]
  intro h; linarith

/-- The point of the segment at a parameter. -/
def along (p0 p1 : P2 K) (t : K) : P2 K := p0 + t • (p1 - p0)

/-- How many bits are set. -/
def OutCode.count (c : OutCode) : Nat :=
  c.left.toNat + c.right.toNat + c.bottom.toNat + c.top.toNat

/-- Where a segment crosses a level of a linear function `α x + β y`. -/
theorem crossing {f0 f1 c : K} (h0 : c < f0) (h1 : f1 ≤ c) :
    0 < (c - f0) / (f1 - f0) ∧ (c - f0) / (f1 - f0) ≤ 1 ∧
      ∀ u, f0 + u * (f1 - f0) ≤ c ↔ (c - f0) / (f1 - f0) ≤ u := by
  have hn : f1 - f0 < 0 := by linarith
  refine ⟨div_pos_of_neg_of_neg (by linarith) hn, ?_, ?_⟩
  · rw [div_le_one_of_neg hn]; linarith
  · intro u
    rw [div_le_iff_of_neg hn]
    constructor <;> intro h <;> linarith

theorem crossing' {f0 f1 c : K} (h0 : f0 ≤ c) (h1 : c < f1) :
    0 ≤ (c - f0) / (f1 - f0) ∧ (c - f0) / (f1 - f0) < 1 ∧
      ∀ u, f0 + u * (f1 - f0) ≤ c ↔ u ≤ (c - f0) / (f1 - f0) := by
  have hn : 0 < f1 - f0 := by linarith
  refine ⟨div_nonneg (by linarith) hn.le, ?_, ?_⟩
  · rw [div_lt_one hn]; linarith
  · intro u
    rw [le_div_iff₀ hn]
    constructor <;> intro h <;> linarith

theorem crossing_ge {f0 f1 c : K} (h0 : f0 < c) (h1 : c ≤ f1) :
    0 < (c - f0) / (f1 - f0) ∧ (c - f0) / (f1 - f0) ≤ 1 ∧
      ∀ u, c ≤ f0 + u * (f1 - f0) ↔ (c - f0) / (f1 - f0) ≤ u := by
  have := crossing (f0 := -f0) (f1 := -f1) (c := -c) (by linarith) (by linarith)
  have e : (-c - -f0) / (-f1 - -f0) = (c - f0) / (f1 - f0) := by
    rw [← neg_div_neg_eq]; congr 1 <;> ring
  rw [e] at this
  refine ⟨this.1, this.2.1, fun u => ?_⟩
  rw [← this.2.2 u]
  constructor <;> intro h <;> linarith

theorem crossing_ge' {f0 f1 c : K} (h0 : c ≤ f0) (h1 : f1 < c) :
    0 ≤ (c - f0) / (f1 - f0) ∧ (c - f0) / (f1 - f0) < 1 ∧
      ∀ u, c ≤ f0 + u * (f1 - f0) ↔ u ≤ (c - f0) / (f1 - f0) := by
  have := crossing' (f0 := -f0) (f1 := -f1) (c := -c) (by linarith) (by linarith)
  have e : (-c - -f0) / (-f1 - -f0) = (c - f0) / (f1 - f0) := by
    rw [← neg_div_neg_eq]; congr 1 <;> ring
  rw [e] at this
  refine ⟨this.1, this.2.1, fun u => ?_⟩
  rw [← this.2.2 u]
  constructor <;> intro h <;> linarith

theorem between_lt {a b t l : K} (h0 : 0 ≤ t) (h1 : t ≤ 1) (h : a + t * (b - a) < l) :
    a < l ∨ b < l := by
  by_contra hc
  push Not at hc
  nlinarith [mul_nonneg h0 (sub_nonneg.mpr hc.2), mul_nonneg (sub_nonneg.mpr h1)
    (sub_nonneg.mpr hc.1)]

theorem between_gt {a b t l : K} (h0 : 0 ≤ t) (h1 : t ≤ 1) (h : l < a + t * (b - a)) :
    l < a ∨ l < b := by
  by_contra hc
  push Not at hc
  nlinarith [mul_nonneg h0 (sub_nonneg.mpr hc.2), mul_nonneg (sub_nonneg.mpr h1)
    (sub_nonneg.mpr hc.1)]

theorem count_lt {p c d : OutCode} (hl : p.left = true → c.left = true ∨ d.left = true)
    (hr : p.right = true → c.right = true ∨ d.right = true)
    (hb : p.bottom = true → c.bottom = true ∨ d.bottom = true)
    (ht : p.top = true → c.top = true ∨ d.top = true)
    (h : (c.left = true ∧ p.left = false) ∨ (c.right = true ∧ p.right = false) ∨
      (c.bottom = true ∧ p.bottom = false) ∨ (c.top = true ∧ p.top = false)) :
    p.meets d = true ∨ p.count < c.count := by
  by_cases hm : p.meets d = true
  · exact Or.inl hm
  right
  simp only [OutCode.meets, Bool.or_eq_true, Bool.and_eq_true, not_or, not_and] at hm
  obtain ⟨⟨⟨m1, m2⟩, m3⟩, m4⟩ := hm
  have k : ∀ a b c : Bool, (a = true → b = true ∨ c = true) → (a = true → ¬c = true) →
      a.toNat ≤ b.toNat ∧ (b = true → a = false → a.toNat < b.toNat) := by decide
  have q1 := k _ _ _ hl m1
  have q2 := k _ _ _ hr m2
  have q3 := k _ _ _ hb m3
  have q4 := k _ _ _ ht m4
  unfold OutCode.count
  rcases h with h | h | h | h
  · have := q1.2 h.1 h.2; omega
  · have := q2.2 h.1 h.2; omega
  · have := q3.2 h.1 h.2; omega
  · have := q4.2 h.1 h.2; omega

theorem along_x (p0 p1 : P2 K) (t : K) : (along p0 p1 t).x = p0.x + t * (p1.x - p0.x) := rfl
theorem along_y (p0 p1 : P2 K) (t : K) : (along p0 p1 t).y = p0.y + t * (p1.y - p0.y) := rfl

/-- The code of a point of the segment only has bits of the codes of its ends. -/
theorem along_bits {b : Box K} (hb : ValidBox b) (p0 p1 : P2 K) {t : K} (h0 : 0 ≤ t) (h1 : t ≤ 1) :
    let c := outCode Cmp.direct b (along p0 p1 t)
    let c0 := outCode Cmp.direct b p0
    let c1 := outCode Cmp.direct b p1
    (c.left = true → c0.left = true ∨ c1.left = true) ∧
    (c.right = true → c0.right = true ∨ c1.right = true) ∧
    (c.bottom = true → c0.bottom = true ∨ c1.bottom = true) ∧
    (c.top = true → c0.top = true ∨ c1.top = true) := by
  simp only [outCode_left, outCode_right b hb, outCode_bottom, outCode_top b hb, along_x, along_y]
  exact ⟨between_lt h0 h1, between_gt h0 h1, between_lt h0 h1, between_gt h0 h1⟩

/-- What `clipPoint` computes for a code that has a bit which the other end does not have. -/
theorem clipPoint_first {b : Box K} (hb : ValidBox b) (p0 p1 : P2 K)
    (hany : (outCode Cmp.direct b p0).any = true)
    (hm : (outCode Cmp.direct b p0).meets (outCode Cmp.direct b p1) = false) :
    ∃ t, 0 ≤ t ∧ t ≤ 1 ∧
      clipPoint b (outCode Cmp.direct b p0) p0 p1 = .ok (along p0 p1 t) ∧
      (∀ u, InBox b (along p0 p1 u) → t ≤ u) ∧
      ((outCode Cmp.direct b (along p0 p1 t)).meets (outCode Cmp.direct b p1) = true ∨
        (outCode Cmp.direct b (along p0 p1 t)).count < (outCode Cmp.direct b p0).count) := by
  have hb' := hb
  obtain ⟨v1, v2⟩ := hb'
  simp only [OutCode.meets, ← Bool.not_eq_true, Bool.or_eq_true, Bool.and_eq_true, not_or, not_and,
    outCode_left, outCode_right b hb, outCode_bottom, outCode_top b hb, not_lt] at hm
  obtain ⟨⟨⟨m1, m2⟩, m3⟩, m4⟩ := hm
  simp only [OutCode.any, Bool.or_eq_true, outCode_left, outCode_right b hb, outCode_bottom,
    outCode_top b hb] at hany
  unfold clipPoint
  simp only [outCode_left, outCode_right b hb, outCode_bottom, outCode_top b hb]
  have fin : ∀ t : K, 0 ≤ t → t ≤ 1 →
      (((outCode Cmp.direct b p0).left = true ∧ (outCode Cmp.direct b (along p0 p1 t)).left = false) ∨
      ((outCode Cmp.direct b p0).right = true ∧
        (outCode Cmp.direct b (along p0 p1 t)).right = false) ∨
      ((outCode Cmp.direct b p0).bottom = true ∧
        (outCode Cmp.direct b (along p0 p1 t)).bottom = false) ∨
      ((outCode Cmp.direct b p0).top = true ∧
        (outCode Cmp.direct b (along p0 p1 t)).top = false)) →
      ((outCode Cmp.direct b (along p0 p1 t)).meets (outCode Cmp.direct b p1) = true ∨
        (outCode Cmp.direct b (along p0 p1 t)).count < (outCode Cmp.direct b p0).count) := by
    intro t h0 h1 h
    obtain ⟨q1, q2, q3, q4⟩ := along_bits hb p0 p1 h0 h1
    exact count_lt q1 q2 q3 q4 h
  by_cases ht : b.hi.y < p0.y
  · obtain ⟨t0, t1, tu⟩ := crossing ht (m4 ht)
    have hne : p1.y - p0.y ≠ 0 := by have := m4 ht; intro h; linarith
    refine ⟨_, t0.le, t1, ?_, ?_, fin _ t0.le t1 ?_⟩
    · rw [if_pos ht, cdiv_ok hne]
      simp only [Except.ok.injEq]
      ext
      · simp only [along_x]; ring
      · simp only [along_y]; field_simp; ring
    · intro u hu
      exact (tu u).mp hu.2.2.2
    · right; right; right
      refine ⟨(outCode_top b hb p0).mpr ht, ?_⟩
      rw [← Bool.not_eq_true, outCode_top b hb, along_y, not_lt]
      exact (tu _).mpr le_rfl
  rw [if_neg ht]
  by_cases hbo : p0.y < b.lo.y
  · obtain ⟨t0, t1, tu⟩ := crossing_ge hbo (m3 hbo)
    have hne : p1.y - p0.y ≠ 0 := by have := m3 hbo; intro h; linarith
    refine ⟨_, t0.le, t1, ?_, ?_, fin _ t0.le t1 ?_⟩
    · rw [if_pos hbo, cdiv_ok hne]
      simp only [Except.ok.injEq]
      ext
      · simp only [along_x]; ring
      · simp only [along_y]; field_simp; ring
    · intro u hu
      exact (tu u).mp hu.2.2.1
    · right; right; left
      refine ⟨(outCode_bottom b p0).mpr hbo, ?_⟩
      rw [← Bool.not_eq_true, outCode_bottom, along_y, not_lt]
      exact (tu _).mpr le_rfl
  rw [if_neg hbo]
  by_cases hr : b.hi.x < p0.x
  · obtain ⟨t0, t1, tu⟩ := crossing hr (m2 hr)
    have hne : p1.x - p0.x ≠ 0 := by have := m2 hr; intro h; linarith
    refine ⟨_, t0.le, t1, ?_, ?_, fin _ t0.le t1 ?_⟩
    · rw [if_pos hr, cdiv_ok hne]
      simp only [Except.ok.injEq]
      ext
      · simp only [along_x]; field_simp; ring
      · simp only [along_y]; ring
    · intro u hu
      exact (tu u).mp hu.2.1
    · right; left
      refine ⟨(outCode_right b hb p0).mpr hr, ?_⟩
      rw [← Bool.not_eq_true, outCode_right b hb, along_x, not_lt]
      exact (tu _).mpr le_rfl
  rw [if_neg hr]
  have hl : p0.x < b.lo.x := by tauto
  obtain ⟨t0, t1, tu⟩ := crossing_ge hl (m1 hl)
  have hne : p1.x - p0.x ≠ 0 := by have := m1 hl; intro h; linarith
  refine ⟨_, t0.le, t1, ?_, ?_, fin _ t0.le t1 ?_⟩
  · rw [if_pos hl, cdiv_ok hne]
    simp only [Except.ok.injEq]
    ext
    · simp only [along_x]; field_simp; ring
    · simp only [along_y]; ring
  · intro u hu
    exact (tu u).mp hu.1
  · left
    refine ⟨(outCode_left b p0).mpr hl, ?_⟩
    rw [← Bool.not_eq_true, outCode_left, along_x, not_lt]
    exact (tu _).mpr le_rfl

theorem along_symm (p0 p1 : P2 K) (t : K) : along p1 p0 (1 - t) = along p0 p1 t := by
  ext
  · simp only [along_x]; ring
  · simp only [along_y]; ring

/-- The formulas of `clipPoint` do not depend on the order of the ends. -/
theorem clipPoint_symm (b : Box K) (c : OutCode) (p0 p1 : P2 K) :
    clipPoint b c p0 p1 = clipPoint b c p1 p0 := by
  have key : ∀ a0 a1 f0 f1 l : K,
      (match cdiv ((a1 - a0) * (l - f0)) (f1 - f0) with
        | .error e => Except.error e
        | .ok q => .ok (a0 + q)) =
      (match cdiv ((a0 - a1) * (l - f1)) (f0 - f1) with
        | .error e => Except.error e
        | .ok q => .ok (a1 + q)) := by
    intro a0 a1 f0 f1 l
    unfold cdiv
    by_cases h : f1 - f0 = 0
    · rw [if_pos h, if_pos (by linarith)]
    · have h' : f0 - f1 ≠ 0 := fun h0 => h (by linarith)
      rw [if_neg h, if_neg h']
      simp only [Except.ok.injEq]
      have e : f0 - f1 = -(f1 - f0) := by ring
      rw [e]
      field_simp
      ring
  have key' : ∀ (g : K → P2 K) (a0 a1 f0 f1 l : K),
      (match cdiv ((a1 - a0) * (l - f0)) (f1 - f0) with
        | .error e => Except.error e
        | .ok q => .ok (g (a0 + q))) =
      (match cdiv ((a0 - a1) * (l - f1)) (f0 - f1) with
        | .error e => Except.error e
        | .ok q => .ok (g (a1 + q))) := by
    intro g a0 a1 f0 f1 l
    have := key a0 a1 f0 f1 l
    revert this
    cases cdiv ((a1 - a0) * (l - f0)) (f1 - f0) <;>
      cases cdiv ((a0 - a1) * (l - f1)) (f0 - f1) <;> simp
    intro h; rw [h]
  unfold clipPoint
  split_ifs
  · exact key' (fun x => ⟨x, b.hi.y⟩) _ _ _ _ _
  · exact key' (fun x => ⟨x, b.lo.y⟩) _ _ _ _ _
  · exact key' (fun y => ⟨b.hi.x, y⟩) _ _ _ _ _
  · exact key' (fun y => ⟨b.lo.x, y⟩) _ _ _ _ _
  · rfl

theorem meets_comm (c d : OutCode) : c.meets d = d.meets c := by
  unfold OutCode.meets; simp only [Bool.and_comm]

theorem inBox_iff_outCode {b : Box K} (hb : ValidBox b) (p : P2 K) :
    InBox b p ↔ (outCode Cmp.direct b p).any = false := by
  simp only [OutCode.any, ← Bool.not_eq_true, Bool.or_eq_true, not_or, outCode_left,
    outCode_right b hb, outCode_bottom, outCode_top b hb, not_lt, InBox]
  tauto

/-- A common bit of the ends is a bit of every point between. -/
theorem meets_no_point {b : Box K} (hb : ValidBox b) (p0 p1 : P2 K)
    (hm : (outCode Cmp.direct b p0).meets (outCode Cmp.direct b p1) = true) {u : K} (h0 : 0 ≤ u)
    (h1 : u ≤ 1) : ¬ InBox b (along p0 p1 u) := by
  simp only [OutCode.meets, Bool.or_eq_true, Bool.and_eq_true, outCode_left,
    outCode_right b hb, outCode_bottom, outCode_top b hb] at hm
  rintro ⟨k1, k2, k3, k4⟩
  simp only [along_x, along_y] at k1 k2 k3 k4
  have h1' : 0 ≤ 1 - u := by linarith
  rcases hm with ((⟨a, c⟩ | ⟨a, c⟩) | ⟨a, c⟩) | ⟨a, c⟩
  · nlinarith [mul_nonneg h0 (sub_pos.mpr c).le, mul_nonneg h1' (sub_pos.mpr a).le]
  · nlinarith [mul_nonneg h0 (sub_pos.mpr c).le, mul_nonneg h1' (sub_pos.mpr a).le]
  · nlinarith [mul_nonneg h0 (sub_pos.mpr c).le, mul_nonneg h1' (sub_pos.mpr a).le]
  · nlinarith [mul_nonneg h0 (sub_pos.mpr c).le, mul_nonneg h1' (sub_pos.mpr a).le]

theorem clipPoint_second {b : Box K} (hb : ValidBox b) (p0 p1 : P2 K)
    (hany : (outCode Cmp.direct b p1).any = true)
    (hm : (outCode Cmp.direct b p0).meets (outCode Cmp.direct b p1) = false) :
    ∃ t, 0 ≤ t ∧ t ≤ 1 ∧
      clipPoint b (outCode Cmp.direct b p1) p0 p1 = .ok (along p0 p1 t) ∧
      (∀ u, InBox b (along p0 p1 u) → u ≤ t) ∧
      ((outCode Cmp.direct b p0).meets (outCode Cmp.direct b (along p0 p1 t)) = true ∨
        (outCode Cmp.direct b (along p0 p1 t)).count < (outCode Cmp.direct b p1).count) := by
  rw [meets_comm] at hm
  obtain ⟨t, h0, h1, hc, hu, hr⟩ := clipPoint_first hb p1 p0 hany hm
  have e : along p1 p0 t = along p0 p1 (1 - t) := by
    rw [← along_symm p1 p0]
  refine ⟨1 - t, by linarith, by linarith, ?_, ?_, ?_⟩
  · rw [clipPoint_symm, hc, e]
  · intro u hin
    rw [← along_symm] at hin
    have := hu _ hin
    linarith
  · rw [← e, meets_comm]; exact hr

theorem along_first (p0 p1 : P2 K) (t u : K) :
    along (along p0 p1 t) p1 u = along p0 p1 (t + u * (1 - t)) := by
  ext
  · simp only [along_x]; ring
  · simp only [along_y]; ring

theorem along_second (p0 p1 : P2 K) (t u : K) :
    along p0 (along p0 p1 t) u = along p0 p1 (u * t) := by
  ext
  · simp only [along_x]; ring
  · simp only [along_y]; ring

theorem along_zero (p0 p1 : P2 K) : along p0 p1 0 = p0 := by
  ext
  · simp only [along_x]; ring
  · simp only [along_y]; ring

theorem along_one (p0 p1 : P2 K) : along p0 p1 1 = p1 := by
  ext
  · simp only [along_x]; ring
  · simp only [along_y]; ring

theorem count_pos {c : OutCode} (h : c.any = true) : 0 < c.count := by
  simp only [OutCode.any, Bool.or_eq_true] at h
  unfold OutCode.count
  rcases h with ((h | h) | h) | h <;> simp [h]

theorem clipLoop_spec {b : Box K} (hb : ValidBox b) (fuel : Nat) : ∀ p0 p1 : P2 K,
    ((outCode Cmp.direct b p0).meets (outCode Cmp.direct b p1) = true ∧ 1 ≤ fuel ∨
      (outCode Cmp.direct b p0).count + (outCode Cmp.direct b p1).count + 1 ≤ fuel) →
    ∃ acc s t, 0 ≤ s ∧ s ≤ t ∧ t ≤ 1 ∧
      clipLoop Cmp.direct b fuel p0 p1 = .ok (acc, along p0 p1 s, along p0 p1 t) ∧
      (acc = true → InBox b (along p0 p1 s) ∧ InBox b (along p0 p1 t) ∧
        ∀ u, 0 ≤ u → u ≤ 1 → InBox b (along p0 p1 u) → s ≤ u ∧ u ≤ t) ∧
      (acc = false → ∀ u, 0 ≤ u → u ≤ 1 → ¬ InBox b (along p0 p1 u)) := by
  induction fuel with
  | zero => intro p0 p1 h; omega
  | succ fuel ih =>
    intro p0 p1 h
    rw [clipLoop]
    by_cases h1 : ((outCode Cmp.direct b p0).any || (outCode Cmp.direct b p1).any) = false
    · refine ⟨true, 0, 1, le_rfl, zero_le_one, le_rfl, ?_, ?_, by simp⟩
      · simp only [h1, Bool.not_false, if_true, along_zero, along_one]
      · intro _
        rw [Bool.or_eq_false_iff, ← inBox_iff_outCode hb, ← inBox_iff_outCode hb] at h1
        rw [along_zero, along_one]
        exact ⟨h1.1, h1.2, fun u a c _ => ⟨a, c⟩⟩
    have h1' : ((outCode Cmp.direct b p0).any || (outCode Cmp.direct b p1).any) = true := by
      rwa [Bool.not_eq_false] at h1
    by_cases h2 : (outCode Cmp.direct b p0).meets (outCode Cmp.direct b p1) = true
    · refine ⟨false, 0, 1, le_rfl, zero_le_one, le_rfl, ?_, by simp, ?_⟩
      · simp only [h1', h2, Bool.not_true, if_true, along_zero, along_one, Bool.false_eq_true,
          if_false]
      · intro _ u a c
        exact meets_no_point hb p0 p1 h2 a c
    have h2' : (outCode Cmp.direct b p0).meets (outCode Cmp.direct b p1) = false := by
      simpa using h2
    have hf : (outCode Cmp.direct b p0).count + (outCode Cmp.direct b p1).count ≤ fuel := by
      rcases h with h | h
      · exact absurd h.1 h2
      · omega
    by_cases h3 : (outCode Cmp.direct b p0).any = true
    · obtain ⟨t, t0, t1, hc, hu, hr⟩ := clipPoint_first hb p0 p1 h3 h2'
      have hpos := count_pos h3
      simp only [h2', h3, hc, Bool.true_or, Bool.not_true, if_true, Bool.false_eq_true, if_false]
      obtain ⟨acc, s, r, s0, sr, r1, hloop, ha, hn⟩ := ih (along p0 p1 t) p1 (by
        rcases hr with hr | hr
        · left; exact ⟨hr, by omega⟩
        · right; omega)
      refine ⟨acc, t + s * (1 - t), t + r * (1 - t), by nlinarith, by nlinarith, by nlinarith, ?_,
        ?_, ?_⟩
      · rw [hloop, along_first, along_first]
      · intro hacc
        obtain ⟨i1, i2, i3⟩ := ha hacc
        rw [along_first] at i1 i2
        refine ⟨i1, i2, ?_⟩
        intro u a c hin
        have htu := hu u hin
        rcases eq_or_lt_of_le t1 with e1 | e1
        · subst e1
          have : u = 1 := le_antisymm c htu
          subst this; simp
        · have hd : 0 < 1 - t := by linarith
          have := i3 ((u - t) / (1 - t)) (div_nonneg (by linarith) hd.le)
            ((div_le_one hd).mpr (by linarith)) (by
              rw [along_first, div_mul_cancel₀ _ hd.ne']
              simpa using hin)
          rw [le_div_iff₀ hd, div_le_iff₀ hd] at this
          constructor <;> linarith [this.1, this.2]
      · intro hacc u a c hin
        have htu := hu u hin
        rcases eq_or_lt_of_le t1 with e1 | e1
        · subst e1
          have : u = 1 := le_antisymm c htu
          subst this
          refine hn hacc 0 le_rfl zero_le_one ?_
          rw [along_first]; simpa using hin
        · have hd : 0 < 1 - t := by linarith
          refine hn hacc ((u - t) / (1 - t)) (div_nonneg (by linarith) hd.le)
            ((div_le_one hd).mpr (by linarith)) ?_
          rw [along_first, div_mul_cancel₀ _ hd.ne']
          simpa using hin
    · have h3' : (outCode Cmp.direct b p0).any = false := by simpa using h3
      have h4 : (outCode Cmp.direct b p1).any = true := by
        rw [h3', Bool.false_or] at h1'; exact h1'
      have hne : outCode Cmp.direct b p1 ≠ outCode Cmp.direct b p0 := by
        intro e; rw [e, h3'] at h4; simp at h4
      obtain ⟨t, t0, t1, hc, hu, hr⟩ := clipPoint_second hb p0 p1 h4 h2'
      have hpos := count_pos h4
      simp only [h2', h3', h4, hc, Bool.false_or, Bool.not_true, Bool.false_eq_true, if_false, hne]
      obtain ⟨acc, s, r, s0, sr, r1, hloop, ha, hn⟩ := ih p0 (along p0 p1 t) (by
        rcases hr with hr | hr
        · left; exact ⟨hr, by omega⟩
        · right; omega)
      refine ⟨acc, s * t, r * t, mul_nonneg s0 t0, by nlinarith, by nlinarith, ?_, ?_, ?_⟩
      · rw [hloop, along_second, along_second]
      · intro hacc
        obtain ⟨i1, i2, i3⟩ := ha hacc
        rw [along_second] at i1 i2
        refine ⟨i1, i2, ?_⟩
        intro u a c hin
        have htu := hu u hin
        rcases eq_or_lt_of_le t0 with e1 | e1
        · subst e1
          have : u = 0 := le_antisymm htu a
          subst this; simp
        · have := i3 (u / t) (div_nonneg a e1.le) ((div_le_one e1).mpr htu) (by
              rw [along_second, div_mul_cancel₀ _ e1.ne']
              exact hin)
          rw [le_div_iff₀ e1, div_le_iff₀ e1] at this
          exact this
      · intro hacc u a c hin
        have htu := hu u hin
        rcases eq_or_lt_of_le t0 with e1 | e1
        · subst e1
          have : u = 0 := le_antisymm htu a
          subst this
          refine hn hacc 0 le_rfl zero_le_one ?_
          rw [along_second]; simpa using hin
        · refine hn hacc (u / t) (div_nonneg a e1.le) ((div_le_one e1).mpr htu) ?_
          rw [along_second, div_mul_cancel₀ _ e1.ne']
          exact hin

theorem count_le (b : Box K) (hb : ValidBox b) (p : P2 K) :
    (outCode Cmp.direct b p).count ≤ 2 := by
  have k : ∀ a c d e : Bool, (a = true → c = true → False) → (d = true → e = true → False) →
      a.toNat + c.toNat + d.toNat + e.toNat ≤ 2 := by decide
  refine k _ _ _ _ ?_ ?_
  · rw [outCode_left, outCode_right b hb]; intro h h'; have := hb.1; linarith
  · rw [outCode_bottom, outCode_top b hb]; intro h h'; have := hb.2; linarith

theorem cohenSutherland_spec {b : Box K} (hb : ValidBox b) (p0 p1 : P2 K) :
    ∃ acc s t, 0 ≤ s ∧ s ≤ t ∧ t ≤ 1 ∧
      cohenSutherland Cmp.direct b p0 p1 = .ok (acc, along p0 p1 s, along p0 p1 t) ∧
      (acc = true → InBox b (along p0 p1 s) ∧ InBox b (along p0 p1 t) ∧
        ∀ u, 0 ≤ u → u ≤ 1 → InBox b (along p0 p1 u) → s ≤ u ∧ u ≤ t) ∧
      (acc = false → ∀ u, 0 ≤ u → u ≤ 1 → ¬ InBox b (along p0 p1 u)) := by
  refine clipLoop_spec hb 6 p0 p1 (Or.inr ?_)
  have h0 := count_le b hb p0
  have h1 := count_le b hb p1
  omega

end Geometrix
