import Verif.Lemmas.Rounded

/-!
# C113: the cells of a grid with rounding
-/

set_option linter.unusedSectionVars false

namespace Geometrix

open Spec

variable {K : Type*} [Field K] [LinearOrder K] [IsStrictOrderedRing K] [FloorSemiring K]

/-- C113: every point in the bounds of the grid has indices in the range of the grid, however the numbers are rounded, as
long as rounding keeps the order and zero. The grid must not have wrapped its number of columns or rows to zero; that this
can happen is `C33_valid_refuted`. -/
theorem C113_valid {fl : K → K} (hm : Monotone fl) (h0 : fl 0 = 0) {xmin xmax ymin ymax w : K} {g : GridTraits K}
    (h : makeGridR fl xmin xmax ymin ymax w = .ok g) (hw : g.width ≠ 0) (hh : g.height ≠ 0) (p : P2 K)
    (hp : InBox ⟨⟨xmin, ymin⟩, ⟨xmax, ymax⟩⟩ p) :
    ∃ i j, g.xIndexR fl p.x = .ok i ∧ g.yIndexR fl p.y = .ok j ∧ i < g.width ∧ j < g.height := by
  obtain ⟨h1, h2, h3, h4, h5, rfl⟩ := makeGridR_ok h
  obtain ⟨p1, p2, p3, p4⟩ := hp
  obtain ⟨ix, -, jx⟩ := indexR_spec hm h0 h1 p1 p2 h4
  obtain ⟨iy, -, jy⟩ := indexR_spec hm h0 h1 p3 p4 h5
  refine ⟨_, _, ?_, ?_, addU32_pos h4 (Nat.floor_mono jx) hw, addU32_pos h5 (Nat.floor_mono jy) hh⟩
  · simp only [GridTraits.xIndexR, ge_iff_le]
    rw [if_neg (not_not.mpr ⟨p1, p2⟩), ix]
  · simp only [GridTraits.yIndexR, ge_iff_le]
    rw [if_neg (not_not.mpr ⟨p3, p4⟩), iy]

/-- C113: the indices grow with the coordinates, however the numbers are rounded. -/
theorem C113_order {fl : K → K} (hm : Monotone fl) (h0 : fl 0 = 0) {xmin xmax ymin ymax w : K} {g : GridTraits K}
    (h : makeGridR fl xmin xmax ymin ymax w = .ok g) {a b : K} (hab : a ≤ b) {i j : Nat} :
    (g.xIndexR fl a = .ok i → g.xIndexR fl b = .ok j → i ≤ j) ∧
    (g.yIndexR fl a = .ok i → g.yIndexR fl b = .ok j → i ≤ j) := by
  obtain ⟨h1, h2, h3, h4, h5, rfl⟩ := makeGridR_ok h
  have hd : 0 ≤ fl (1 / w) := by
    rw [← h0]
    exact hm (by positivity)
  have key : ∀ lo : K, fl (fl (a - lo) * fl (1 / w)) ≤ fl (fl (b - lo) * fl (1 / w)) := fun lo =>
    hm (mul_le_mul_of_nonneg_right (hm (by linarith)) hd)
  constructor
  · intro hi hj
    simp only [GridTraits.xIndexR, toU32] at hi hj
    split_ifs at hi hj
    rw [← Except.ok.inj hi, ← Except.ok.inj hj]
    exact Nat.floor_mono (key _)
  · intro hi hj
    simp only [GridTraits.yIndexR, toU32] at hi hj
    split_ifs at hi hj
    rw [← Except.ok.inj hi, ← Except.ok.inj hj]
    exact Nat.floor_mono (key _)

/-- C113: a coordinate with index `i` is in the interval number `i` up to the error of three operations. The full property,
that it is in that interval, does not hold: see `C113_cell_refuted`. -/
theorem C113_near_partial {u : K} {fl : K → K} (hf : RoundsWithin u fl) {xmin xmax ymin ymax w : K}
    {g : GridTraits K} (h : makeGridR fl xmin xmax ymin ymax w = .ok g) (x : K) (i : Nat) :
    (g.xIndexR fl x = .ok i →
      i * w ≤ (1 + u) ^ 3 * (x - xmin) ∧ (2 - (1 + u) ^ 3) * (x - xmin) < (i + 1) * w) ∧
    (g.yIndexR fl x = .ok i →
      i * w ≤ (1 + u) ^ 3 * (x - ymin) ∧ (2 - (1 + u) ^ 3) * (x - ymin) < (i + 1) * w) := by
  obtain ⟨h1, h2, h3, h4, h5, rfl⟩ := makeGridR_ok h
  have key : ∀ lo hi : K, lo ≤ x → x ≤ hi → fl (fl (hi - lo) * fl (1 / w)) < 2 ^ 32 →
      toU32 (fl (fl (x - lo) * fl (1 / w))) = .ok i →
      i * w ≤ (1 + u) ^ 3 * (x - lo) ∧ (2 - (1 + u) ^ 3) * (x - lo) < (i + 1) * w := by
    intro lo hi p1 p2 hV hi
    obtain ⟨ix, nx, -⟩ := indexR_spec hf.mono hf.zero h1 p1 p2 hV
    rw [ix] at hi
    have hi := Except.ok.inj hi
    have hr := rel_product hf (x - lo) (1 / w)
    unfold Rel at hr
    have hq : 0 ≤ (x - lo) * (1 / w) := mul_nonneg (by linarith) (by positivity)
    rw [abs_of_nonneg hq, abs_le] at hr
    have f1 := Nat.floor_le nx
    have f2 := Nat.lt_floor_add_one (fl (fl (x - lo) * fl (1 / w)))
    rw [hi] at f1 f2
    have e : (x - lo) * (1 / w) * w = x - lo := by field_simp
    generalize (x - lo) * (1 / w) = q at *
    constructor
    · have : (i : K) ≤ (1 + u) ^ 3 * q := by linarith [hr.2]
      calc _ ≤ (1 + u) ^ 3 * q * w := mul_le_mul_of_nonneg_right this h1.le
        _ = _ := by rw [mul_assoc, e]
    · have : (2 - (1 + u) ^ 3) * q < i + 1 := by linarith [hr.1]
      calc _ = (2 - (1 + u) ^ 3) * q * w := by rw [mul_assoc, e]
        _ < _ := mul_lt_mul_of_pos_right this h1
  constructor
  · intro hi
    simp only [GridTraits.xIndexR, ge_iff_le] at hi
    by_cases hb : xmin ≤ x ∧ x ≤ xmax
    · rw [if_neg (not_not.2 hb)] at hi
      exact key _ _ hb.1 hb.2 h4 hi
    · rw [if_pos hb] at hi; cases hi
  · intro hi
    simp only [GridTraits.yIndexR, ge_iff_le] at hi
    by_cases hb : ymin ≤ x ∧ x ≤ ymax
    · rw [if_neg (not_not.2 hb)] at hi
      exact key _ _ hb.1 hb.2 h5 hi
    · rw [if_pos hb] at hi; cases hi

/-- The constructor succeeds for the cell width `0.1`, with the numbers of the type `double`. -/
example : (match makeGridR (roundBits 53) (0 : ℚ) 1 0 1 (roundBits 53 (1 / 10)) with
    | .ok g => g.width == 11 && g.height == 11
    | _ => false) = true := by decide +kernel

/-- C113, the box of a cell: its sides are where they should be up to the error of two operations, and it is not turned inside
out. -/
theorem C113_box {u : K} {fl : K → K} (hf : RoundsWithin u fl) {g : GridTraits K} (hw : 0 ≤ g.cellWidth) {i j : Nat}
    (hi : i + 1 < 2 ^ 32) (hj : j + 1 < 2 ^ 32) :
    let b := g.cellAabbR fl i j
    |b.lo.x - (g.xmin + i * g.cellWidth)| ≤ ((1 + u) ^ 2 - 1) * (|g.xmin| + i * g.cellWidth) ∧
    |b.hi.x - (g.xmin + (i + 1) * g.cellWidth)| ≤ ((1 + u) ^ 2 - 1) * (|g.xmin| + (i + 1) * g.cellWidth) ∧
    |b.lo.y - (g.ymin + j * g.cellWidth)| ≤ ((1 + u) ^ 2 - 1) * (|g.ymin| + j * g.cellWidth) ∧
    |b.hi.y - (g.ymin + (j + 1) * g.cellWidth)| ≤ ((1 + u) ^ 2 - 1) * (|g.ymin| + (j + 1) * g.cellWidth) ∧
    b.lo.x ≤ b.hi.x ∧ b.lo.y ≤ b.hi.y := by
  have e : ∀ n : Nat, n + 1 < 2 ^ 32 → ((addU32 n 1 : Nat) : K) = (n : K) + 1 := by
    intro n hn
    have : addU32 n 1 = n + 1 := by unfold addU32; exact Nat.mod_eq_of_lt hn
    rw [this]; push_cast; rfl
  have key : ∀ lo x : K, 0 ≤ x → |fl (lo + fl x) - (lo + x)| ≤ ((1 + u) ^ 2 - 1) * (|lo| + x) := by
    intro lo x hx
    have hu := hf.u_nonneg
    have h1 := hf.near x
    have h2 := hf.near (lo + fl x)
    rw [abs_of_nonneg hx] at h1
    have h3 : |lo + fl x| ≤ |lo| + (1 + u) * x := by
      have : |fl x| ≤ (1 + u) * x := by
        have := abs_sub_abs_le_abs_sub (fl x) x
        rw [abs_of_nonneg hx] at this
        linarith
      exact (abs_add_le _ _).trans (by linarith)
    have h4 : fl (lo + fl x) - (lo + x) = (fl (lo + fl x) - (lo + fl x)) + (fl x - x) := by ring
    rw [h4]
    have h5 := mul_le_mul_of_nonneg_left h3 hu
    have h6 : u * |lo| ≤ ((1 + u) ^ 2 - 1) * |lo| := mul_le_mul_of_nonneg_right (by nlinarith) (abs_nonneg _)
    refine (abs_add_le _ _).trans ?_
    nlinarith
  have mono : ∀ (lo : K) (n : Nat), fl (lo + fl ((n : K) * g.cellWidth)) ≤ fl (lo + fl (((n : K) + 1) * g.cellWidth)) := by
    intro lo n
    apply hf.mono
    have := hf.mono (show (n : K) * g.cellWidth ≤ ((n : K) + 1) * g.cellWidth from by nlinarith)
    linarith
  simp only [GridTraits.cellAabbR, e i hi, e j hj]
  exact ⟨key _ _ (by positivity), key _ _ (by positivity), key _ _ (by positivity), key _ _ (by positivity), mono _ _, mono _ _⟩

example : ∃ g : GridTraits ℚ, makeGridR (roundBits 53) 0 1 0 1 (roundBits 53 (1 / 10)) = .ok g ∧ 0 ≤ g.cellWidth ∧
    (3 : Nat) + 1 < 2 ^ 32 := by
  refine ⟨⟨0, 1, 0, 1, roundBits 53 (1 / 10), roundBits 53 (1 / roundBits 53 (1 / 10)), 11, 11⟩, ?_, ?_, ?_⟩ <;>
    decide +kernel

/-- C113, refuted: with the numbers of the type `double`, in the grid from `0` to `1` with the cell width `0.1`, the
coordinate `0.3` has the index `3`, but the box of that cell begins above `0.3`. -/
theorem C113_cell_refuted :
    ∃ g : GridTraits ℚ, makeGridR (roundBits 53) 0 1 0 1 (roundBits 53 (1 / 10)) = .ok g ∧
      g.xIndexR (roundBits 53) (roundBits 53 (3 / 10)) = .ok 3 ∧
      g.yIndexR (roundBits 53) (roundBits 53 (3 / 10)) = .ok 3 ∧
      ¬ InBox (g.cellAabbR (roundBits 53) 3 3) ⟨roundBits 53 (3 / 10), roundBits 53 (3 / 10)⟩ := by
  refine ⟨⟨0, 1, 0, 1, roundBits 53 (1 / 10), roundBits 53 (1 / roundBits 53 (1 / 10)), 11, 11⟩, ?_, ?_, ?_, ?_⟩
  · decide +kernel
  · decide +kernel
  · decide +kernel
  · unfold InBox
    decide +kernel

end Geometrix
