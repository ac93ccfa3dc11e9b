import Verif.Lemmas.Grid

/-!
# C33: addressing of grid cells
-/

set_option linter.unusedSectionVars false

namespace Geometrix

open Spec

variable {K : Type*} [Field K] [LinearOrder K] [IsStrictOrderedRing K] [FloorSemiring K]

/-- The constructor accepts exactly the bounds of positive size with a positive cell width and fewer
than `2^32` cell widths in both directions, and keeps them. -/
theorem C33_construct (xmin xmax ymin ymax w : K) :
    (∃ g, makeGrid xmin xmax ymin ymax w = .ok g ∧ g.xmin = xmin ∧ g.xmax = xmax ∧
        g.ymin = ymin ∧ g.ymax = ymax ∧ g.cellWidth = w) ↔
      0 < w ∧ xmin < xmax ∧ ymin < ymax ∧ xmax - xmin < 2 ^ 32 * w ∧ ymax - ymin < 2 ^ 32 * w := by
  constructor
  · rintro ⟨g, h, -⟩
    obtain ⟨h1, h2, h3, h4, h5, -⟩ := makeGrid_ok h
    rw [mul_one_div, div_lt_iff₀ h1] at h4 h5
    exact ⟨h1, h2, h3, h4, h5⟩
  · rintro ⟨h1, h2, h3, h4, h5⟩
    rw [← div_lt_iff₀ h1, ← mul_one_div] at h4 h5
    exact ⟨_, makeGrid_eq h1 h2 h3 h4 h5, rfl, rfl, rfl, rfl, rfl⟩

example : ∃ g, makeGrid (0 : ℚ) 10 0 20 3 = .ok g ∧ g.width = 4 ∧ g.height = 7 := by
  have h : (match makeGrid (0 : ℚ) 10 0 20 3 with
      | .ok g => g.width == 4 && g.height == 7 | _ => false) = true := by decide +kernel
  cases hg : makeGrid (0 : ℚ) 10 0 20 3 with
  | error e => rw [hg] at h; simp at h
  | ok g => rw [hg] at h; simp at h; exact ⟨g, rfl, h⟩

/-- A point inside a grid has indices below the width and the height, provided the grid has less than
`2^32 - 1` cell widths in both directions. Missing for the full property: between `2^32 - 1` and `2^32`
cell widths the number of cells is stored as zero (`C33_valid_refuted`). -/
theorem C33_valid_partial {xmin xmax ymin ymax w : K} {g : GridTraits K}
    (h : makeGrid xmin xmax ymin ymax w = .ok g) (hx : xmax - xmin < (2 ^ 32 - 1) * w)
    (hy : ymax - ymin < (2 ^ 32 - 1) * w) (p : P2 K) (hp : InBox ⟨⟨xmin, ymin⟩, ⟨xmax, ymax⟩⟩ p) :
    ∃ i j, g.xIndex p.x = .ok i ∧ g.yIndex p.y = .ok j ∧ i < g.width ∧ j < g.height := by
  obtain ⟨h1, h2, h3, h4, h5, rfl⟩ := makeGrid_ok h
  obtain ⟨p1, p2, p3, p4⟩ := hp
  obtain ⟨ix, jx⟩ := index_spec h1 p1 p2 h4
  obtain ⟨iy, jy⟩ := index_spec h1 p3 p4 h5
  rw [← div_lt_iff₀ h1, ← mul_one_div] at hx hy
  have ex := addU32_of_lt (floor_lt_of (mul_nonneg (by linarith) (by positivity)) hx)
  have ey := addU32_of_lt (floor_lt_of (mul_nonneg (by linarith) (by positivity)) hy)
  refine ⟨⌊(p.x - xmin) * (1 / w)⌋₊, ⌊(p.y - ymin) * (1 / w)⌋₊, ?_, ?_, ?_, ?_⟩
  · simp only [GridTraits.xIndex, ge_iff_le]
    rw [if_neg (not_not.mpr ⟨p1, p2⟩), ix]
  · simp only [GridTraits.yIndex, ge_iff_le]
    rw [if_neg (not_not.mpr ⟨p3, p4⟩), iy]
  · simp only [GridTraits.width, ex]
    exact Nat.lt_succ_of_le jx
  · simp only [GridTraits.height, ey]
    exact Nat.lt_succ_of_le jy

/-- A grid with `2^32 - 1` cells of width 1 in the x direction has width zero: no index is valid. -/
theorem C33_valid_refuted :
    ∃ (g : GridTraits ℚ), makeGrid 0 (2 ^ 32 - 1) 0 1 1 = .ok g ∧ g.width = 0 ∧
      g.xIndex 0 = .ok 0 := by
  have h : (match makeGrid (0 : ℚ) (2 ^ 32 - 1) 0 1 1 with
      | .ok g => g.width == 0 && (match g.xIndex 0 with | .ok i => i == 0 | _ => false)
      | _ => false) = true := by decide +kernel
  cases hg : makeGrid (0 : ℚ) (2 ^ 32 - 1) 0 1 1 with
  | error e => rw [hg] at h; simp at h
  | ok g =>
    rw [hg] at h
    simp only [Bool.and_eq_true, beq_iff_eq] at h
    refine ⟨g, rfl, h.1, ?_⟩
    cases hi : g.xIndex 0 with
    | error e => rw [hi] at h; simp at h
    | ok i => rw [hi] at h; simp at h; rw [h.2]

/-- The indices of a coordinate outside the bounds are not computed. -/
theorem C33_outside {xmin xmax ymin ymax w : K} {g : GridTraits K}
    (h : makeGrid xmin xmax ymin ymax w = .ok g) (x : K) :
    (x < xmin ∨ xmax < x → g.xIndex x = .error .assertFailed) ∧
      (x < ymin ∨ ymax < x → g.yIndex x = .error .assertFailed) := by
  obtain ⟨h1, h2, h3, h4, h5, rfl⟩ := makeGrid_ok h
  constructor <;> intro hx
  · simp only [GridTraits.xIndex, ge_iff_le]
    rw [if_pos]
    rintro ⟨a, b⟩
    rcases hx with hx | hx <;> linarith
  · simp only [GridTraits.yIndex, ge_iff_le]
    rw [if_pos]
    rintro ⟨a, b⟩
    rcases hx with hx | hx <;> linarith

/-- `is_contained` says whether a point is in the bounds, borders included. -/
theorem C33_is_contained {xmin xmax ymin ymax w : K} {g : GridTraits K}
    (h : makeGrid xmin xmax ymin ymax w = .ok g) (p : P2 K) :
    g.isContained p = true ↔ InBox ⟨⟨xmin, ymin⟩, ⟨xmax, ymax⟩⟩ p := by
  obtain ⟨h1, h2, h3, h4, h5, rfl⟩ := makeGrid_ok h
  simp only [GridTraits.isContained, Bool.and_eq_true, decide_eq_true_iff]
  constructor
  · rintro ⟨⟨⟨a, b⟩, c⟩, d⟩; exact ⟨a, b, c, d⟩
  · rintro ⟨a, b, c, d⟩; exact ⟨⟨⟨a, b⟩, c⟩, d⟩

/-- The index of a coordinate in the bounds is `i` exactly if the coordinate is in the half open
interval number `i`. So two points have the same indices exactly if they are in the same cell. -/
theorem C33_same_cell {xmin xmax ymin ymax w : K} {g : GridTraits K}
    (h : makeGrid xmin xmax ymin ymax w = .ok g) (p : P2 K)
    (hp : InBox ⟨⟨xmin, ymin⟩, ⟨xmax, ymax⟩⟩ p) (i j : Nat) :
    (g.xIndex p.x = .ok i ↔ InCell xmin w i p.x) ∧ (g.yIndex p.y = .ok j ↔ InCell ymin w j p.y) := by
  obtain ⟨h1, h2, h3, h4, h5, rfl⟩ := makeGrid_ok h
  obtain ⟨p1, p2, p3, p4⟩ := hp
  obtain ⟨ix, jx⟩ := index_spec h1 p1 p2 h4
  obtain ⟨iy, jy⟩ := index_spec h1 p3 p4 h5
  constructor
  · simp only [GridTraits.xIndex, ge_iff_le]
    rw [if_neg (not_not.mpr ⟨p1, p2⟩), ix, ← floor_inCell h1 p1]
    exact ⟨Except.ok.inj, fun h => by rw [h]⟩
  · simp only [GridTraits.yIndex, ge_iff_le]
    rw [if_neg (not_not.mpr ⟨p3, p4⟩), iy, ← floor_inCell h1 p3]
    exact ⟨Except.ok.inj, fun h => by rw [h]⟩

/-- The four corners of a cell, counter clockwise from the lower left one, its polygon, its box and its
centre. -/
theorem C33_cell_shape {xmin xmax ymin ymax w : K} {g : GridTraits K}
    (h : makeGrid xmin xmax ymin ymax w = .ok g) (i j : Nat) (hi : i + 1 < 2 ^ 32)
    (hj : j + 1 < 2 ^ 32) :
    g.cellCorner0 i j = ⟨xmin + i * w, ymin + j * w⟩ ∧
      g.cellCorner1 i j = ⟨xmin + (i + 1) * w, ymin + j * w⟩ ∧
      g.cellCorner2 i j = ⟨xmin + (i + 1) * w, ymin + (j + 1) * w⟩ ∧
      g.cellCorner3 i j = ⟨xmin + i * w, ymin + (j + 1) * w⟩ ∧
      g.cellPolygon i j =
        [g.cellCorner0 i j, g.cellCorner1 i j, g.cellCorner2 i j, g.cellCorner3 i j] ∧
      g.cellAabb i j = ⟨g.cellCorner0 i j, g.cellCorner2 i j⟩ ∧
      g.cellCorner0 i j + g.cellCorner2 i j = g.cellCentroid i j + g.cellCentroid i j := by
  obtain ⟨h1, h2, h3, h4, h5, rfl⟩ := makeGrid_ok h
  simp only [GridTraits.cellCorner0, GridTraits.cellCorner1, GridTraits.cellCorner2,
    GridTraits.cellCorner3, GridTraits.cellPolygon, GridTraits.cellAabb, GridTraits.cellCentroid,
    addU32_of_lt hi, addU32_of_lt hj, Nat.cast_add, Nat.cast_one, true_and]
  ext <;> simp only [P2.add_x, P2.add_y] <;> ring

/-- A point inside a grid is between the corners of the cell with its indices, on the low sides or
inside. -/
theorem C33_corners_bound {xmin xmax ymin ymax w : K} {g : GridTraits K}
    (h : makeGrid xmin xmax ymin ymax w = .ok g) (p : P2 K)
    (hp : InBox ⟨⟨xmin, ymin⟩, ⟨xmax, ymax⟩⟩ p) (i j : Nat) (hi : i + 1 < 2 ^ 32)
    (hj : j + 1 < 2 ^ 32) (hx : g.xIndex p.x = .ok i) (hy : g.yIndex p.y = .ok j) :
    (g.cellCorner0 i j).x ≤ p.x ∧ p.x < (g.cellCorner2 i j).x ∧
      (g.cellCorner0 i j).y ≤ p.y ∧ p.y < (g.cellCorner2 i j).y ∧ InBox (g.cellAabb i j) p := by
  obtain ⟨hcx, hcy⟩ := C33_same_cell h p hp i j
  obtain ⟨a1, a2⟩ := hcx.mp hx
  obtain ⟨b1, b2⟩ := hcy.mp hy
  obtain ⟨c0, -, c2, -, -, cb, -⟩ := C33_cell_shape h i j hi hj
  rw [cb]
  simp only [c0, c2, InBox]
  exact ⟨a1, a2, b1, b2, a1, a2.le, b1, b2.le⟩

/-- The centre of a cell has the indices of the cell, if the centre is inside the grid. Missing for the
full property: the centre of a cell at the high sides may be outside the bounds
(`C33_centroid_refuted`). -/
theorem C33_centroid_partial {xmin xmax ymin ymax w : K} {g : GridTraits K}
    (h : makeGrid xmin xmax ymin ymax w = .ok g) (i j : Nat)
    (hp : InBox ⟨⟨xmin, ymin⟩, ⟨xmax, ymax⟩⟩ (g.cellCentroid i j)) :
    g.xIndex (g.cellCentroid i j).x = .ok i ∧ g.yIndex (g.cellCentroid i j).y = .ok j := by
  obtain ⟨hcx, hcy⟩ := C33_same_cell h _ hp i j
  rw [hcx, hcy]
  obtain ⟨h1, h2, h3, h4, h5, rfl⟩ := makeGrid_ok h
  simp only [GridTraits.cellCentroid, InCell]
  refine ⟨⟨?_, ?_⟩, ?_, ?_⟩ <;> nlinarith

/-- A grid from (0,0) to (1,1) with cells of width 1 has two by two cells, and the index of the centre
of its last cell fails an assertion. -/
theorem C33_centroid_refuted :
    ∃ (g : GridTraits ℚ), makeGrid 0 1 0 1 1 = .ok g ∧ 1 < g.width ∧ 1 < g.height ∧
      g.xIndex (g.cellCentroid 1 1).x = .error .assertFailed := by
  have h : (match makeGrid (0 : ℚ) 1 0 1 1 with
      | .ok g => decide (1 < g.width) && decide (1 < g.height) &&
        (match g.xIndex (g.cellCentroid 1 1).x with | .error .assertFailed => true | _ => false)
      | _ => false) = true := by decide +kernel
  cases hg : makeGrid (0 : ℚ) 1 0 1 1 with
  | error e => rw [hg] at h; simp at h
  | ok g =>
    rw [hg] at h
    simp only [Bool.and_eq_true, decide_eq_true_eq] at h
    refine ⟨g, rfl, h.1.1, h.1.2, ?_⟩
    have h' := h.2
    split at h'
    · assumption
    · simp at h'

/-- The scaled coordinates are the coordinates relative to the low corner, in cell widths. -/
theorem C33_scaled {xmin xmax ymin ymax w : K} {g : GridTraits K}
    (h : makeGrid xmin xmax ymin ymax w = .ok g) (x y : K) :
    xmin + g.scaledX x * w = x ∧ ymin + g.scaledY y * w = y := by
  obtain ⟨h1, h2, h3, h4, h5, rfl⟩ := makeGrid_ok h
  simp only [GridTraits.scaledX, GridTraits.scaledY]
  constructor <;> field_simp <;> ring

end Geometrix
