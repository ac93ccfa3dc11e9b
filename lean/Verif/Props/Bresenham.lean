import Verif.Lemmas.Bresenham
import Verif.Lemmas.Grid

/-!
# C35: Bresenham traversal
-/

set_option linter.unusedSectionVars false

namespace Geometrix

open Spec

/-- The traversal between any two cells ends, starts at the first cell, ends at the last, moves to one
of the eight neighbours in each step, visits no cell twice, visits as many cells as the larger
coordinate difference and one more, and stays within half a cell of the line. -/
theorem C35_cells (x1 y1 x2 y2 : Int) (fuel : Nat)
    (hf : |x2 - x1| < fuel ∧ |y2 - y1| < fuel) :
    ∃ cells, bresenhamCells fuel x1 y1 x2 y2 = .ok cells ∧
      cells.head? = some (x1, y1) ∧ cells.getLast? = some (x2, y2) ∧
      cells.IsChain Neighbours8 ∧ cells.Nodup ∧
      (cells.length : Int) = max |x2 - x1| |y2 - y1| + 1 ∧
      ∀ c ∈ cells, HalfCellFromLine (x1, y1) (x2, y2) c := by
  suffices ∃ cells, bresenhamCells fuel x1 y1 x2 y2 = .ok cells ∧ GoodPath (x1, y1) (x2, y2) cells from
    this
  have hX : (((x2 - x1).natAbs : Nat) : Int) = |x2 - x1| := Int.natCast_natAbs _
  have hY : (((y2 - y1).natAbs : Nat) : Int) = |y2 - y1| := Int.natCast_natAbs _
  unfold bresenhamCells
  simp only [bind, Except.bind]
  by_cases hx : x2 - x1 = 0
  · by_cases hy : y2 - y1 = 0
    · rw [if_pos ⟨hx, hy⟩]
      obtain rfl : x2 = x1 := by linarith
      obtain rfl : y2 = y1 := by linarith
      refine ⟨_, rfl, rfl, rfl, by simp, by simp, by simp, ?_⟩
      intro c hc
      simp only [List.mem_singleton] at hc
      subst hc
      simp [HalfCellFromLine]
    · rw [if_neg (fun h => hy h.2), if_neg hy, if_pos hx]
      obtain rfl : x2 = x1 := by linarith
      obtain ⟨hs, he⟩ := sign_div hy
      obtain ⟨rest, h1, h2⟩ := goodPath_straight y1 x2 (Int.tdiv (y2 - y1) (intAbs (y2 - y1)))
        (y2 - y1).natAbs hs fuel (by omega)
      rw [hY, ← he] at h1 h2
      rw [add_sub_cancel] at h1 h2
      rw [h1]
      refine ⟨_, rfl, ?_⟩
      have := h2.swap
      simpa [Function.comp_def] using this
  · obtain ⟨hs, he⟩ := sign_div hx
    rw [if_neg (fun h => hx h.1)]
    by_cases hy : y2 - y1 = 0
    · rw [if_pos hy]
      obtain rfl : y2 = y1 := by linarith
      obtain ⟨rest, h1, h2⟩ := goodPath_straight x1 y2 (Int.tdiv (x2 - x1) (intAbs (x2 - x1)))
        (x2 - x1).natAbs hs fuel (by omega)
      rw [hX, ← he] at h1 h2
      rw [add_sub_cancel] at h1 h2
      rw [h1]
      exact ⟨_, rfl, h2⟩
    · obtain ⟨ht, hf'⟩ := sign_div hy
      rw [if_neg hy, if_neg hx]
      by_cases hlt : intAbs (x2 - x1) < intAbs (y2 - y1)
      · rw [if_pos hlt]
        rw [intAbs_eq (x2 - x1), intAbs_eq (y2 - y1)] at hlt
        obtain ⟨rest, h1, h2⟩ := goodPath_flat y1 x1 (Int.tdiv (y2 - y1) (intAbs (y2 - y1)))
          (Int.tdiv (x2 - x1) (intAbs (x2 - x1))) |x2 - x1| (y2 - y1).natAbs ht hs
          (abs_pos.mpr hx) (by rw [hY]; exact hlt.le) fuel (by omega)
        rw [hY] at h1 h2
        rw [← hf', add_sub_cancel] at h1 h2
        rw [← he, add_sub_cancel] at h2
        simp only [bresSteep_eq]
        rw [intAbs_eq (x2 - x1), intAbs_eq (y2 - y1)] at *
        rw [h1]
        refine ⟨_, rfl, ?_⟩
        have := h2.swap
        simpa using this
      · rw [if_neg hlt]
        rw [intAbs_eq (x2 - x1), intAbs_eq (y2 - y1)] at hlt
        obtain ⟨rest, h1, h2⟩ := goodPath_flat x1 y1 (Int.tdiv (x2 - x1) (intAbs (x2 - x1)))
          (Int.tdiv (y2 - y1) (intAbs (y2 - y1))) |y2 - y1| (x2 - x1).natAbs hs ht
          (abs_pos.mpr hy) (by rw [hX]; exact not_lt.mp hlt) fuel (by omega)
        rw [hX] at h1 h2
        rw [← he, add_sub_cancel] at h1 h2
        rw [← hf', add_sub_cancel] at h2
        rw [intAbs_eq (x2 - x1), intAbs_eq (y2 - y1)] at *
        rw [h1]
        exact ⟨_, rfl, h2⟩

example : |(7 : Int) - 2| < (6 : Nat) ∧ |(1 : Int) - 4| < (6 : Nat) := by decide

/-- The traversal of a segment inside a grid goes from the cell of its start to the cell of its end. -/
theorem C35_segment {K : Type} [Field K] [LinearOrder K] [IsStrictOrderedRing K] [FloorSemiring K]
    {xmin xmax ymin ymax w : K} {g : GridTraits K} (h : makeGrid xmin xmax ymin ymax w = .ok g)
    (s : Seg K) (i1 j1 i2 j2 : Nat) (hs : InBox ⟨⟨xmin, ymin⟩, ⟨xmax, ymax⟩⟩ s.s)
    (he : InBox ⟨⟨xmin, ymin⟩, ⟨xmax, ymax⟩⟩ s.e)
    (h1 : InCell xmin w i1 s.s.x) (h2 : InCell ymin w j1 s.s.y) (h3 : InCell xmin w i2 s.e.x)
    (h4 : InCell ymin w j2 s.e.y) (fuel : Nat) :
    bresenhamTraversal fuel g s = bresenhamCells fuel i1 j1 i2 j2 := by
  obtain ⟨k1, k2, k3, k4, k5, rfl⟩ := makeGrid_ok h
  have key : ∀ {x0 x1 x : K} {i : Nat}, x0 ≤ x → x ≤ x1 → (x1 - x0) * (1 / w) < 2 ^ 32 →
      InCell x0 w i x → toU32 ((x - x0) * (1 / w)) = .ok i := by
    intro x0 x1 x i a b c d
    rw [(index_spec k1 a b c).1, (floor_inCell k1 a i).mpr d]
  have a1 := key hs.1 hs.2.1 k4 h1
  have a2 := key hs.2.2.1 hs.2.2.2 k5 h2
  have a3 := key he.1 he.2.1 k4 h3
  have a4 := key he.2.2.1 he.2.2.2 k5 h4
  simp only [InBox] at hs he
  simp only [bresenhamTraversal, GridTraits.xIndex, GridTraits.yIndex, ge_iff_le, hs, he, and_self,
    not_true_eq_false, if_false, bind, Except.bind, a1, a2, a3, a4]

end Geometrix
