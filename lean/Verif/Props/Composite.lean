import Verif.Lemmas.Composite
import Mathlib.Tactic.FinCases

/-!
# Property theorems: matrices composed of blocks
-/

namespace Geometrix

open Spec

/-- **C124, partial.** If blocks of the given sizes can be laid out in reading order in a matrix of the given size,
`as_matrix` places them so, and `get` returns the element of the block that covers the place. The compiler instantiates at
most `rows * columns + 2` states.

The full property has no condition `FewEdges`; without it, it is false (`C124_wide_refuted`). -/
theorem C124_layout_partial {α : Type*} (rows columns depth : Nat) (sizes : List (Nat × Nat)) (blocks : List Placed)
    (m : Nat → Nat → Nat → α) (hl : IsLayout rows columns sizes blocks) (hf : FewEdges columns blocks) (hc : 0 < columns)
    (hd : rows * columns + 1 < depth) :
    composeSchema depth columns sizes = some blocks ∧
      ∀ i < rows, ∀ j < columns, ∃ p ∈ blocks, CoversPlace p i j ∧
        asMatrixGet depth rows columns sizes m i j = some (m p.index (i - p.row) (j - p.col)) := by
  have h := compose_layout hl hf hc hd
  refine ⟨h, ?_⟩
  intro i hi j hj
  obtain ⟨p, hp, hpc⟩ := hl.covered i hi j hj
  refine ⟨p, hp, hpc, ?_⟩
  simp only [asMatrixGet, h, compositeGet, find_block hl hp hpc]
  rw [if_pos ⟨hi, hj⟩]

example : IsLayout 6 6 [(4, 4), (1, 2), (3, 2), (2, 4), (1, 2), (1, 2)] exampleBlocks where
  sized := rfl
  indices := rfl
  positive := by decide
  inside := by decide
  covered := by decide +kernel
  once := once_of_bounded (rows := 6) (columns := 6) (by decide) (by decide +kernel)
  order := by unfold exampleBlocks Before; decide

example : FewEdges 6 exampleBlocks := by unfold FewEdges; decide +kernel

/-- **C124** for matrices that are made of strips: blocks with a row in common have the same rows. There is no condition on
the widths. -/
theorem C124_strips {α : Type*} (rows columns depth : Nat) (sizes : List (Nat × Nat)) (blocks : List Placed)
    (m : Nat → Nat → Nat → α) (hl : IsLayout rows columns sizes blocks)
    (hs : ∀ p ∈ blocks, ∀ q ∈ blocks, ∀ i, HasRow p i → HasRow q i → p.row = q.row) (hc : 0 < columns)
    (hd : rows * columns + 1 < depth) :
    composeSchema depth columns sizes = some blocks ∧
      ∀ i < rows, ∀ j < columns, ∃ p ∈ blocks, CoversPlace p i j ∧
        asMatrixGet depth rows columns sizes m i j = some (m p.index (i - p.row) (j - p.col)) := by
  refine C124_layout_partial rows columns depth sizes blocks m hl ?_ hc hd
  intro q hq _ _
  right
  intro p hp hlt hrow
  have := hs p hp q hq q.row hrow ⟨le_refl _, by have := (hl.positive q hq).1; omega⟩
  omega

/-- An affine transformation: a linear map, a translation and a last row. -/
example : IsLayout 4 4 [(3, 3), (3, 1), (1, 4)] [⟨0, 0, 3, 3, 0⟩, ⟨0, 3, 3, 1, 1⟩, ⟨3, 0, 1, 4, 2⟩] where
  sized := rfl
  indices := rfl
  positive := by decide
  inside := by decide
  covered := by decide +kernel
  once := once_of_bounded (rows := 4) (columns := 4) (by decide) (by decide +kernel)
  order := by unfold Before; decide

example : ∀ p ∈ ([⟨0, 0, 3, 3, 0⟩, ⟨0, 3, 3, 1, 1⟩, ⟨3, 0, 1, 4, 2⟩] : List Placed), ∀ q ∈
    ([⟨0, 0, 3, 3, 0⟩, ⟨0, 3, 3, 1, 1⟩, ⟨3, 0, 1, 4, 2⟩] : List Placed), ∀ i, HasRow p i → HasRow q i → p.row = q.row := by
  intro p hp q hq i h1 h2
  unfold HasRow at h1 h2
  fin_cases hp <;> fin_cases hq <;> simp_all <;> omega

/-- **C124, refuted for a block below several narrower ones.** After a block has been placed below the two blocks of width 1
the iterator in the row above moves one block on, not two (`as_matrix.hpp:213-222`). It does not see that the third block of
height 2 continues, and places the next block over it. The layout exists; with `as_matrix<3,3>` of these blocks the place at
row 2 and column 0 is read from the last block instead of the one before it, and the place at row 2 and column 2 cannot be
read. With a row of width 3 at the end the program does not compile. -/
theorem C124_wide_refuted :
    IsLayout 3 3 [(1, 1), (1, 1), (2, 1), (1, 2), (1, 1), (1, 2)]
      [⟨0, 0, 1, 1, 0⟩, ⟨0, 1, 1, 1, 1⟩, ⟨0, 2, 2, 1, 2⟩, ⟨1, 0, 1, 2, 3⟩, ⟨2, 0, 1, 1, 4⟩, ⟨2, 1, 1, 2, 5⟩] ∧
    asMatrixGet 100 3 3 [(1, 1), (1, 1), (2, 1), (1, 2), (1, 1), (1, 2)] (fun k i j => (k, i, j)) 2 0 = some (5, 0, 0) ∧
    asMatrixGet 100 3 3 [(1, 1), (1, 1), (2, 1), (1, 2), (1, 1), (1, 2)] (fun k i j => (k, i, j)) 2 2 = none ∧
    IsLayout 3 3 [(1, 1), (1, 1), (2, 1), (1, 2), (1, 3)]
      [⟨0, 0, 1, 1, 0⟩, ⟨0, 1, 1, 1, 1⟩, ⟨0, 2, 2, 1, 2⟩, ⟨1, 0, 1, 2, 3⟩, ⟨2, 0, 1, 3, 4⟩] ∧
    composeSchema 100 3 [(1, 1), (1, 1), (2, 1), (1, 2), (1, 3)] = none := by
  refine ⟨⟨rfl, rfl, by decide, by decide, by decide +kernel,
    once_of_bounded (rows := 3) (columns := 3) (by decide) (by decide +kernel), by unfold Before; decide⟩,
    by decide +kernel, by decide +kernel, ⟨rfl, rfl, by decide, by decide, by decide +kernel,
    once_of_bounded (rows := 3) (columns := 3) (by decide) (by decide +kernel), by unfold Before; decide⟩, by decide +kernel⟩

/-- **C124, refuted for blocks that do not fit.** Blocks of sizes 1×1, 2×2 and 1×2 have seven elements. `as_matrix<2,3>` of
them compiles and all six places can be read; the last element of the last block is covered by the second block. The number
of rows is not compared with the blocks: a 2×2 matrix of two blocks of size 2×2 drops one of them. -/
theorem C124_overlap_refuted :
    (∀ i < 2, ∀ j < 3, (asMatrixGet 100 2 3 [(1, 1), (2, 2), (1, 2)] (fun k i j => (k, i, j)) i j).isSome) ∧
    asMatrixGet 100 2 3 [(1, 1), (2, 2), (1, 2)] (fun k i j => (k, i, j)) 1 0 = some (2, 0, 0) ∧
    asMatrixGet 100 2 3 [(1, 1), (2, 2), (1, 2)] (fun k i j => (k, i, j)) 1 1 = some (1, 1, 0) ∧
    (∀ i < 2, ∀ j < 2, asMatrixGet 100 2 2 [(2, 2), (2, 2)] (fun k i j => (k, i, j)) i j = some (0, i, j)) := by
  refine ⟨by decide +kernel, by decide +kernel, by decide +kernel, by decide +kernel⟩

end Geometrix
