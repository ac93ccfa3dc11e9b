import Verif.Model.Composite

/-!
# Tilings in reading order
-/

namespace Geometrix.Spec

open Geometrix

/-- The block has a row `i`. -/
def HasRow (p : Placed) (i : Nat) : Prop := p.row ≤ i ∧ i < p.row + p.height

/-- The block covers the place at row `i` and column `j`. -/
def CoversPlace (p : Placed) (i j : Nat) : Prop := HasRow p i ∧ p.col ≤ j ∧ j < p.col + p.width

instance (p : Placed) (i : Nat) : Decidable (HasRow p i) := by unfold HasRow; infer_instance
instance (p : Placed) (i j : Nat) : Decidable (CoversPlace p i j) := by unfold CoversPlace; infer_instance

/-- The upper left corner of `p` is read before that of `q`: it is in a row above, or in the same row further left. -/
def Before (p q : Placed) : Prop := p.row < q.row ∨ (p.row = q.row ∧ p.col < q.col)

/-- `blocks` is how a reader lays out blocks of the given sizes in a matrix with `rows` rows and `columns` columns: they are
in reading order of their corners and cover every place of the matrix exactly once. -/
structure IsLayout (rows columns : Nat) (sizes : List (Nat × Nat)) (blocks : List Placed) : Prop where
  sized : blocks.map (fun p => (p.height, p.width)) = sizes
  indices : blocks.map (fun p => p.index) = List.range sizes.length
  positive : ∀ p ∈ blocks, 1 ≤ p.height ∧ 1 ≤ p.width
  inside : ∀ p ∈ blocks, p.row + p.height ≤ rows ∧ p.col + p.width ≤ columns
  covered : ∀ i < rows, ∀ j < columns, ∃ p ∈ blocks, CoversPlace p i j
  once : ∀ p ∈ blocks, ∀ q ∈ blocks, ∀ i j, CoversPlace p i j → CoversPlace q i j → p = q
  order : blocks.Pairwise Before

/-- For each block `q` below the first row that does not reach the right end: among the blocks directly above, at most one
begins right of the left edge of `q` and not beyond its right edge; or else no block further right reaches from above into
the first row of `q`. -/
def FewEdges (columns : Nat) (blocks : List Placed) : Prop :=
  ∀ q ∈ blocks, 0 < q.row → q.col + q.width < columns →
    (∀ p ∈ blocks, ∀ p' ∈ blocks, HasRow p (q.row - 1) → HasRow p' (q.row - 1) →
      q.col < p.col → p.col < p'.col → q.col + q.width < p'.col) ∨
    (∀ p ∈ blocks, p.row < q.row → HasRow p q.row → p.col < q.col + q.width)

end Geometrix.Spec
