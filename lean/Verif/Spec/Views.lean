import Verif.Spec.Composite
import Verif.Model.Views

/-!
# What a view of a matrix shows
-/

namespace Geometrix.Spec

open Geometrix

/-- Of the numbers other than `e`, the one at index `i` (in rising order, from 0) is `a`. -/
def Without (e a i : Nat) : Prop := (a < e ∧ i = a) ∨ (e < a ∧ i + 1 = a)

/-- The element at row `i` and column `j` of the view is the element `x` of a variable: variable, row and column. An element of a
vector has column 0. A minor shows the rows and columns other than the excluded ones, a matrix of blocks shows the blocks laid out in
reading order. -/
def StandsFor : View → Nat → Nat → Nat × Nat × Nat → Prop
  | .mat r c k, i, j, x => i < r ∧ j < c ∧ x = (k, i, j)
  | .colVec n k, i, j, x => i < n ∧ j = 0 ∧ x = (k, i, 0)
  | .rowVec n k, i, j, x => i = 0 ∧ j < n ∧ x = (k, j, 0)
  | .minor er ec v, i, j, x => ∃ a b, Without er a i ∧ Without ec b j ∧ StandsFor v a b x
  | .composite r c n blocks, i, j, x =>
    ∃ ps, IsLayout r c (blockSizes blocks) ps ∧ ∃ p ∈ ps, CoversPlace p i j ∧
      ∃ h : p.index < n, StandsFor (blocks ⟨p.index, h⟩) (i - p.row) (j - p.col) x

/-- The preconditions: vectors have fewer than `2 ^ 31` elements, the excluded row and column of a minor exist, blocks can be laid out
(with few edges, see `FewEdges`), and the compiler instantiates templates to a sufficient depth. -/
def SoundView (depth : Nat) : View → Prop
  | .mat _ _ _ => True
  | .colVec n _ => n < 2 ^ 31
  | .rowVec n _ => n < 2 ^ 31
  | .minor er ec v => er < v.rows ∧ ec < v.cols ∧ SoundView depth v
  | .composite r c n blocks => 0 < c ∧ r * c + 1 < depth ∧ (∃ ps, IsLayout r c (blockSizes blocks) ps ∧ FewEdges c ps) ∧
      ∀ k : Fin n, SoundView depth (blocks k)

/-- No part of the view is a minor. -/
def MinorFree : View → Prop
  | .minor _ _ _ => False
  | .composite _ _ n blocks => ∀ k : Fin n, MinorFree (blocks k)
  | _ => True

end Geometrix.Spec
