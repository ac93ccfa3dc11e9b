import Verif.Model.Grid

/-!
# Cells of a grid, and the history of a grid
-/

namespace Geometrix.Spec

/-- `x` is in the half open interval number `i` of width `w` counted from `x0`. -/
def InCell {K : Type*} [Field K] [LinearOrder K] (x0 w : K) (i : Nat) (x : K) : Prop :=
  x0 + i * w ≤ x ∧ x < x0 + (i + 1) * w

/-- An operation on a grid of data: access a cell (creating it if need be), store a value in a cell,
remove a cell, remove all cells. -/
inductive GridOp (D : Type*) where
  | access (i j : Nat) : GridOp D
  | store (i j : Nat) (v : D) : GridOp D
  | erase (i j : Nat) : GridOp D
  | clear : GridOp D

/-- The value of the cell `(i, j)` after the operations in the list, the last one first. A cell that
does not exist has no value. -/
def cellAfter {D : Type*} (dflt : D) (i j : Nat) : List (GridOp D) → Option D
  | [] => none
  | .clear :: _ => none
  | .erase a b :: before => if a = i ∧ b = j then none else cellAfter dflt i j before
  | .store a b v :: before => if a = i ∧ b = j then some v else cellAfter dflt i j before
  | .access a b :: before =>
    if a = i ∧ b = j then
      match cellAfter dflt i j before with
      | some v => some v
      | none => some dflt
    else cellAfter dflt i j before

/-- One operation on a `hash_grid_2d`. -/
def hashGridStep {D : Type} (dflt : D) (m : HashGrid D) : GridOp D → HashGrid D
  | .access i j => (m.get dflt i j).1
  | .store i j v => m.set dflt i j v
  | .erase i j => m.erase i j
  | .clear => m.clear

end Geometrix.Spec
