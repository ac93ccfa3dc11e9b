import Verif.Model.Basic

/-!
# Matrices composed of blocks

`geometrix/tensor/detail/as_matrix.hpp`; what is compiled is `tensor/detail/preprocessed/as_matrix.hpp`, which is
generated from it. `as_matrix<Rows,Columns>(a, b, ...)` is a matrix that refers to the elements of matrices `a`, `b`, ....
Where each of them is placed is computed by template metaprogramming from their sizes. Here the templates are functions;
`none` means that the program does not compile.

Simplifications. Numbers are unbounded. Sizes are positive. The number of blocks is not limited; in the code it is from 2
to `GEOMETRIX_COMPOSE_MATRIX_MAX_ARITY`, 10 by default.
-/

namespace Geometrix

/-- `compose_element`: `as_matrix.hpp:66-75`. A block with its offsets, its sizes and its place in the list of arguments. -/
structure Placed where
  row : Nat
  col : Nat
  height : Nat
  width : Nat
  index : Nat
  deriving DecidableEq, Repr

/-- `intersects`: `as_matrix.hpp:49-56`. -/
def Placed.intersects (p : Placed) (i j : Nat) : Bool :=
  decide (p.row ≤ i) && decide (p.row + p.height - 1 ≥ i) && (decide (p.col ≤ j) && decide (p.col + p.width - 1 ≥ j))

/-- `column_intersects`: `as_matrix.hpp:58-64`. -/
def Placed.columnIntersects (p : Placed) (j : Nat) : Bool :=
  decide (p.col ≤ j) && decide (p.col + p.width - 1 ≥ j)

/-- `state`: `as_matrix.hpp:77-102`. An iterator into the last row is the part of that row from it on. -/
structure LayoutState where
  /-- the sizes of the blocks that are not placed yet -/
  sequence : List (Nat × Nat)
  result : List Placed
  row : Nat
  col : Nat
  rowIter : List Placed
  current : List Placed
  lastRow : List Placed
  index : Nat
  nextRow : Nat
  deriving DecidableEq, Repr

/-- `GEOMETRIX_COMPOSITION_MAX_ROWS`: `as_matrix.hpp:9-11`. -/
def compositionMaxRows : Nat := 10

/-- `default_state`: `as_matrix.hpp:119-124`. -/
def defaultState (sequence : List (Nat × Nat)) : LayoutState :=
  ⟨sequence, [], 0, 0, [], [], [], 0, 0 + compositionMaxRows⟩

/-- `add_row_item`: `as_matrix.hpp:126-178`. The block `e` of the last row reaches into this row. -/
def addRowItem (columns : Nat) (s : LayoutState) (e : Placed) : LayoutState :=
  if e.col + e.width - 1 + 1 = columns then
    ⟨s.sequence, s.result, min s.nextRow (e.row + e.height - 1 + 1), 0, s.current ++ [e], [], s.current ++ [e], s.index,
      min s.nextRow (e.row + e.height - 1 + 1) + compositionMaxRows⟩
  else
    ⟨s.sequence, s.result, s.row, e.col + e.width - 1 + 1, s.rowIter.tail, s.current ++ [e], s.lastRow, s.index,
      min s.nextRow (e.row + e.height - 1 + 1)⟩

/-- `add_new_item`: `as_matrix.hpp:180-249`. The next block, of the given size, is placed here. -/
def addNewItem (columns : Nat) (s : LayoutState) (e : Placed) (h w : Nat) (rest : List (Nat × Nat)) : LayoutState :=
  if s.col + w = columns then
    ⟨rest, s.result ++ [⟨s.row, s.col, h, w, s.index⟩], min s.nextRow (s.row + h), 0,
      s.current ++ [⟨s.row, s.col, h, w, s.index⟩], [], s.current ++ [⟨s.row, s.col, h, w, s.index⟩], s.index + 1,
      min s.nextRow (s.row + h) + compositionMaxRows⟩
  else
    ⟨rest, s.result ++ [⟨s.row, s.col, h, w, s.index⟩], s.row, s.col + w,
      if e.columnIntersects (s.col + w) then s.rowIter else s.rowIter.tail,
      s.current ++ [⟨s.row, s.col, h, w, s.index⟩], s.lastRow, s.index + 1, min s.nextRow (s.row + h)⟩

/-- `add_new_item` in the first row: `as_matrix.hpp:251-343`, with `first_state`, lines 104-117. -/
def addFirstItem (columns : Nat) (s : LayoutState) (h w : Nat) (rest : List (Nat × Nat)) : LayoutState :=
  if s.col + w = columns then
    ⟨rest, s.result ++ [⟨0, s.col, h, w, s.index⟩], min s.nextRow h, 0,
      s.current ++ [⟨0, s.col, h, w, s.index⟩], [], s.current ++ [⟨0, s.col, h, w, s.index⟩], s.index + 1,
      min s.nextRow h + compositionMaxRows⟩
  else
    ⟨rest, s.result ++ [⟨0, s.col, h, w, s.index⟩], 0, s.col + w, [], s.current ++ [⟨0, s.col, h, w, s.index⟩], [],
      s.index + 1, min s.nextRow h⟩

/-- `process_state`: `as_matrix.hpp:345-365`, for a sequence that starts with a block of the given size. An iterator at the
end cannot be dereferenced. The states of the first row are those without a last row. -/
def processState (columns : Nat) (s : LayoutState) (h w : Nat) (rest : List (Nat × Nat)) : Option LayoutState :=
  match s.lastRow with
  | [] => some (addFirstItem columns s h w rest)
  | _ :: _ => match s.rowIter with
    | [] => none
    | e :: _ =>
      if !e.intersects s.row s.col then some (addNewItem columns s e h w rest) else some (addRowItem columns s e)

/-- `process_schema` and `recurse_schema`: `as_matrix.hpp:367-394`. The first argument is how many states may be processed,
the depth to which the compiler instantiates templates. -/
def processSchema : Nat → Nat → LayoutState → Option (List Placed)
  | 0, _, _ => none
  | depth + 1, columns, s =>
    if s.col ≤ columns then
      match s.sequence with
      | [] => some s.result
      | (h, w) :: rest => match processState columns s h w rest with
        | none => none
        | some s' => processSchema depth columns s'
    else none

/-- `compose_matrix_schema`: `as_matrix.hpp:396-400`. -/
def composeSchema (depth columns : Nat) (sizes : List (Nat × Nat)) : Option (List Placed) :=
  processSchema depth columns (defaultState sizes)

/-- `composite_matrix::get<Row,Column>`: `as_matrix.hpp:463-496,727-787`. The first block in the schema that contains the
place is asked for its element. `m k i j` is the element at `i`, `j` of the argument `k`. -/
def compositeGet {α : Type*} (rows columns : Nat) (schema : List Placed) (m : Nat → Nat → Nat → α) (i j : Nat) : Option α :=
  if rows > i ∧ columns > j then
    match schema.find? (fun p => p.intersects i j) with
    | none => none
    | some p => some (m p.index (i - p.row) (j - p.col))
  else none

/-- `as_matrix<Rows,Columns>(...)` and `get<Row,Column>` of it: `as_matrix.hpp:805-809`. -/
def asMatrixGet {α : Type*} (depth rows columns : Nat) (sizes : List (Nat × Nat)) (m : Nat → Nat → Nat → α) (i j : Nat) :
    Option α :=
  match composeSchema depth columns sizes with
  | none => none
  | some schema => compositeGet rows columns schema m i j

end Geometrix
