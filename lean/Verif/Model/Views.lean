import Verif.Model.Composite
import Verif.Model.Determinant
import Verif.Model.InPlace

/-!
# Views of matrices and vectors

`column_vector` and `row_vector` (`tensor/vector_matrix_adaptors.hpp`), `matrix_minor` (`tensor/matrix_minor_adaptor.hpp`),
`composite_matrix` (`tensor/detail/as_matrix.hpp`), and the rows and columns of all of these (`tensor/matrix_row.hpp`,
`tensor/matrix_column.hpp`). A view has no elements of its own. Simplification: there is one type of numbers. The indices are template
parameters: `none` is a program that does not compile.
-/

set_option linter.unusedSectionVars false

namespace Geometrix

/-- A matrix variable, or a view. `composite rows cols n blocks` is `as_matrix<rows, cols>` of `n` views
(`tensor/detail/as_matrix.hpp:805-809`); variables are numbered. -/
inductive View
  | mat (rows cols k : Nat)
  | colVec (n k : Nat)
  | rowVec (n k : Nat)
  | minor (excludedRow excludedCol : Nat) (v : View)
  | composite (rows cols n : Nat) (blocks : Fin n → View)

/-- `row_dimension`: `tensor/vector_matrix_adaptors.hpp:42,195`, `tensor/matrix_minor_adaptor.hpp:40`,
`tensor/detail/as_matrix.hpp:490`. -/
def View.rows : View → Nat
  | .mat r _ _ => r
  | .colVec n _ => n
  | .rowVec _ _ => 1
  | .minor _ _ v => v.rows - 1
  | .composite r _ _ _ => r

/-- `col_dimension`: `tensor/vector_matrix_adaptors.hpp:43,194`, `tensor/matrix_minor_adaptor.hpp:41`,
`tensor/detail/as_matrix.hpp:491`. -/
def View.cols : View → Nat
  | .mat _ c _ => c
  | .colVec _ _ => 1
  | .rowVec n _ => n
  | .minor _ _ v => v.cols - 1
  | .composite _ c _ _ => c

/-- The sizes of the blocks, from which `as_matrix` computes their places. -/
def blockSizes {n : Nat} (blocks : Fin n → View) : List (Nat × Nat) := List.ofFn fun k => ((blocks k).rows, (blocks k).cols)

/-- The check of an index into a vector of `n` elements when it is read or written: `tensor/index_operator_vector_access_policy.hpp:42-54`
and `tensor/detail/numeric_sequence_n.hpp:123-133`. There is no check when the program is compiled. -/
def vectorIndex (n i : Nat) : Res Nat :=
  if sizeToInt i < n then
    if i < n then .ok i else .error .outOfRange
  else .error .assertFailed

/-- Where `get<i, j>` of a view reads: variable, row and column. `tensor/index_operator_matrix_access_policy.hpp:20-37`,
`tensor/vector_matrix_adaptors.hpp:134-162,277-305`, `tensor/matrix_minor_adaptor.hpp:121-144`, `tensor/detail/as_matrix.hpp:495-514,
731-788`. `depth` is the number of template instantiations for the layout of blocks. -/
def viewAt (depth : Nat) : View → Nat → Nat → Option (Res (Nat × Nat × Nat))
  | .mat r c k, i, j => if i < r ∧ j < c then some (.ok (k, i, j)) else none
  | .colVec n k, i, j => if j = 0 then some ((vectorIndex n i).map fun a => (k, a, 0)) else none
  | .rowVec n k, i, j => if i = 0 then some ((vectorIndex n j).map fun a => (k, a, 0)) else none
  | .minor er ec v, i, j => viewAt depth v (offsetIndex i er) (offsetIndex j ec)
  | .composite r c n blocks, i, j =>
    match composeSchema depth c (blockSizes blocks) with
    | none => none
    | some schema =>
      if r > i ∧ c > j then
        match schema.find? (fun p => p.intersects i j) with
        | none => none
        | some p => if h : p.index < n then viewAt depth (blocks ⟨p.index, h⟩) (i - p.row) (j - p.col) else none
      else none

/-- Whether `set<i, j>` compiles if `get<i, j>` does: a minor has no `set` (`tensor/matrix_minor_adaptor.hpp:121-144`) and holds its
matrix by a reference to const. In a matrix of blocks it is the block at the place that counts
(`tensor/detail/as_matrix.hpp:516-520,790-798`). -/
def viewWritable (depth : Nat) : View → Nat → Nat → Bool
  | .mat _ _ _, _, _ => true
  | .colVec _ _, _, _ => true
  | .rowVec _ _, _, _ => true
  | .minor _ _ _, _, _ => false
  | .composite _ c n blocks, i, j =>
    match composeSchema depth c (blockSizes blocks) with
    | none => false
    | some schema =>
      match schema.find? (fun p => p.intersects i j) with
      | none => false
      | some p => if h : p.index < n then viewWritable depth (blocks ⟨p.index, h⟩) (i - p.row) (j - p.col) else false

/-- Where `get<j>( row<V, i> )` reads, the function that expressions use. The access policy reads the member `m` of the row with two
indices (`tensor/matrix_row.hpp:59-82`): for a matrix or a matrix of blocks that is the matrix (`tensor/matrix_row.hpp:53`,
`tensor/detail/as_matrix.hpp:597`), for a minor it is the matrix of which the minor is taken (`tensor/matrix_minor_adaptor.hpp:91-93,111`),
and the rows of a vector have no such member (`tensor/vector_matrix_adaptors.hpp:100-125,211-236`). -/
def rowAt (depth : Nat) : View → Nat → Nat → Option (Res (Nat × Nat × Nat))
  | .mat r c k, i, j => viewAt depth (.mat r c k) i j
  | .colVec _ _, _, _ => none
  | .rowVec _ _, _, _ => none
  | .minor _ _ v, i, j => viewAt depth v i j
  | .composite r c n blocks, i, j => viewAt depth (.composite r c n blocks) i j

/-- Where `get<i>( column<V, j> )` reads, in the same way: `tensor/matrix_column.hpp:51,57-80`, `tensor/detail/as_matrix.hpp:553`,
`tensor/matrix_minor_adaptor.hpp:47-74`, `tensor/vector_matrix_adaptors.hpp:60-91,244-269`. -/
def colAt (depth : Nat) : View → Nat → Nat → Option (Res (Nat × Nat × Nat))
  | .mat r c k, j, i => viewAt depth (.mat r c k) i j
  | .colVec _ _, _, _ => none
  | .rowVec _ _, _, _ => none
  | .minor _ _ v, j, i => viewAt depth v i j
  | .composite r c n blocks, j, i => viewAt depth (.composite r c n blocks) i j

/-- Where the member function `row<V, i>::get<j>()` reads: `tensor/matrix_row.hpp:41-45`, `tensor/matrix_minor_adaptor.hpp:105-109`,
`tensor/vector_matrix_adaptors.hpp:118-122,229-233`, `tensor/detail/as_matrix.hpp:591-595`. A row of a column vector ignores `j`. -/
def rowMemberAt (depth : Nat) : View → Nat → Nat → Option (Res (Nat × Nat × Nat))
  | .mat r c k, i, j => viewAt depth (.mat r c k) i j
  | .colVec n k, i, _ => some ((vectorIndex n i).map fun a => (k, a, 0))
  | .rowVec n k, i, j => viewAt depth (.rowVec n k) i j
  | .minor er ec v, i, j => viewAt depth v (offsetIndex i er) (offsetIndex j ec)
  | .composite r c n blocks, i, j => viewAt depth (.composite r c n blocks) i j

/-- Whether `set<j>( row<V, i>, x )` compiles, if there is such an element: a row of a matrix or a minor holds a reference to const
(`tensor/matrix_row.hpp:53`), a row of a matrix of blocks holds a copy of it (`tensor/detail/as_matrix.hpp:597`). -/
def rowWritable (depth : Nat) : View → Nat → Nat → Bool
  | .composite r c n blocks, i, j => viewWritable depth (.composite r c n blocks) i j
  | _, _, _ => false

section
variable {K : Type*}

/-- The variables after an element has been written. -/
def setPlace (env : Nat → Nat → Nat → K) (x : Nat × Nat × Nat) (a : K) : Nat → Nat → Nat → K :=
  fun k i j => if (k, i, j) = x then a else env k i j

/-- `get<i, j>( V )`: `tensor/tensor_access_policy.hpp:59-66`. -/
def viewGet (depth : Nat) (env : Nat → Nat → Nat → K) (v : View) (i j : Nat) : Option (Res K) :=
  (viewAt depth v i j).map fun r => r.map fun x => env x.1 x.2.1 x.2.2

/-- `set<i, j>( V, a )`: `tensor/tensor_access_policy.hpp:86-91`. -/
def viewSet (depth : Nat) (env : Nat → Nat → Nat → K) (v : View) (i j : Nat) (a : K) : Option (Res (Nat → Nat → Nat → K)) :=
  if viewWritable depth v i j then (viewAt depth v i j).map fun r => r.map fun x => setPlace env x a else none

/-- `get<j>( row<V, i> )`: `tensor/tensor_access_policy.hpp:50-57`. -/
def rowGet (depth : Nat) (env : Nat → Nat → Nat → K) (v : View) (i j : Nat) : Option (Res K) :=
  (rowAt depth v i j).map fun r => r.map fun x => env x.1 x.2.1 x.2.2

/-- `get<i>( column<V, j> )`: `tensor/tensor_access_policy.hpp:50-57`. -/
def colGet (depth : Nat) (env : Nat → Nat → Nat → K) (v : View) (j i : Nat) : Option (Res K) :=
  (colAt depth v j i).map fun r => r.map fun x => env x.1 x.2.1 x.2.2

/-- `row<V, i>( V ).get<j>()`. -/
def rowMemberGet (depth : Nat) (env : Nat → Nat → Nat → K) (v : View) (i j : Nat) : Option (Res K) :=
  (rowMemberAt depth v i j).map fun r => r.map fun x => env x.1 x.2.1 x.2.2

/-- `set<j>( row<V, i>, a )`: `tensor/tensor_access_policy.hpp:78-83`. -/
def rowSet (depth : Nat) (env : Nat → Nat → Nat → K) (v : View) (i j : Nat) (a : K) : Option (Res (Nat → Nat → Nat → K)) :=
  if rowWritable depth v i j then (viewAt depth v i j).map fun r => r.map fun x => setPlace env x a else none

/-- One product in a dot product, and the sum with what is there already. What does not compile or fails makes the whole fail. -/
def addProduct [Add K] [Mul K] (s a b : Option (Res K)) : Option (Res K) :=
  match s, a, b with
  | some (.ok s), some (.ok a), some (.ok b) => some (.ok (s + a * b))
  | some (.error e), some _, some _ => some (.error e)
  | some (.ok _), some (.error e), some _ => some (.error e)
  | some (.ok _), some (.ok _), some (.error e) => some (.error e)
  | _, _, _ => none

/-- `matrix_product_element<i, j>( V, W )`, and the element of `V * W`: `arithmetic/matrix_arithmetic.hpp:215-237`,
`algebra/functions/matrix_product.hpp`, with the dot product of `algebra/detail/dot_product.hpp:108-125,281-300`. Simplification: the sum
begins with zero, not with the first product. -/
def viewProductAt [Add K] [Mul K] [Zero K] (depth : Nat) (env : Nat → Nat → Nat → K) (v w : View) (i j : Nat) : Option (Res K) :=
  if v.cols = w.rows then
    (List.range v.cols).foldl (fun s k => addProduct s (rowGet depth env v i k) (colGet depth env w j k)) (some (.ok 0))
  else none

end

end Geometrix
