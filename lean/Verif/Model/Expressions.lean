import Verif.Model.Determinant

/-!
# Expressions of scalars, vectors, points and matrices

`geometrix/algebra/expression_generator.hpp`, `geometrix/algebra/grammar.hpp`, `geometrix/algebra/terminals.hpp`
and `geometrix/algebra/functions/*.hpp`. An operator applied to tensors builds an expression. Nothing is
computed until an element of the expression is read. `lhs <<= expression` reads the elements that the left side
has. The sizes are template parameters; here they are numbers, and that a program with given sizes compiles is
a question asked of the model.

Simplifications. Units and reference frames are erased. Arithmetic is exact. An expression is used before the end
of the full expression that builds it: it holds references to its operands. Sizes stay below the limits of the
macros that generate the constructors of vectors and matrices.
-/

set_option linter.unusedSectionVars false

namespace Geometrix

/-- What the traits of a type say it is: `is_scalar`, `is_vector` and `is_point` with `dimension_type`, `is_matrix`
with `row_dimension` and `col_dimension`. -/
inductive Shape where
  | scalar
  | vec (n : Nat)
  | point (n : Nat)
  | mat (r c : Nat)
  deriving DecidableEq, Repr

/-- The number of rows; a vector is a column, a scalar has one row. -/
def Shape.rows : Shape → Nat
  | .scalar => 1
  | .vec n => n
  | .point n => n
  | .mat r _ => r

/-- The number of columns. -/
def Shape.cols : Shape → Nat
  | .mat _ c => c
  | _ => 1

/-- The expressions that the operators and functions of `expression_generator.hpp:76-96` build. A terminal is a
variable of the program of a given type. -/
inductive Tx where
  /-- a variable: `terminals.hpp:54-135` -/
  | var (s : Shape) (k : Nat)
  /-- `-a`: `functions/negate.hpp` -/
  | neg (a : Tx)
  /-- `abs(a)`: `functions/absolute_value.hpp` -/
  | abs (a : Tx)
  /-- `rec(a)`, `reciprocal(a)`: `functions/reciprocal.hpp` -/
  | recip (a : Tx)
  /-- `trans(a)`, `transpose(a)`: `functions/transpose.hpp` -/
  | trans (a : Tx)
  /-- `det(a)`: `functions/determinant.hpp` -/
  | det (a : Tx)
  /-- `inv(a)`, `inverse(a)`: `functions/inverse.hpp` -/
  | inv (a : Tx)
  /-- `mag(a)`: `functions/magnitude.hpp` -/
  | mag (a : Tx)
  /-- `norm(a)`: `functions/normalize.hpp` -/
  | norm (a : Tx)
  /-- `a + b`: `functions/addition.hpp` -/
  | add (a b : Tx)
  /-- `a - b`: `functions/subtraction.hpp` -/
  | sub (a b : Tx)
  /-- `a * b`: `functions/multiplication.hpp`, `functions/dot_product.hpp`, `functions/matrix_product.hpp` -/
  | mul (a b : Tx)
  /-- `a / b`: `functions/division.hpp` -/
  | div (a b : Tx)
  /-- `a ^ b`: `functions/cross_product.hpp` -/
  | cross (a b : Tx)
  /-- `a & b`: `functions/tensor_product.hpp` -/
  | tens (a b : Tx)
  deriving DecidableEq, Repr

/-- The traits of `-a`: `negate.hpp:32-48,63-74,89-102`. -/
def negShape : Shape → Option Shape
  | .scalar => some .scalar
  | .vec n => some (.vec n)
  | .mat r c => some (.mat r c)
  | .point _ => none

/-- The traits of `abs(a)`: `absolute_value.hpp:22-38,55-66,81-94`. -/
def absShape : Shape → Option Shape
  | .scalar => some .scalar
  | .vec n => some (.vec n)
  | .mat r c => some (.mat r c)
  | .point _ => none

/-- The traits of `transpose(a)`: `transpose.hpp:21-34`. -/
def transShape : Shape → Option Shape
  | .mat r c => some (.mat c r)
  | _ => none

/-- The traits of `det(a)`: `determinant.hpp:21-32`. Sizes above `GEOMETRIX_MAX_DETERMINANT`, 10 by default, have no
overload. The check that the matrix is square is vacuous (`geometrix/tensor/matrix_traits.hpp:91-98`); the
determinant of a matrix that is not square is not modelled and counted as not compiling. -/
def detShape : Shape → Option Shape
  | .mat r c => if r = c ∧ 1 ≤ r ∧ r ≤ 10 then some .scalar else none
  | _ => none

/-- The traits of `inv(a)`: `inverse.hpp:21-34`. The minor of a matrix of size 1 has no elements. A matrix that is
not square is treated as in `detShape`. -/
def invShape : Shape → Option Shape
  | .mat r c => if r = c ∧ 2 ≤ r ∧ r ≤ 10 then some (.mat r c) else none
  | _ => none

/-- The traits of `mag(a)`: `magnitude.hpp:22-33`. -/
def magShape : Shape → Option Shape
  | .vec n => if 1 ≤ n then some .scalar else none
  | _ => none

/-- The traits of `norm(a)`: `normalize.hpp:23-39`. -/
def normShape : Shape → Option Shape
  | .vec n => if 1 ≤ n then some (.vec n) else none
  | _ => none

/-- The traits of `a + b`: `addition.hpp:21-34,52-70,89-107,126-141`. The sizes are those of the right operand. -/
def addShape : Shape → Shape → Option Shape
  | .scalar, .scalar => some .scalar
  | .vec _, .vec n => some (.vec n)
  | .point _, .vec n => some (.point n)
  | .mat _ _, .mat r c => some (.mat r c)
  | _, _ => none

/-- The traits of `a - b`: `subtraction.hpp:22-35,53-71,90-108,127-145,164-179`. The sizes are those of the right
operand. -/
def subShape : Shape → Shape → Option Shape
  | .scalar, .scalar => some .scalar
  | .vec _, .vec n => some (.vec n)
  | .point _, .vec n => some (.point n)
  | .point _, .point n => some (.vec n)
  | .mat _ _, .mat r c => some (.mat r c)
  | _, _ => none

/-- The traits of `a * b`: `functions/multiplication.hpp:23-36,61-79,98-115,134-149,168-182`, `functions/dot_product.hpp:27-43,62-81,
100-119,138-153`, `matrix_product.hpp:23-40`. The size of a matrix times a vector or a point is that of the vector or
point. -/
def mulShape : Shape → Shape → Option Shape
  | .scalar, .scalar => some .scalar
  | .scalar, .vec n => some (.vec n)
  | .vec n, .scalar => some (.vec n)
  | .scalar, .mat r c => some (.mat r c)
  | .mat r c, .scalar => some (.mat r c)
  | .vec _, .vec _ => some .scalar
  | .vec _, .mat _ c => some (.mat 1 c)
  | .mat _ _, .vec n => some (.vec n)
  | .mat _ _, .point n => some (.point n)
  | .mat r _, .mat _ c => some (.mat r c)
  | _, _ => none

/-- The traits of `a / b`: `division.hpp:21-34,52-70,89-104`. -/
def divShape : Shape → Shape → Option Shape
  | .scalar, .scalar => some .scalar
  | .vec n, .scalar => some (.vec n)
  | .mat r c, .scalar => some (.mat r c)
  | _, _ => none

/-- The traits of `a ^ b`: `functions/cross_product.hpp:120-138`. -/
def crossShape : Shape → Shape → Option Shape
  | .vec _, .vec n => some (.vec n)
  | _, _ => none

/-- The traits of `a & b`: `tensor_product.hpp:56-71,85-100,114-129` and `result_of::tensor_product`
(`arithmetic/tensor_arithmetic.hpp:314-319`). A vector on the right of a matrix is a row, on the left of a matrix it
is a column (`tensor/vector_matrix_adaptors.hpp:38-46,190-206`). For two vectors (`tensor_product.hpp:27-42`) the
row dimension of a vector is asked for, which there is not. -/
def tensShape : Shape → Shape → Option Shape
  | .mat r c, .vec n => some (.mat (r * 1) (c * n))
  | .vec n, .mat r c => some (.mat (n * r) (1 * c))
  | .mat r c, .mat r' c' => some (.mat (r * r') (c * c'))
  | _, _ => none

/-- The traits of an expression, `none` if naming its type does not compile: `expression_generator.hpp:143-152`,
`grammar.hpp:142-233`, and the failing assertions of the primary templates, `unary_function.hpp:41-50`,
`binary_function.hpp:98-114`. -/
def shapeOf : Tx → Option Shape
  | .var s _ => some s
  | .neg a => (shapeOf a).bind negShape
  | .abs a => (shapeOf a).bind absShape
  | .recip a => shapeOf a
  | .trans a => (shapeOf a).bind transShape
  | .det a => (shapeOf a).bind detShape
  | .inv a => (shapeOf a).bind invShape
  | .mag a => (shapeOf a).bind magShape
  | .norm a => (shapeOf a).bind normShape
  | .add a b => (shapeOf a).bind fun s => (shapeOf b).bind fun t => addShape s t
  | .sub a b => (shapeOf a).bind fun s => (shapeOf b).bind fun t => subShape s t
  | .mul a b => (shapeOf a).bind fun s => (shapeOf b).bind fun t => mulShape s t
  | .div a b => (shapeOf a).bind fun s => (shapeOf b).bind fun t => divShape s t
  | .cross a b => (shapeOf a).bind fun s => (shapeOf b).bind fun t => crossShape s t
  | .tens a b => (shapeOf a).bind fun s => (shapeOf b).bind fun t => tensShape s t

/-- The assertion on the index of an element: `expression_generator.hpp:205-210,238-243`; for a variable that of its
access policy. -/
def inRange (e : Tx) (i j : Nat) : Bool :=
  match shapeOf e with
  | some s => decide (i < s.rows) && decide (j < s.cols)
  | none => false

/-- A check for all rows below `r` and columns below `c`. -/
def allBelow (r c : Nat) (p : Nat → Nat → Bool) : Bool :=
  (List.range r).all fun i => (List.range c).all fun j => p i j

/-- Whether the dot product of two sequences of `m` and `n` elements compiles, given which of their elements do:
`geometrix/algebra/dot_product.hpp:27-39` asserts equal dimensions, and `algebra/detail/preprocessed/dot_product.hpp`
has specialisations from dimension 2 on (line 114) that the general template (lines 76-93) counts down to. From
dimension 1 it counts down to 0 and on, which does not compile. -/
def dotCompiles (m n : Nat) (p q : Nat → Bool) : Bool :=
  decide (m = n) && decide (2 ≤ m) && allBelow m 1 (fun k _ => p k) && allBelow n 1 (fun k _ => q k)

/-- Whether reading the element at `i`, `j` of an expression compiles. -/
def compiles : Tx → Nat → Nat → Bool
  | .var s k, i, j => inRange (.var s k) i j
  | .neg a, i, j => inRange (.neg a) i j && compiles a i j
  | .abs a, i, j => inRange (.abs a) i j && compiles a i j
  | .recip a, i, j => inRange (.recip a) i j && compiles a i j
  -- `transpose.hpp:41-46`
  | .trans a, i, j => inRange (.trans a) i j && compiles a j i
  -- `detail/determinant.hpp:138-181` reads all elements
  | .det a, i, j => inRange (.det a) i j &&
      match shapeOf a with
      | some (.mat r _) => allBelow r r (compiles a)
      | _ => false
  -- `matrix_arithmetic.hpp:255-270`
  | .inv a, i, j => inRange (.inv a) i j &&
      match shapeOf a with
      | some (.mat r _) => allBelow r r (compiles a)
      | _ => false
  -- `arithmetic/vector/magnitude.hpp:50-132`
  | .mag a, i, j => inRange (.mag a) i j &&
      match shapeOf a with
      | some (.vec n) => allBelow n 1 (compiles a)
      | _ => false
  -- `arithmetic/vector/normalize_at_index.hpp:37-44`
  | .norm a, i, j => inRange (.norm a) i j &&
      match shapeOf a with
      | some (.vec n) => allBelow n 1 (compiles a)
      | _ => false
  | .add a b, i, j => inRange (.add a b) i j && compiles a i j && compiles b i j
  | .sub a b, i, j => inRange (.sub a b) i j && compiles a i j && compiles b i j
  | .mul a b, i, j => inRange (.mul a b) i j &&
      match shapeOf a, shapeOf b with
      | some .scalar, some .scalar => compiles a 0 0 && compiles b 0 0
      | some .scalar, some (.vec _) => compiles a 0 0 && compiles b i 0
      | some (.vec _), some .scalar => compiles a i 0 && compiles b 0 0
      | some .scalar, some (.mat _ _) => compiles a 0 0 && compiles b i j
      -- `multiplication.hpp:196` reads the element at a row and a column of the scalar
      | some (.mat _ _), some .scalar => false
      | some (.vec m), some (.vec n) => dotCompiles m n (fun k => compiles a k 0) (fun k => compiles b k 0)
      | some (.vec m), some (.mat r _) => dotCompiles m r (fun k => compiles a k 0) (fun k => compiles b k j)
      | some (.mat _ c), some (.vec n) => dotCompiles c n (fun k => compiles a i k) (fun k => compiles b k 0)
      | some (.mat _ c), some (.point n) => dotCompiles c n (fun k => compiles a i k) (fun k => compiles b k 0)
      | some (.mat _ c), some (.mat r _) => dotCompiles c r (fun k => compiles a i k) (fun k => compiles b k j)
      | _, _ => false
  | .div a b, i, j => inRange (.div a b) i j && compiles a i j && compiles b 0 0
  -- `functions/cross_product.hpp:53-102`: an index above 2 fails the assertion
  | .cross a b, i, j => inRange (.cross a b) i j &&
      match i with
      | 0 => compiles a 1 0 && compiles b 2 0 && compiles a 2 0 && compiles b 1 0
      | 1 => compiles a 2 0 && compiles b 0 0 && compiles a 0 0 && compiles b 2 0
      | 2 => compiles a 0 0 && compiles b 1 0 && compiles a 1 0 && compiles b 0 0
      | _ => false
  -- `tensor_arithmetic.hpp:117-161,238-259,276-302`; the result type of a vector and a matrix
  -- (lines 241-245) asks for the type of the matrix at a single index
  | .tens a b, i, j => inRange (.tens a b) i j &&
      match shapeOf a, shapeOf b with
      | some (.mat _ _), some (.vec n) => compiles a (i / 1) (j / n) && compiles b (j % n) 0
      | some (.vec _), some (.mat r c) => decide (j % c < r) && compiles a (i / r) 0 && compiles b (i % r) (j % c)
      | some (.mat _ _), some (.mat r c) => compiles a (i / r) (j / c) && compiles b (i % r) (j % c)
      | _, _ => false

section
variable {K : Type*} [Field K] [LinearOrder K]

/-- The error of an outcome. -/
def errorOf : Res K → Option Fault
  | .error e => some e
  | .ok _ => none

/-- The number of an outcome without error. -/
def numberOf : Res K → K
  | .error _ => 0
  | .ok x => x

/-- Read the elements in the rows below `r` and the columns below `c`; the outcome is the first error, if there is
one. Which of several errors comes first is not meant to be that of the program. -/
def readAll (r c : Nat) (f : Nat → Nat → Res K) : Res (Nat → Nat → K) :=
  match (List.range r).findSome? (fun i => (List.range c).findSome? fun j => errorOf (f i j)) with
  | some e => .error e
  | none => .ok fun i j => numberOf (f i j)

/-- An operation on two numbers whose computation may go wrong. -/
def both (op : K → K → Res K) : Res K → Res K → Res K
  | .error e, _ => .error e
  | .ok _, .error e => .error e
  | .ok a, .ok b => op a b

/-- The sum of products: `algebra/detail/preprocessed/dot_product.hpp:76-126`. Dimensions below 2 do not compile. -/
def dotSum (a b : Nat → K) : Nat → K
  | 0 => 0
  | 1 => 0
  | 2 => a 0 * b 0 + a 1 * b 1
  | n + 3 => dotSum a b (n + 2) + a (n + 2) * b (n + 2)

/-- `dot_product`: `geometrix/algebra/dot_product.hpp:27-39`. -/
def dotValue (n : Nat) (f g : Nat → Res K) : Res K :=
  match readAll n 1 (fun k _ => f k) with
  | .error e => .error e
  | .ok a => match readAll n 1 (fun k _ => g k) with
    | .error e => .error e
    | .ok b => .ok (dotSum (fun k => a k 0) (fun k => b k 0) n)

/-- `detail::magnitude_sqrd`: `arithmetic/vector/magnitude.hpp:50-114`; the number is the last index. -/
def magnitudeSqrdUpTo (a : Nat → K) : Nat → K
  | 0 => a 0 * a 0
  | 1 => a 0 * a 0 + a 1 * a 1
  | 2 => a 0 * a 0 + a 1 * a 1 + a 2 * a 2
  | 3 => a 0 * a 0 + a 1 * a 1 + a 2 * a 2 + a 3 * a 3
  | n + 4 => a (n + 4) * a (n + 4) + magnitudeSqrdUpTo a (n + 3)

/-- The value read at `i`, `j` of an expression; for a vector or a point `j` is 0, for a scalar `i` is 0 too. `sq` is
the square root, `env k` the elements of the variable `k`. Where the shapes do not let the program compile the value is
an error that has no meaning. -/
def value (sq : K → K) (env : Nat → Nat → Nat → K) : Tx → Nat → Nat → Res K
  -- `terminals.hpp:54-135`
  | .var _ k, i, j => .ok (env k i j)
  -- `negate.hpp:58,84,113`
  | .neg a, i, j => match value sq env a i j with
    | .error e => .error e
    | .ok x => .ok (-x)
  -- `absolute_value.hpp:50,76,105`
  | .abs a, i, j => match value sq env a i j with
    | .error e => .error e
    | .ok x => .ok |x|
  -- `reciprocal.hpp:47,77,103,132`
  | .recip a, i, j => match value sq env a i j with
    | .error e => .error e
    | .ok x => cdiv 1 x
  -- `transpose.hpp:45`
  | .trans a, i, j => value sq env a j i
  -- `determinant.hpp:42`
  | .det a, _, _ => match shapeOf a with
    | some (.mat r _) => match readAll r r (value sq env a) with
      | .error e => .error e
      | .ok m => .ok (determinant (r - 1) m)
    | _ => .error .assertFailed
  -- `inverse.hpp:45`
  | .inv a, i, j => match shapeOf a with
    | some (.mat r _) => match readAll r r (value sq env a) with
      | .error e => .error e
      | .ok m => inverseAt (r - 2) m i j
    | _ => .error .assertFailed
  -- `magnitude.hpp:42`, `arithmetic/vector/magnitude.hpp:126-132`
  | .mag a, _, _ => match shapeOf a with
    | some (.vec n) => match readAll n 1 (value sq env a) with
      | .error e => .error e
      | .ok v => .ok (sq (magnitudeSqrdUpTo (fun k => v k 0) (n - 1)))
    | _ => .error .assertFailed
  -- `normalize.hpp:50`, `normalize_at_index.hpp:37-44`
  | .norm a, i, _ => match shapeOf a with
    | some (.vec n) => match readAll n 1 (value sq env a) with
      | .error e => .error e
      | .ok v =>
        if sq (magnitudeSqrdUpTo (fun k => v k 0) (n - 1)) = 0 then .error .assertFailed
        else cdiv (v i 0) (sq (magnitudeSqrdUpTo (fun k => v k 0) (n - 1)))
    | _ => .error .assertFailed
  -- `addition.hpp:47,84,121,155`
  | .add a b, i, j => both (fun x y => .ok (x + y)) (value sq env a i j) (value sq env b i j)
  -- `subtraction.hpp:48,85,122,159,193`
  | .sub a b, i, j => both (fun x y => .ok (x - y)) (value sq env a i j) (value sq env b i j)
  | .mul a b, i, j => match shapeOf a, shapeOf b with
    -- `multiplication.hpp:56,93,129,163`
    | some .scalar, some .scalar => both (fun x y => .ok (x * y)) (value sq env a 0 0) (value sq env b 0 0)
    | some .scalar, some (.vec _) => both (fun x y => .ok (x * y)) (value sq env a 0 0) (value sq env b i 0)
    | some (.vec _), some .scalar => both (fun x y => .ok (x * y)) (value sq env a i 0) (value sq env b 0 0)
    | some .scalar, some (.mat _ _) => both (fun x y => .ok (x * y)) (value sq env a 0 0) (value sq env b i j)
    -- `functions/dot_product.hpp:57,95,133,162`
    | some (.vec m), some (.vec _) => dotValue m (fun k => value sq env a k 0) (fun k => value sq env b k 0)
    | some (.vec m), some (.mat _ _) => dotValue m (fun k => value sq env a k 0) (fun k => value sq env b k j)
    | some (.mat _ c), some (.vec _) => dotValue c (fun k => value sq env a i k) (fun k => value sq env b k 0)
    | some (.mat _ c), some (.point _) => dotValue c (fun k => value sq env a i k) (fun k => value sq env b k 0)
    -- `matrix_product.hpp:54`, `matrix_arithmetic.hpp:215-237`
    | some (.mat _ c), some (.mat _ _) => dotValue c (fun k => value sq env a i k) (fun k => value sq env b k j)
    | _, _ => .error .assertFailed
  -- `division.hpp:47,84,118`
  | .div a b, i, j => both (fun x y => cdiv x y) (value sq env a i j) (value sq env b 0 0)
  -- `cross_product.hpp:74,87,100`
  | .cross a b, i, _ =>
    let term (p q : Nat) : Res K :=
      both (fun x y => .ok (x - y))
        (both (fun x y => .ok (x * y)) (value sq env a p 0) (value sq env b q 0))
        (both (fun x y => .ok (x * y)) (value sq env a q 0) (value sq env b p 0))
    match i with
    | 0 => term 1 2
    | 1 => term 2 0
    | 2 => term 0 1
    | _ => .error .assertFailed
  -- `tensor_arithmetic.hpp:148-160,247-258,290-301`
  | .tens a b, i, j => match shapeOf a, shapeOf b with
    | some (.mat _ _), some (.vec n) =>
      both (fun x y => .ok (x * y)) (value sq env a (i / 1) (j / n)) (value sq env b (j % n) 0)
    | some (.vec _), some (.mat r c) =>
      both (fun x y => .ok (x * y)) (value sq env a (i / r) 0) (value sq env b (i % r) (j % c))
    | some (.mat _ _), some (.mat r c) =>
      both (fun x y => .ok (x * y)) (value sq env a (i / r) (j / c)) (value sq env b (i % r) (j % c))
    | _, _ => .error .assertFailed

/-- Whether a left side of one shape and an expression of another are of the same kind: `detail::assigner`,
`expression_generator.hpp:256-329`. The sizes are not compared. -/
def sameKind : Shape → Shape → Bool
  | .scalar, .scalar => true
  | .vec _, .vec _ => true
  | .point _, .point _ => true
  | .mat _ _, .mat _ _ => true
  | _, _ => false

/-- Whether `lhs <<= e` compiles for a left side of shape `s`: the kinds agree and the elements that the left side has
can be read (`construct` with `tensor/detail/vector_n.hpp:110-114` and `matrix_pod_constructor`,
`tensor/detail/matrix_mxn.hpp:66-75`). -/
def assignCompiles (s : Shape) (e : Tx) : Bool :=
  match shapeOf e with
  | some t => sameKind s t && allBelow s.rows s.cols (compiles e)
  | none => false

/-- `lhs <<= e` for the variable `k` of shape `s`: `expression_generator.hpp:256-338`. `none` if it does not compile,
otherwise the variables afterwards. The new tensor is complete before the variable is assigned, so `e` may mention
it. -/
def assign (sq : K → K) (env : Nat → Nat → Nat → K) (s : Shape) (k : Nat) (e : Tx) :
    Option (Res (Nat → Nat → Nat → K)) :=
  if assignCompiles s e then
    some (match readAll s.rows s.cols (value sq env e) with
      | .error err => .error err
      | .ok f => .ok (Function.update env k f))
  else none

end

end Geometrix
