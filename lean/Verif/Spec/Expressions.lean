import Verif.Model.Expressions
import Verif.Spec.Determinant
import Mathlib.LinearAlgebra.Matrix.NonsingularInverse

/-!
# Linear algebra

What an expression of scalars, vectors, points and matrices means. Vectors and points are columns, a scalar is a
matrix of size 1.
-/

namespace Geometrix.Spec

open Geometrix Finset

/-- All sizes are positive. -/
def Positive : Shape → Prop
  | .scalar => True
  | .vec n => 1 ≤ n
  | .point n => 1 ≤ n
  | .mat r c => 1 ≤ r ∧ 1 ≤ c

instance : DecidablePred Positive := fun s => by cases s <;> unfold Positive <;> infer_instance

/-- The shape of a sum: both operands have it. A vector can be added to a point. -/
def sumShape : Shape → Shape → Option Shape
  | .point m, .vec n => if m = n then some (.point n) else none
  | .point _, .point _ => none
  | s, t => if s = t then some s else none

/-- The shape of a difference: two points differ by a vector. -/
def differenceShape : Shape → Shape → Option Shape
  | .point m, .vec n => if m = n then some (.point n) else none
  | .point m, .point n => if m = n then some (.vec n) else none
  | s, t => if s = t then some s else none

/-- The shape of a product: a scalar multiple of a vector or matrix, the scalar product of two vectors, or a product
with a matrix whose inner sizes agree. A matrix maps a vector to a vector and a point to a point. -/
def productShape : Shape → Shape → Option Shape
  | .scalar, .scalar => some .scalar
  | .scalar, .vec n => some (.vec n)
  | .vec n, .scalar => some (.vec n)
  | .scalar, .mat r c => some (.mat r c)
  | .mat r c, .scalar => some (.mat r c)
  | .vec m, .vec n => if m = n then some .scalar else none
  | .vec m, .mat r c => if m = r then some (.mat 1 c) else none
  | .mat r c, .vec n => if c = n then some (.vec r) else none
  | .mat r c, .point n => if c = n then some (.point r) else none
  | .mat r c, .mat r' c' => if c = r' then some (.mat r c') else none
  | _, _ => none

/-- The shape of an expression by the rules of linear algebra, `none` if it has no meaning. -/
def meaningShape : Tx → Option Shape
  | .var s _ => if Positive s then some s else none
  | .neg a => (meaningShape a).bind fun s => match s with
    | .point _ => none
    | s => some s
  | .abs a => (meaningShape a).bind fun s => match s with
    | .point _ => none
    | s => some s
  | .recip a => meaningShape a
  | .trans a => (meaningShape a).bind fun s => match s with
    | .mat r c => some (.mat c r)
    | _ => none
  | .det a => (meaningShape a).bind fun s => match s with
    | .mat r c => if r = c then some .scalar else none
    | _ => none
  | .inv a => (meaningShape a).bind fun s => match s with
    | .mat r c => if r = c then some (.mat r c) else none
    | _ => none
  | .mag a => (meaningShape a).bind fun s => match s with
    | .vec _ => some .scalar
    | _ => none
  | .norm a => (meaningShape a).bind fun s => match s with
    | .vec n => some (.vec n)
    | _ => none
  | .add a b => (meaningShape a).bind fun s => (meaningShape b).bind fun t => sumShape s t
  | .sub a b => (meaningShape a).bind fun s => (meaningShape b).bind fun t => differenceShape s t
  | .mul a b => (meaningShape a).bind fun s => (meaningShape b).bind fun t => productShape s t
  | .div a b => (meaningShape a).bind fun s => (meaningShape b).bind fun t => match s, t with
    | .scalar, .scalar => some .scalar
    | .vec n, .scalar => some (.vec n)
    | .mat r c, .scalar => some (.mat r c)
    | _, _ => none
  | .cross a b => (meaningShape a).bind fun s => (meaningShape b).bind fun t => match s, t with
    | .vec 3, .vec 3 => some (.vec 3)
    | _, _ => none
  | .tens a b => (meaningShape a).bind fun s => (meaningShape b).bind fun t => match s, t with
    | .vec m, .vec n => some (.mat m n)
    | .mat r c, .vec n => some (.mat r (c * n))
    | .vec n, .mat r c => some (.mat (n * r) c)
    | .mat r c, .mat r' c' => some (.mat (r * r') (c * c'))
    | _, _ => none

/-- The inverse of the square matrix of size `n` with given elements. -/
noncomputable def inverseEntry {K : Type*} [Field K] (n : Nat) (f : Nat → Nat → K) (i j : Nat) : K :=
  if h : i < n ∧ j < n then (Matrix.of fun a b : Fin n => f a b)⁻¹ ⟨i, h.1⟩ ⟨j, h.2⟩ else 0

section
variable {K : Type*} [Field K] [LinearOrder K]

/-- The elements of an expression by linear algebra, `none` if somewhere in it there is a division by zero, the
inverse of a singular matrix or the direction of a null vector. -/
noncomputable def meaning (sq : K → K) (env : Nat → Nat → Nat → K) : Tx → Option (Nat → Nat → K)
  | .var _ k => some (env k)
  | .neg a => (meaning sq env a).bind fun f => some fun i j => -f i j
  | .abs a => (meaning sq env a).bind fun f => some fun i j => |f i j|
  | .recip a => (meaning sq env a).bind fun f => (meaningShape a).bind fun s =>
      open Classical in
      if ∀ i < s.rows, ∀ j < s.cols, f i j ≠ 0 then some fun i j => 1 / f i j else none
  | .trans a => (meaning sq env a).bind fun f => some fun i j => f j i
  | .det a => (meaning sq env a).bind fun f => (meaningShape a).bind fun s => some fun _ _ => leibniz s.rows f
  | .inv a => (meaning sq env a).bind fun f => (meaningShape a).bind fun s =>
      if leibniz s.rows f ≠ 0 then some (inverseEntry s.rows f) else none
  | .mag a => (meaning sq env a).bind fun f => (meaningShape a).bind fun s =>
      some fun _ _ => sq (∑ k ∈ range s.rows, f k 0 ^ 2)
  | .norm a => (meaning sq env a).bind fun f => (meaningShape a).bind fun s =>
      if sq (∑ k ∈ range s.rows, f k 0 ^ 2) ≠ 0 then some fun i j => f i j / sq (∑ k ∈ range s.rows, f k 0 ^ 2)
      else none
  | .add a b => (meaning sq env a).bind fun f => (meaning sq env b).bind fun g => some fun i j => f i j + g i j
  | .sub a b => (meaning sq env a).bind fun f => (meaning sq env b).bind fun g => some fun i j => f i j - g i j
  | .mul a b => (meaning sq env a).bind fun f => (meaning sq env b).bind fun g =>
      (meaningShape a).bind fun s => (meaningShape b).bind fun t => match s, t with
      | .scalar, _ => some fun i j => f 0 0 * g i j
      | _, .scalar => some fun i j => f i j * g 0 0
      | .vec n, .vec _ => some fun _ _ => ∑ k ∈ range n, f k 0 * g k 0
      | .vec n, _ => some fun _ j => ∑ k ∈ range n, f k 0 * g k j
      | s, _ => some fun i j => ∑ k ∈ range s.cols, f i k * g k j
  | .div a b => (meaning sq env a).bind fun f => (meaning sq env b).bind fun g =>
      if g 0 0 ≠ 0 then some fun i j => f i j / g 0 0 else none
  | .cross a b => (meaning sq env a).bind fun f => (meaning sq env b).bind fun g => some fun i _ =>
      match i with
      | 0 => f 1 0 * g 2 0 - f 2 0 * g 1 0
      | 1 => f 2 0 * g 0 0 - f 0 0 * g 2 0
      | _ => f 0 0 * g 1 0 - f 1 0 * g 0 0
  | .tens a b => (meaning sq env a).bind fun f => (meaning sq env b).bind fun g =>
      (meaningShape a).bind fun s => (meaningShape b).bind fun t => match s, t with
      | .vec _, .vec _ => some fun i j => f i 0 * g j 0
      | .mat _ _, .vec n => some fun i j => f i (j / n) * g (j % n) 0
      | .vec _, .mat r _ => some fun i j => f (i / r) 0 * g (i % r) j
      | _, t => some fun i j => f (i / t.rows) (j / t.cols) * g (i % t.rows) (j % t.cols)

end

/-- A product of operands of these shapes: a matrix applied to a vector or point is square, the sum of products has at
least two terms, and no matrix stands to the left of a scalar. -/
def SupportedProduct : Shape → Shape → Prop
  | .mat _ _, .scalar => False
  | .vec n, .vec _ => 2 ≤ n
  | .vec n, .mat _ _ => 2 ≤ n
  | .mat r c, .vec _ => r = c ∧ 2 ≤ c
  | .mat r c, .point _ => r = c ∧ 2 ≤ c
  | .mat _ c, .mat _ _ => 2 ≤ c
  | _, _ => True

/-- A tensor product of operands of these shapes: not of two vectors, and not of a vector with a matrix that has more
columns than rows. -/
def SupportedTensor : Shape → Shape → Prop
  | .vec _, .vec _ => False
  | .vec _, .mat r c => c ≤ r
  | _, _ => True

/-- The expressions in which a matrix applied to a vector or point is square, no sum of products has a single term, no
matrix stands to the left of a scalar, there is no `&` of two vectors and no `&` of a vector with a matrix that has
more columns than rows, and the size of a determinant is at most 10 and that of an inverse from 2 to 10. -/
def Supported : Tx → Prop
  | .var _ _ => True
  | .neg a => Supported a
  | .abs a => Supported a
  | .recip a => Supported a
  | .trans a => Supported a
  | .det a => Supported a ∧ ∀ s, meaningShape a = some s → s.rows ≤ 10
  | .inv a => Supported a ∧ ∀ s, meaningShape a = some s → 2 ≤ s.rows ∧ s.rows ≤ 10
  | .mag a => Supported a
  | .norm a => Supported a
  | .add a b => Supported a ∧ Supported b
  | .sub a b => Supported a ∧ Supported b
  | .mul a b => Supported a ∧ Supported b ∧ ∀ s t, meaningShape a = some s → meaningShape b = some t →
      SupportedProduct s t
  | .div a b => Supported a ∧ Supported b
  | .cross a b => Supported a ∧ Supported b
  | .tens a b => Supported a ∧ Supported b ∧ ∀ s t, meaningShape a = some s → meaningShape b = some t →
      SupportedTensor s t

end Geometrix.Spec
