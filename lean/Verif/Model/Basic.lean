import Mathlib.Algebra.Order.Field.Basic
import Mathlib.Algebra.Order.Ring.Abs
import Mathlib.Algebra.Order.Field.Rat
import Mathlib.Data.Rat.Cast.Order
import Mathlib.Tactic.Ring
import Mathlib.Tactic.Linarith
import Mathlib.Tactic.FieldSimp
import Mathlib.Tactic.LinearCombination
import Mathlib.Tactic.Positivity
import Mathlib.Tactic.NormNum
import Mathlib.Tactic.Push

/-!
# Base types of the model

Numbers are elements of an arbitrary linearly ordered field `K` (no rounding, no overflow).
A point and a vector of the plane are both their two coordinates.
-/

namespace Geometrix

/-- The ways in which a call can go wrong. A call that goes wrong in C++ (undefined behaviour, a
failed assertion, a not-a-number result, or a thrown exception) has one of these as its outcome in
the model, never a made up value. -/
inductive Fault where
  /-- division by zero (undefined or not-a-number in C++) -/
  | divByZero
  /-- `GEOMETRIX_ASSERT` failed -/
  | assertFailed
  /-- access outside a container, or to an element of an empty container -/
  | outOfRange
  /-- an exception was thrown -/
  | thrown
  /-- a loop or recursion that does not end -/
  | diverges
  /-- a not-a-number or infinite result -/
  | nan
  /-- a number that does not fit the integer type it is converted to by `static_cast` -/
  | overflow
  deriving DecidableEq, Repr

/-- The outcome of a call that may go wrong. -/
abbrev Res (α : Type*) := Except Fault α

/-- A C++ division: a zero divisor is a distinct outcome, Lean's convention `x / 0 = 0` is never
relied on. -/
def cdiv {K : Type*} [Field K] [DecidableEq K] (a b : K) : Res K :=
  if b = 0 then .error .divByZero else .ok (a / b)

/-- A two dimensional point or vector: `geometrix/primitive/point.hpp` and
`geometrix/tensor/vector.hpp` with dimension 2. Simplification: points and vectors share one type,
and units of measure are erased. -/
@[ext] structure P2 (K : Type*) where
  x : K
  y : K
  deriving DecidableEq, Repr

namespace P2
variable {K : Type*} [Field K]

/-- Componentwise sum, `geometrix/algebra/functions/addition.hpp` (expression templates erased). -/
instance : Add (P2 K) := ⟨fun a b => ⟨a.x + b.x, a.y + b.y⟩⟩
/-- Componentwise difference, `geometrix/algebra/functions/subtraction.hpp`. -/
instance : Sub (P2 K) := ⟨fun a b => ⟨a.x - b.x, a.y - b.y⟩⟩
/-- Componentwise negation, `geometrix/algebra/functions/negation.hpp`. -/
instance : Neg (P2 K) := ⟨fun a => ⟨-a.x, -a.y⟩⟩
/-- Scalar multiple, `geometrix/algebra/functions/multiplication.hpp`. -/
instance : SMul K (P2 K) := ⟨fun s a => ⟨s * a.x, s * a.y⟩⟩
/-- The null vector. -/
instance : Zero (P2 K) := ⟨⟨0, 0⟩⟩

@[simp] theorem add_x (a b : P2 K) : (a + b).x = a.x + b.x := rfl
@[simp] theorem add_y (a b : P2 K) : (a + b).y = a.y + b.y := rfl
@[simp] theorem sub_x (a b : P2 K) : (a - b).x = a.x - b.x := rfl
@[simp] theorem sub_y (a b : P2 K) : (a - b).y = a.y - b.y := rfl
@[simp] theorem neg_x (a : P2 K) : (-a).x = -a.x := rfl
@[simp] theorem neg_y (a : P2 K) : (-a).y = -a.y := rfl
@[simp] theorem smul_x (s : K) (a : P2 K) : (s • a).x = s * a.x := rfl
@[simp] theorem smul_y (s : K) (a : P2 K) : (s • a).y = s * a.y := rfl
@[simp] theorem zero_x : (0 : P2 K).x = 0 := rfl
@[simp] theorem zero_y : (0 : P2 K).y = 0 := rfl

end P2

variable {K : Type*} [Field K]

/-- `dot_product` in two dimensions: `geometrix/algebra/detail/dot_product.hpp:106-125,281-300`. -/
def dot (u v : P2 K) : K := u.x * v.x + u.y * v.y

/-- `exterior_product_area` in two dimensions: `geometrix/algebra/exterior_product.hpp:91-97`. -/
def cross (u v : P2 K) : K := u.x * v.y - u.y * v.x

/-- `magnitude_sqrd`: `geometrix/arithmetic/vector/magnitude.hpp` (the dot product with itself). -/
def normSq (u : P2 K) : K := dot u u

/-- `point_point_distance_sqrd`: `geometrix/algorithm/distance/point_point_distance.hpp`. -/
def distSq (a b : P2 K) : K := normSq (b - a)

end Geometrix
