import Verif.Model.Basic

/-!
# Points of space
-/

namespace Geometrix

/-- A three dimensional point or vector: `geometrix/primitive/point.hpp` and
`geometrix/tensor/vector.hpp` with dimension 3. Same simplifications as `P2`. -/
@[ext] structure P3 (K : Type*) where
  x : K
  y : K
  z : K
  deriving DecidableEq, Repr

namespace P3
variable {K : Type*} [Field K]

/-- Componentwise sum, `geometrix/algebra/functions/addition.hpp`. -/
instance : Add (P3 K) := ⟨fun a b => ⟨a.x + b.x, a.y + b.y, a.z + b.z⟩⟩
/-- Componentwise difference, `geometrix/algebra/functions/subtraction.hpp`. -/
instance : Sub (P3 K) := ⟨fun a b => ⟨a.x - b.x, a.y - b.y, a.z - b.z⟩⟩
/-- Componentwise negation, `geometrix/algebra/functions/negation.hpp`. -/
instance : Neg (P3 K) := ⟨fun a => ⟨-a.x, -a.y, -a.z⟩⟩
/-- Scalar multiple, `geometrix/algebra/functions/multiplication.hpp`. -/
instance : SMul K (P3 K) := ⟨fun s a => ⟨s * a.x, s * a.y, s * a.z⟩⟩
/-- The null vector. -/
instance : Zero (P3 K) := ⟨⟨0, 0, 0⟩⟩

@[simp] theorem add_x (a b : P3 K) : (a + b).x = a.x + b.x := rfl
@[simp] theorem add_y (a b : P3 K) : (a + b).y = a.y + b.y := rfl
@[simp] theorem add_z (a b : P3 K) : (a + b).z = a.z + b.z := rfl
@[simp] theorem sub_x (a b : P3 K) : (a - b).x = a.x - b.x := rfl
@[simp] theorem sub_y (a b : P3 K) : (a - b).y = a.y - b.y := rfl
@[simp] theorem sub_z (a b : P3 K) : (a - b).z = a.z - b.z := rfl
@[simp] theorem neg_x (a : P3 K) : (-a).x = -a.x := rfl
@[simp] theorem neg_y (a : P3 K) : (-a).y = -a.y := rfl
@[simp] theorem neg_z (a : P3 K) : (-a).z = -a.z := rfl
@[simp] theorem smul_x (s : K) (a : P3 K) : (s • a).x = s * a.x := rfl
@[simp] theorem smul_y (s : K) (a : P3 K) : (s • a).y = s * a.y := rfl
@[simp] theorem smul_z (s : K) (a : P3 K) : (s • a).z = s * a.z := rfl
@[simp] theorem zero_x : (0 : P3 K).x = 0 := rfl
@[simp] theorem zero_y : (0 : P3 K).y = 0 := rfl
@[simp] theorem zero_z : (0 : P3 K).z = 0 := rfl

end P3

variable {K : Type*} [Field K]

/-- `dot_product` in three dimensions: `geometrix/algebra/detail/dot_product.hpp:106-125`. -/
def dot3 (u v : P3 K) : K := u.x * v.x + u.y * v.y + u.z * v.z

/-- `cross_product`: `geometrix/algebra/functions/cross_product.hpp:62-102`. -/
def cross3 (u v : P3 K) : P3 K :=
  ⟨u.y * v.z - u.z * v.y, u.z * v.x - u.x * v.z, u.x * v.y - u.y * v.x⟩

end Geometrix
