import Verif.Model.PrivateAllocator
import Mathlib.Data.Set.Basic

/-!
# What the user of an allocator relies on
-/

namespace Geometrix.Spec

/-- The addresses of the elements of an array. -/
def ArrayBytes (b : LiveArray) : Set Nat := {x | b.addr ≤ x ∧ x < b.addr + b.num * b.size}

/-- Every element of a live array is in the address space and no byte belongs to two live arrays, and different
live arrays begin at different addresses. -/
def Sound (live : List LiveArray) : Prop :=
  (∀ b ∈ live, ∀ x ∈ ArrayBytes b, 0 < x ∧ x < 2 ^ 64) ∧
  live.Pairwise fun b c => (∀ x, x ∈ ArrayBytes b → x ∉ ArrayBytes c) ∧ b.addr ≠ c.addr

end Geometrix.Spec
