import Mathlib.Data.List.Basic
import Mathlib.Data.Nat.Basic

/-!
# The allocator `private_allocator`

`geometrix/utility/private_allocator.hpp:16-106`. The allocators have no state. Modelled are the memory blocks
that they get from `::operator new` and what a container believes to have got.
-/

namespace Geometrix

/-- A live allocation: the address and the number of bytes that `::operator new` was asked for, and the number
and the size of the elements that the caller asked for. -/
structure LiveArray where
  /-- the address of the block -/
  addr : Nat
  /-- the size of the block -/
  bytes : Nat
  /-- the number of elements asked for -/
  num : Nat
  /-- `sizeof(T)` -/
  size : Nat
  deriving DecidableEq

/-- `max_size`: `private_allocator.hpp:55-58`. -/
def allocMaxSize (size : Nat) : Nat := (2 ^ 64 - 1) / size

/-- The number of bytes that `allocate(num)` asks for, `num * sizeof(T)` in `std::size_t`:
`private_allocator.hpp:60-63`. -/
def allocBytes (size num : Nat) : Nat := num * size % 2 ^ 64

/-- `operator==` of two allocators, also for different types: `private_allocator.hpp:71-75`. -/
def allocEqual (_size _size' : Nat) : Bool := true

/-- The calls. -/
inductive AllocCall where
  /-- `allocate(num)` of the allocator for a type with the given size -/
  | allocate (size num : Nat)
  /-- `deallocate(p, num)` of the allocator for a type with the given size -/
  | deallocate (size addr num : Nat)

/-- What a correct `::operator new(n)` may return: a block of at least one byte in the address space that
overlaps no live block. This is trusted, not part of the library. -/
def NewBlock (live : List LiveArray) (n p : Nat) : Prop :=
  0 < p ∧ p + max n 1 ≤ 2 ^ 64 ∧ ∀ b ∈ live, p + max n 1 ≤ b.addr ∨ b.addr + max b.bytes 1 ≤ p

/-- The effect of a call: `private_allocator.hpp:60-68`. `allocate` returns a block, or throws and changes
nothing. `deallocate` of the address of a live block frees it, whatever the type of the allocator and the
number; that of a null pointer does nothing. Of any other address it is undefined: there is no step. -/
inductive AllocStep : List LiveArray → AllocCall → List LiveArray → Prop where
  | allocate {live : List LiveArray} {size num p : Nat} (h : NewBlock live (allocBytes size num) p) :
      AllocStep live (.allocate size num) (⟨p, allocBytes size num, num, size⟩ :: live)
  | throws {live : List LiveArray} {size num : Nat} : AllocStep live (.allocate size num) live
  | deallocate {live : List LiveArray} {size num : Nat} {b : LiveArray} (h : b ∈ live) :
      AllocStep live (.deallocate size b.addr num) (live.filter fun c => c.addr ≠ b.addr)
  | null {live : List LiveArray} {size num : Nat} : AllocStep live (.deallocate size 0 num) live

/-- A history of calls that begins without live blocks. -/
inductive AllocRun : List AllocCall → List LiveArray → Prop where
  | nil : AllocRun [] []
  | step {calls : List AllocCall} {live live' : List LiveArray} {c : AllocCall} (h : AllocRun calls live)
      (hs : AllocStep live c live') : AllocRun (c :: calls) live'

end Geometrix
