import Mathlib.Data.Nat.Log
import Mathlib.Data.List.Range

/-!
# Integer sequences made by the compiler

`geometrix/utility/integer_sequence.hpp`. A parameter pack is a list of natural numbers. Its numbers are of the type
`std::size_t`, which is taken to have 64 bits, so that sums are reduced modulo `2 ^ 64`.
-/

namespace Geometrix

/-- `k * sizeof...(N) + N...`: `integer_sequence.hpp:37-43`. -/
def shiftedPack (l : List Nat) (k : Nat) : List Nat := l.map fun x => (k * l.length + x) % 2 ^ 64

/-- `repeat`: `integer_sequence.hpp:33-45`. -/
def repeatPack (l extra : List Nat) : List Nat :=
  l ++ shiftedPack l 1 ++ shiftedPack l 2 ++ shiftedPack l 3 ++ shiftedPack l 4 ++ shiftedPack l 5 ++ shiftedPack l 6 ++
    shiftedPack l 7 ++ extra

/-- The numbers that are appended by `parity<r>::pmake<N>`: `integer_sequence.hpp:59-66`. -/
def parityExtra : (r n : Nat) → List Nat
  | 1, n => [n - 1]
  | 2, n => [n - 2, n - 1]
  | 3, n => [n - 3, n - 2, n - 1]
  | 4, n => [n - 4, n - 3, n - 2, n - 1]
  | 5, n => [n - 5, n - 4, n - 3, n - 2, n - 1]
  | 6, n => [n - 6, n - 5, n - 4, n - 3, n - 2, n - 1]
  | 7, n => [n - 7, n - 6, n - 5, n - 4, n - 3, n - 2, n - 1]
  | _, _ => []

/-- `make<N>`: `integer_sequence.hpp:48-57` with the specializations for `N < 8`, and `parity<N % 8>::pmake<N>`
(`integer_sequence.hpp:59-66`) for all others. -/
def makePack (n : Nat) : List Nat :=
  if n = 0 then []
  else if n = 1 then [0]
  else if n = 2 then [0, 1]
  else if n = 3 then [0, 1, 2]
  else if n = 4 then [0, 1, 2, 3]
  else if n = 5 then [0, 1, 2, 3, 4]
  else if n = 6 then [0, 1, 2, 3, 4, 5]
  else if n = 7 then [0, 1, 2, 3, 4, 5, 6]
  else repeatPack (makePack (n / 8)) (parityExtra (n % 8) n)
termination_by n
decreasing_by omega

/-- How many instances of `make` are nested for `make<N>`: `integer_sequence.hpp:48-66`. -/
def makeDepth (n : Nat) : Nat :=
  if n < 8 then 1 else makeDepth (n / 8) + 1
termination_by n
decreasing_by omega

/-- `make_integer_sequence<T, N>` for an integral type whose largest number is `maxT`: `integer_sequence.hpp:68-106`. `none` if
it does not compile: the assertion of line 99 fails, or an argument of the pack does not fit the type (`convert`,
`integer_sequence.hpp:68-89`; a conversion of a constant that changes its value is not allowed there). -/
def makeIntegerSequence (maxT : Nat) (n : Int) : Option (List Nat) :=
  if n < 0 then none
  else if ∀ x ∈ makePack n.toNat, x ≤ maxT then some (makePack n.toNat) else none

/-- `index_sequence_for<T...>` for as many types: `integer_sequence.hpp:111-116`. -/
def indexSequenceFor (types : Nat) : Option (List Nat) := makeIntegerSequence (2 ^ 64 - 1) types

end Geometrix
