import Verif.Model.Basic

/-!
# Random indices, elements and selectors

`geometrix/utility/random_generator.hpp` and `random_partition_selector_policy` of
`geometrix/algorithm/hyperplane_partition_policies.hpp`. An engine of random numbers, as `boost::mt19937`, is the sequence
`s : Nat → Nat` of the numbers below `2 ^ 32` that it will yield; a copy of it yields the same numbers. What the library Boost
does with them is part of the model, since the documentation of its class `uniform_int` says that both bounds may be the result.
-/

namespace Geometrix

/-- How many numbers of the engine are mapped to one result by Boost's `generate_uniform_int` (1.60 and later), for a range
`0, ..., range` with `range < 2 ^ 32 - 1`. -/
def bucketSize (range : Nat) : Nat :=
  if (2 ^ 32 - 1) % (range + 1) = range then (2 ^ 32 - 1) / (range + 1) + 1 else (2 ^ 32 - 1) / (range + 1)

/-- The loop of `generate_uniform_int`: numbers of the engine are divided by the size of the buckets until the result is in
range. `fuel` bounds the turns. The second result is the number of the next number of the engine. -/
def drawLoop (range : Nat) (s : Nat → Nat) : (fuel i : Nat) → Res (Nat × Nat)
  | 0, _ => .error .diverges
  | fuel + 1, i => if s i / bucketSize range ≤ range then .ok (s i / bucketSize range, i + 1) else drawLoop range s fuel (i + 1)

/-- `random_index_generator::operator()`: `random_generator.hpp:15-42`. The distribution is
`boost::uniform_int<std::size_t>(0, maxIndex)`, `random_generator.hpp:22` and `28`. Precondition of the model:
`maxIndex < 2 ^ 32`; beyond that Boost combines several numbers of the engine. -/
def randomIndex (maxIndex : Nat) (s : Nat → Nat) (fuel i : Nat) : Res (Nat × Nat) :=
  if maxIndex = 0 then .ok (0, i)
  else if maxIndex = 2 ^ 32 - 1 then .ok (s i, i + 1)
  else drawLoop maxIndex s fuel i

/-- `random_element`: `random_generator.hpp:104-110`, the number of steps from the begin of the range. The iterator that is
returned refers to an element if the number is less than the size of the range. (For a `std::vector` it does not compile, since
an iterator of a `const` vector is returned as one that is not; it does for an `iterator_range`.) -/
def randomElement (maxIndex : Nat) (s : Nat → Nat) (fuel i : Nat) : Res (Nat × Nat) := randomIndex maxIndex s fuel i

/-- `random_partition_selector_policy::operator()` for a range of `size` elements: `hyperplane_partition_policies.hpp:70-76`. The
generator is made of a copy of the engine in every call, line 73, so that every call begins at the number 0. -/
def randomSelector (size : Nat) (s : Nat → Nat) (fuel : Nat) : Res Nat :=
  match randomElement size s fuel 0 with
  | .error e => .error e
  | .ok (k, _) => .ok k

/-- The element that an iterator `k` steps from the begin of the elements `l` refers to. -/
def derefAt {α : Type*} (l : List α) (k : Nat) : Res α :=
  match l[k]? with
  | some a => .ok a
  | none => .error .outOfRange

/-- The engines of the generators that exist: the number of the next number that the engine yields, `none` if its generator has
been destroyed. -/
abbrev Engines := Nat → Option Nat

/-- A `random_index_generator`: its own engine, `random_generator.hpp:39`, and the engine to which `m_generator` has a reference,
`random_generator.hpp:41`. -/
structure IndexGenerator where
  own : Nat
  ref : Nat

/-- The constructor: `random_generator.hpp:20-30`. The reference is to the own engine. -/
def makeGenerator (engine : Nat) (h : Engines) : IndexGenerator × Engines := (⟨engine, engine⟩, Function.update h engine (some 0))

/-- The copy constructor, which is the one of the compiler: the engine is copied, and so is the reference to the engine of the
generator that is copied, `random_generator.hpp:39-41`. -/
def copyGenerator (g : IndexGenerator) (engine : Nat) (h : Engines) : IndexGenerator × Engines :=
  (⟨engine, g.ref⟩, Function.update h engine (h g.own))

/-- The end of the life of a generator. -/
def destroyGenerator (g : IndexGenerator) (h : Engines) : Engines := Function.update h g.own none

/-- `random_index_generator::operator()`: `random_generator.hpp:33`. `outOfRange` if the engine does not exist any more. -/
def callGenerator (maxIndex : Nat) (s : Nat → Nat) (fuel : Nat) (g : IndexGenerator) (h : Engines) : Res (Nat × Engines) :=
  match h g.ref with
  | none => .error .outOfRange
  | some i =>
    match randomIndex maxIndex s fuel i with
    | .error e => .error e
    | .ok (k, j) => .ok (k, Function.update h g.ref (some j))

/-- `random_integer_generator::operator()(N)`: `random_generator.hpp:79`, where `x` is the number of the type `std::size_t` that the
distribution yields. -/
def randomInteger (x n : Nat) : Res Nat := if n = 0 then .error .divByZero else .ok (x % n)

/-- `n` calls of `sequence_generator::operator()` after its construction with `v`: `random_generator.hpp:92-102`, for a type of
integers that is not exceeded. -/
def sequenceGenerator : (n : Nat) → (v : Int) → List Int
  | 0, _ => []
  | n + 1, v => v :: sequenceGenerator n (v + 1)

end Geometrix
