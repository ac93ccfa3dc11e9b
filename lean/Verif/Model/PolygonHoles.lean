import Verif.Model.Basic

/-!
# The class `polygon_with_holes` and its sides

`geometrix/primitive/polygon_with_holes.hpp` and `geometrix/algorithm/polygon_with_holes_as_segment_range.hpp`. A point may be
of any type `α`, a polygon is the list of its points (`primitive/polygon.hpp:28` derives it from `std::vector`).
-/

namespace Geometrix

/-- The two members of `polygon_with_holes`: `polygon_with_holes.hpp:125-128`. -/
structure PolyHoles (α : Type*) where
  outer : List α
  holes : List (List α)

/-- How the argument of `set_outer` or `add_hole` is written: a variable that is not `const`, a variable that is `const`, or a
variable in `std::move`. -/
inductive Passing where
  | plain
  | constant
  | moved
  deriving DecidableEq

/-- What a variable that is passed holds after the call: `polygon_with_holes.hpp:91-101` and `113-123`. The overload for
`OuterPolygon&&` is a template, so that it is a forwarding reference. It is chosen for all arguments but `const` variables, for
which the overload for `const OuterPolygon&` is more specialized, and it applies `std::move` to its argument. The assignment of
a vector and the construction of a vector from a vector that is moved leave the latter empty (libstdc++, libc++ and Microsoft's
library; the standard leaves open what is left by the assignment). -/
def leftBehind {α : Type*} (how : Passing) (q : List α) : List α :=
  match how with
  | .plain => []
  | .constant => q
  | .moved => []

/-- One call: `set_outer` or `add_hole` with the variable number `var` of the caller. -/
inductive HolesCall where
  | setOuter (how : Passing) (var : Nat)
  | addHole (how : Passing) (var : Nat)
  deriving DecidableEq

/-- The call of `set_outer` (`polygon_with_holes.hpp:91-101`) or `add_hole` (`polygon_with_holes.hpp:113-123`), for the
variables `vars` of the caller. -/
def holesCall {α : Type*} (c : HolesCall) (vars : Nat → List α) (p : PolyHoles α) : (Nat → List α) × PolyHoles α :=
  match c with
  | .setOuter how var => (Function.update vars var (leftBehind how (vars var)), ⟨vars var, p.holes⟩)
  | .addHole how var => (Function.update vars var (leftBehind how (vars var)), ⟨p.outer, p.holes ++ [vars var]⟩)

/-- A sequence of such calls. -/
def holesCalls {α : Type*} : List HolesCall → (Nat → List α) → PolyHoles α → (Nat → List α) × PolyHoles α
  | [], vars, p => (vars, p)
  | c :: cs, vars, p => holesCalls cs (holesCall c vars p).1 (holesCall c vars p).2

/-- The loop over the points of one polygon: `polygon_with_holes_as_segment_range.hpp:22-26` and `31-35`. The argument `n` is
the number of turns left, `i` and `j` are the variables of the loop. `get_point` is `operator[]` of the vector
(`vector_point_sequence.hpp:46`), which is undefined behind its end. -/
def ringSegments {α : Type*} (l : List α) : (n i j : Nat) → Res (List (α × α))
  | 0, _, _ => .ok []
  | n + 1, i, j =>
    match l[i]?, l[j]? with
    | some a, some b =>
      match ringSegments l n (i + 1) ((j + 1) % l.length) with
      | .error e => .error e
      | .ok rest => .ok ((a, b) :: rest)
    | _, _ => .error .outOfRange

/-- The loop over the holes: `polygon_with_holes_as_segment_range.hpp:28-36`. -/
def holesSegments {α : Type*} : List (List α) → Res (List (α × α))
  | [] => .ok []
  | h :: hs =>
    match ringSegments h h.length 0 1 with
    | .error e => .error e
    | .ok a =>
      match holesSegments hs with
      | .error e => .error e
      | .ok b => .ok (a ++ b)

/-- `polygon_with_holes_as_segment_range`: `polygon_with_holes_as_segment_range.hpp:15-40`. -/
def polygonWithHolesSegments {α : Type*} (p : PolyHoles α) : Res (List (α × α)) :=
  match ringSegments p.outer p.outer.length 0 1 with
  | .error e => .error e
  | .ok a =>
    match holesSegments p.holes with
    | .error e => .error e
    | .ok b => .ok (a ++ b)

end Geometrix
