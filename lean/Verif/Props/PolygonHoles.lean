import Verif.Lemmas.PolygonHoles

/-!
# C127: polygons with holes
-/

namespace Geometrix

open Spec

variable {α : Type*}

/-- C127: after any calls of `set_outer` and `add_hole` the outer polygon is the one of the last `set_outer` and the holes are
those of the calls of `add_hole`, in order, if no variable that is not `const` is named again after a
call. Missing from the full statement: variables that are passed without `std::move` and used again. -/
theorem C127_assemble_partial (cs : List HolesCall) (vars : Nat → List α) (p : PolyHoles α)
    (h : cs.Pairwise fun a b => calledHow a = .constant ∨ calledVar a ≠ calledVar b) :
    (holesCalls cs vars p).2.outer = wantedOuter vars p.outer cs ∧
      (holesCalls cs vars p).2.holes = p.holes ++ wantedHoles vars cs := by
  rw [holesCalls_object cs vars vars p h fun _ _ => rfl]
  exact ⟨rfl, rfl⟩

/-- An outer polygon and two holes, of which the second is a constant that is used twice. -/
example : [HolesCall.setOuter .plain 0, .addHole .moved 1, .addHole .constant 2, .addHole .plain 2].Pairwise
    fun a b => calledHow a = .constant ∨ calledVar a ≠ calledVar b := by
  decide

/-- C127: the variables of the caller after the calls. Those that were passed and are not `const` are empty, with or without
`std::move`; all others are as before. -/
theorem C127_variables (cs : List HolesCall) (vars : Nat → List α) (p : PolyHoles α) (v : Nat) :
    (holesCalls cs vars p).1 v = if ∃ c ∈ cs, calledVar c = v ∧ calledHow c ≠ .constant then [] else vars v :=
  holesCalls_vars cs vars p v

/-- The code violates C127: `set_outer(q)` and `add_hole(q)` with a variable `q` empty the variable, so that adding `q` twice
adds an empty hole. -/
theorem C127_emptied_refuted : ∃ (vars : Nat → List ℕ) (p : PolyHoles ℕ),
    (holesCalls [.setOuter .plain 0] vars p).1 0 ≠ vars 0 ∧
      (holesCalls [.addHole .plain 0, .addHole .plain 0] vars p).2.holes ≠
        p.holes ++ wantedHoles vars [.addHole .plain 0, .addHole .plain 0] := by
  refine ⟨fun _ => [1, 2, 3], ⟨[], []⟩, ?_, ?_⟩ <;> decide

/-- C127: the segments are the sides of the outer polygon and of the holes, in order, if no polygon has one point. Missing from
the full statement: polygons of one point. -/
theorem C127_sides_partial {p : PolyHoles α} (ho : p.outer.length ≠ 1) (hh : ∀ h ∈ p.holes, h.length ≠ 1) :
    polygonWithHolesSegments p = .ok (sidesOf p.outer ++ p.holes.flatMap sidesOf) := by
  rw [polygonWithHolesSegments, ringSegments_sides ho, holesSegments_sides hh]

/-- A triangle with one triangle as a hole. -/
example : [1, 2, 3].length ≠ 1 ∧ ∀ h ∈ [[4, 5, 6]], h.length ≠ 1 := by decide

example : sidesOf [1, 2, 3] = [(1, 2), (2, 3), (3, 1)] := by decide

/-- The code violates C127: with a polygon of one point a point behind the end of the vector is read. -/
theorem C127_point_refuted {p : PolyHoles α} (h : p.outer.length = 1 ∨ ∃ h ∈ p.holes, h.length = 1) :
    polygonWithHolesSegments p = .error .outOfRange := by
  rw [polygonWithHolesSegments]
  by_cases h1 : p.outer.length = 1
  · rw [ringSegments_one h1]
  · rw [ringSegments_sides h1, holesSegments_one (h.resolve_left h1)]

/-- One point. -/
example : (⟨[7], []⟩ : PolyHoles ℕ).outer.length = 1 := rfl

end Geometrix
