import Verif.Lemmas.MeshAdjacency
import Mathlib.Tactic.NormNum
import Mathlib.Tactic.IntervalCases

/-!
# C88: the adjacent triangles of a mesh
-/

set_option linter.unusedSectionVars false

namespace Geometrix
open Spec

/-- C88, every list of triangles: the entry for a side is a triangle that has the side in the other direction if there is
one, and the largest number otherwise. -/
theorem C88_entry {ts : List (Nat × Nat × Nat)} (hn : ts.length < 2 ^ 64) (i s : Nat) :
    ((∃ j r, Across ts i s j r) → ∃ r, Across ts i s (adjacency ts i s) r ∧ adjacency ts i s < ts.length) ∧
    ((¬ ∃ j r, Across ts i s j r) → adjacency ts i s = 2 ^ 64 - 1) ∧
    (adjacency ts i s = 2 ^ 64 - 1 → ¬ ∃ j r, Across ts i s j r) := by
  have h1 : (∃ j r, Across ts i s j r) → ∃ r, Across ts i s (adjacency ts i s) r ∧ adjacency ts i s < ts.length := by
    rintro ⟨j, r, h⟩
    obtain ⟨r', h'⟩ := adjacency_complete h
    exact ⟨r', h', (across_lt h').2.2.1⟩
  refine ⟨h1, fun h => ?_, fun h h' => ?_⟩
  · rcases adjacency_sound ts i s with h' | ⟨r, h'⟩
    · exact h'
    · exact absurd ⟨_, r, h'⟩ h
  · obtain ⟨r, _, hl⟩ := h1 h'
    omega

/-- C88: in a list of triangles in which no side occurs twice in the same direction, the entry for a side is the one triangle
that has it in the other direction, and the entry of that triangle for this side leads back. -/
theorem C88_mutual {ts : List (Nat × Nat × Nat)} (ho : SidesOnce ts) {i s j r : Nat}
    (h : Across ts i s j r) : adjacency ts i s = j ∧ adjacency ts j r = i := by
  obtain ⟨r', h'⟩ := adjacency_complete h
  obtain ⟨r'', h''⟩ := adjacency_complete (across_symm h)
  exact ⟨(across_unique ho h' h).1, (across_unique ho h'' (across_symm h)).1⟩

/-- C88: a triangle with three different indices is not adjacent to itself. -/
theorem C88_other {ts : List (Nat × Nat × Nat)} (hn : ts.length < 2 ^ 64) {i s : Nat} {t : Nat × Nat × Nat}
    (ht : ts[i]? = some t) (hd : t.1 ≠ t.2.1 ∧ t.2.1 ≠ t.2.2 ∧ t.2.2 ≠ t.1) : adjacency ts i s ≠ i := by
  intro e
  rcases adjacency_sound ts i s with h | ⟨r, t', u, p, q, h1, h2, h3, h4⟩
  · have := (List.getElem?_eq_some_iff.1 ht).1
    unfold noTriangle at h
    omega
  · rw [e] at h2
    rw [ht, Option.some.injEq] at h1 h2
    subst h1 h2
    obtain ⟨d1, d2, d3⟩ := hd
    unfold HasSide at h3 h4
    omega

example : SidesOnce [(0, 1, 2), (1, 3, 2)] ∧ Across [(0, 1, 2), (1, 3, 2)] 0 1 1 2 ∧
    adjacency [(0, 1, 2), (1, 3, 2)] 0 1 = 1 ∧ adjacency [(0, 1, 2), (1, 3, 2)] 1 2 = 0 ∧
    adjacency [(0, 1, 2), (1, 3, 2)] 0 0 = 2 ^ 64 - 1 := by
  refine ⟨?_, ⟨_, _, 1, 2, rfl, rfl, by simp [HasSide], by simp [HasSide]⟩, by decide +kernel, by decide +kernel,
    by decide +kernel⟩
  intro i j s r t u p q h1 h2 h3 h4
  have hi := (List.getElem?_eq_some_iff.1 h1).1
  have hj := (List.getElem?_eq_some_iff.1 h2).1
  simp only [List.length_cons, List.length_nil] at hi hj
  interval_cases i <;> interval_cases j <;> simp at h1 h2 <;> subst h1 h2 <;> simp [HasSide] at h3 h4 <;> omega

/-- C88, what happens when two triangles have a side in the same direction: both name the third triangle as the one across
the side, and that one names only the second of them. -/
theorem C88_overlap :
    adjacency [(0, 1, 2), (1, 0, 3), (1, 0, 4)] 1 0 = 0 ∧ adjacency [(0, 1, 2), (1, 0, 3), (1, 0, 4)] 2 0 = 0 ∧
    adjacency [(0, 1, 2), (1, 0, 3), (1, 0, 4)] 0 0 = 2 := by decide +kernel

/-- C88, `get_triangle_adjacent_side`: the number of the first side of the one triangle that the other has in the other
direction; without such a side the assertion fails. -/
theorem C88_side (t u : Nat × Nat × Nat) :
    (∃ s, adjacentSide t u = .ok s ∧ (∃ r p q, HasSide t s p q ∧ HasSide u r q p) ∧
      ∀ s' < s, ¬ ∃ r p q, HasSide t s' p q ∧ HasSide u r q p) ∨
    (adjacentSide t u = .error .assertFailed ∧ ¬ ∃ s r p q, HasSide t s p q ∧ HasSide u r q p) :=
  adjacentSide_spec t u

/-- C88, both together: the side that `get_triangle_adjacent_side` gives for two triangles of a list in which no side occurs twice
in the same direction is a side of the first across which the matrix has the second. -/
theorem C88_side_entry {ts : List (Nat × Nat × Nat)} (ho : SidesOnce ts) {i j s : Nat}
    {t u : Nat × Nat × Nat} (ht : ts[i]? = some t) (hu : ts[j]? = some u) (h : adjacentSide t u = .ok s) :
    adjacency ts i s = j := by
  rcases adjacentSide_spec t u with ⟨s', e, ⟨r, p, q, h1, h2⟩, _⟩ | ⟨e, _⟩
  · rw [e] at h
    obtain rfl := Except.ok.inj h
    have hx : Across ts i s' j r := ⟨t, u, p, q, ht, hu, h1, h2⟩
    obtain ⟨r', h'⟩ := adjacency_complete hx
    exact (across_unique ho h' hx).1
  · rw [e] at h; simp at h

example : adjacentSide (0, 1, 2) (1, 3, 2) = .ok 1 ∧ adjacentSide (1, 3, 2) (0, 1, 2) = .ok 2 ∧
    adjacentSide (0, 1, 2) (2, 3, 4) = .error .assertFailed := by decide +kernel

end Geometrix
