import Verif.Lemmas.SegmentPolygon

/-!
# C92: segments and the border of a polygon
-/

set_option linter.unusedSectionVars false

namespace Geometrix

open Spec

variable {K : Type*} [Field K] [LinearOrder K] [IsStrictOrderedRing K] {σ : Type*}

/-- `segment_polygon_border_intersect` calls the visitor for every side that meets the segment, in order, the closing
side included, with the correct answer for the two segments, until it asks to stop; the result says whether there is
such a side. -/
theorem C92_border (A B : P2 K) (poly : List (P2 K)) (visit : σ → EdgeCall K → Bool × σ) (s : σ)
    (hAB : A ≠ B) (hn : poly.length ≠ 1) (hp : ProperPolygon poly) : ∃ calls : List (EdgeCall K),
      (∀ i, (∃ c ∈ calls, c.i = i) ↔ MeetsSide A B poly i) ∧
      calls.Pairwise (fun c d => c.i < d.i) ∧
      (∀ c ∈ calls, c.j = (c.i + 1) % poly.length ∧
        ∃ C D, IsPolygonEdge poly c.i C D ∧ CorrectAnswer A B C D c.type c.pts) ∧
      ∃ r, segPolygonBorder Cmp.direct A B poly visit s = .ok (r, callUntil visit s calls) ∧
        (r = true ↔ ∃ P, OnSegment A B P ∧ OnBoundary poly P) := by
  obtain ⟨calls, h1, h2, h3, h4⟩ := segPolygonLoop_spec A B hAB poly hp visit poly.length 0 (by omega)
  refine ⟨calls, fun i => h1 i (Nat.zero_le i), h3, ?_, !calls.isEmpty, ?_, ?_⟩
  · intro c hc
    obtain ⟨-, e2, C, D, e3, e4, -⟩ := h2 c hc
    exact ⟨e2, C, D, e3, e4⟩
  · unfold segPolygonBorder
    rcases Nat.eq_zero_or_pos poly.length with h0 | h0
    · have := h4 false s
      rw [h0] at this ⊢
      simpa [segPolygonLoop] using this
    · have h5 : (0 + 1) % poly.length = 1 := Nat.mod_eq_of_lt (by omega)
      have := h4 false s
      rw [h5] at this
      simpa using this
  · constructor
    · intro h
      cases calls with
      | nil => simp at h
      | cons c cs =>
        obtain ⟨C, D, P, h5, h6, h7⟩ := (h1 c.i (Nat.zero_le _)).1 ⟨c, List.mem_cons_self, rfl⟩
        exact ⟨P, h6, c.i, C, D, h5, h7⟩
    · rintro ⟨P, h6, i, C, D, h5, h7⟩
      obtain ⟨c, hc, -⟩ := (h1 i (Nat.zero_le i)).2 ⟨C, D, P, h5, h6, h7⟩
      cases calls with
      | nil => simp at hc
      | cons c cs => rfl

example : ProperPolygon [⟨0, 0⟩, ⟨1, 0⟩, (⟨1, 1⟩ : P2 ℚ)] := by
  rintro (_ | _ | _ | i) A B ⟨h1, h2⟩ <;> simp at h1 h2
  · subst h1; subst h2; decide +kernel
  · subst h1; subst h2; decide +kernel
  · subst h1; subst h2; decide +kernel

example : segPolygonBorder Cmp.direct (⟨-1, 1 / 2⟩ : P2 ℚ) ⟨3, 1 / 2⟩ [⟨0, 0⟩, ⟨1, 0⟩, ⟨1, 1⟩]
      (fun (n : List (Nat × Nat)) c => (false, n ++ [(c.i, c.j)])) [] = .ok (true, [(1, 2), (2, 0)]) ∧
    segPolygonBorder Cmp.direct (⟨-1, 2⟩ : P2 ℚ) ⟨3, 2⟩ [⟨0, 0⟩, ⟨1, 0⟩, ⟨1, 1⟩]
      (fun (n : List (Nat × Nat)) c => (false, n ++ [(c.i, c.j)])) [] = .ok (false, []) := by decide +kernel

/-- A polygon of one vertex is read out of range. -/
theorem C92_single_refuted (cmp : Cmp K) (A B v : P2 K) (visit : σ → EdgeCall K → Bool × σ) (s : σ) :
    segPolygonBorder cmp A B [v] visit s = .error .outOfRange := by
  simp [segPolygonBorder, segPolygonLoop]

end Geometrix
