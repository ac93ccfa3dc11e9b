import Verif.Lemmas.Congruent

/-!
# C26: congruence
-/

set_option linter.unusedSectionVars false

namespace Geometrix

open Spec

/-- Two polylines, the first without repeated consecutive points, are reported congruent exactly when
a rigid motion takes one to the other. -/
theorem C26_polylines (P Q : List (P2 ℝ)) (h : P.IsChain (· ≠ ·)) :
    polylinesCongruent Cmp.direct P Q = true ↔ Congruent P Q := by
  unfold polylinesCongruent
  by_cases hl : P.length = Q.length
  · simp only [hl, ne_eq, not_true_eq_false, if_false]
    exact congruentLoop_iff P Q hl (h.prefix (List.dropLast_prefix P))
  · simp only [hl, ne_eq, not_false_eq_true, if_true, Bool.false_eq_true, false_iff]
    rintro ⟨c, s, t, -, rfl⟩
    simp at hl

/-- Congruent polylines, with repeated points or not, are always reported congruent. -/
theorem C26_polylines_complete (P Q : List (P2 ℝ)) (h : Congruent P Q) :
    polylinesCongruent Cmp.direct P Q = true := by
  obtain ⟨c, s, t, hcs, rfl⟩ := h
  simp only [polylinesCongruent, List.length_map, ne_eq, not_true_eq_false, if_false]
  exact congruentLoop_move t hcs P none

/-- Two polygons of two or more vertices, the first without repeated consecutive points, are reported
congruent exactly when a rigid motion takes one to the other (from the same start vertex, as the
routine says). -/
theorem C26_polygons (P Q : List (P2 ℝ)) (h2 : P.length ≠ 1) (h : P.IsChain (· ≠ ·)) :
    polygonsCongruent Cmp.direct P Q = .ok true ↔ Congruent P Q := by
  unfold polygonsCongruent
  by_cases hl : P.length = Q.length
  · simp only [hl, ne_eq, not_true_eq_false, if_false]
    match P, Q, hl, h2 with
    | [], [], _, _ => simp only [true_iff]; exact ⟨1, 0, 0, by norm_num, rfl⟩
    | [a], _, _, h2 => simp at h2
    | a :: b :: r, a' :: r', hl, _ =>
      simp only [Except.ok.injEq]
      rw [congruentLoop_iff _ _ (by simpa using hl) (by
        rw [List.dropLast_append_of_ne_nil (by simp)]; simpa using h)]
      constructor
      · rintro ⟨c, s, t, hcs, e⟩
        refine ⟨c, s, t, hcs, ?_⟩
        rw [List.map_append] at e
        exact (List.append_inj_left e (by simpa using hl.symm))
      · rintro ⟨c, s, t, hcs, e⟩
        refine ⟨c, s, t, hcs, ?_⟩
        rw [List.map_append, ← e]
        simp only [List.map_cons, List.map_nil, List.cons.injEq] at e ⊢
        rw [e.1]
  · simp only [hl, ne_eq, not_false_eq_true, if_true, Except.ok.injEq, Bool.false_eq_true, false_iff]
    rintro ⟨c, s, t, -, rfl⟩
    simp at hl

/-- The routine must not be called for polygons of one vertex. -/
theorem C26_polygons_single (A B : P2 ℝ) :
    polygonsCongruent Cmp.direct [A] [B] = .error .outOfRange := by
  simp [polygonsCongruent]

/-- With a repeated point the test forgets the direction, and reports congruent two polylines of which
one is straight and the other is not. So the restriction in the property is needed. -/
theorem C26_repeated_points :
    polylinesCongruent Cmp.direct [⟨0, 0⟩, ⟨1, 0⟩, ⟨1, 0⟩, ⟨2, 0⟩] [⟨0, 0⟩, ⟨1, 0⟩, ⟨1, 0⟩, ⟨1, 1⟩] =
      true ∧
    ¬ Congruent ([⟨0, 0⟩, ⟨1, 0⟩, ⟨1, 0⟩, ⟨2, 0⟩] : List (P2 ℝ))
      [⟨0, 0⟩, ⟨1, 0⟩, ⟨1, 0⟩, ⟨1, 1⟩] := by
  constructor
  · have d : pointDist ⟨1, 0⟩ ⟨2, 0⟩ = pointDist ⟨1, 0⟩ ⟨1, 1⟩ := by
      rw [pointDist_eq_iff]; norm_num [distSq, normSq, dot]
    simp [polylinesCongruent, congruentLoop, sameCorner, d, dot, cross]
  · rintro ⟨c, s, t, -, e⟩
    simp only [List.map_cons, List.map_nil, move, List.cons.injEq, P2.mk.injEq] at e
    obtain ⟨⟨a1, a2⟩, ⟨b1, b2⟩, -, ⟨d1, d2⟩, -⟩ := e
    linarith

/-- A right angle turned by a right angle and moved. -/
example : Congruent ([⟨0, 0⟩, ⟨1, 0⟩, ⟨1, 2⟩] : List (P2 ℝ)) [⟨5, 5⟩, ⟨5, 6⟩, ⟨3, 6⟩] ∧
    List.IsChain (· ≠ ·) ([⟨0, 0⟩, ⟨1, 0⟩, ⟨1, 2⟩] : List (P2 ℝ)) := by
  constructor
  · refine ⟨0, 1, ⟨5, 5⟩, by norm_num, ?_⟩
    norm_num [move]
  · simp [P2.ext_iff]

end Geometrix
