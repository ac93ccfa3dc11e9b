import Verif.Model.PolygonIntersection
import Verif.Spec.PolygonIntersection
import Verif.Spec.PolygonSimple
import Verif.Props.SegmentIntersection

/-!
# Segments and the border of a polygon
-/

set_option linter.unusedSectionVars false

namespace Geometrix

open Spec

variable {K : Type*} [Field K] [LinearOrder K] [IsStrictOrderedRing K] {σ : Type*}

theorem segPolygonLoop_spec (A B : P2 K) (hAB : A ≠ B) (poly : List (P2 K)) (hp : ProperPolygon poly)
    (visit : σ → EdgeCall K → Bool × σ) (k i : Nat) (hk : i + k = poly.length) : ∃ calls : List (EdgeCall K),
      (∀ l, i ≤ l → ((∃ c ∈ calls, c.i = l) ↔ MeetsSide A B poly l)) ∧
      (∀ c ∈ calls, i ≤ c.i ∧ c.j = (c.i + 1) % poly.length ∧ ∃ C D, IsPolygonEdge poly c.i C D ∧
        CorrectAnswer A B C D c.type c.pts ∧ c.type ≠ .nonCrossing) ∧
      calls.Pairwise (fun c d => c.i < d.i) ∧
      ∀ b s, segPolygonLoop Cmp.direct A B poly visit k i ((i + 1) % poly.length) b s =
        .ok (b || !calls.isEmpty, callUntil visit s calls) := by
  induction k generalizing i with
  | zero =>
    refine ⟨[], ?_, by simp, List.Pairwise.nil, ?_⟩
    · intro l hl
      simp only [List.not_mem_nil, false_and, exists_false, false_iff]
      rintro ⟨C, D, P, ⟨h1, -⟩, -⟩
      rw [List.getElem?_eq_none (by omega)] at h1
      simp at h1
    · intro b s; simp [segPolygonLoop, callUntil]
  | succ k ih =>
    have hi : i < poly.length := by omega
    have hj : (i + 1) % poly.length < poly.length := Nat.mod_lt _ (by omega)
    have hjj : ((i + 1) % poly.length + 1) % poly.length = (i + 1 + 1) % poly.length := by
      rw [Nat.mod_add_mod]
    have hedge : IsPolygonEdge poly i poly[i] poly[(i + 1) % poly.length] :=
      ⟨List.getElem?_eq_getElem hi, List.getElem?_eq_getElem hj⟩
    obtain ⟨calls, h1, h2, h3, h4⟩ := ih (i + 1) (by omega)
    obtain ⟨ty, pts, hseg, hcor⟩ := C09_segment_segment A B _ _ hAB (hp i _ _ hedge)
    have hmeet : ty ≠ .nonCrossing ↔ MeetsSide A B poly i := by
      rw [ne_eq, hcor.nonCrossing, not_not]
      constructor
      · rintro ⟨P, hP⟩
        exact ⟨_, _, P, hedge, hP⟩
      · rintro ⟨C, D, P, ⟨h5, h6⟩, hP⟩
        rw [List.getElem?_eq_getElem hi] at h5
        rw [List.getElem?_eq_getElem hj] at h6
        cases h5; cases h6
        exact ⟨P, hP⟩
    by_cases hty : ty = .nonCrossing
    · refine ⟨calls, ?_, ?_, h3, ?_⟩
      · intro l hl
        rcases Nat.eq_or_lt_of_le hl with rfl | hlt
        · rw [← hmeet]
          constructor
          · rintro ⟨c, hc, he⟩
            have := (h2 c hc).1
            omega
          · intro h; exact absurd hty h
        · exact h1 l hlt
      · intro c hc
        obtain ⟨e1, e2⟩ := h2 c hc
        exact ⟨by omega, e2⟩
      · intro b s
        rw [segPolygonLoop, hedge.1, hedge.2]
        simp only [hseg]
        rw [if_neg (not_not.2 hty), hjj]
        exact h4 b s
    · refine ⟨⟨ty, i, (i + 1) % poly.length, pts⟩ :: calls, ?_, ?_, ?_, ?_⟩
      · intro l hl
        rcases Nat.eq_or_lt_of_le hl with rfl | hlt
        · rw [← hmeet]
          exact ⟨fun _ => hty, fun _ => ⟨_, List.mem_cons_self, rfl⟩⟩
        · rw [← h1 l hlt]
          constructor
          · rintro ⟨c, hc, he⟩
            rcases List.mem_cons.1 hc with rfl | hc
            · exact absurd he (by simp; omega)
            · exact ⟨c, hc, he⟩
          · rintro ⟨c, hc, he⟩; exact ⟨c, List.mem_cons_of_mem _ hc, he⟩
      · intro c hc
        rcases List.mem_cons.1 hc with rfl | hc
        · exact ⟨le_rfl, rfl, _, _, hedge, hcor, hty⟩
        · obtain ⟨e1, e2⟩ := h2 c hc
          exact ⟨by omega, e2⟩
      · rw [List.pairwise_cons]
        exact ⟨fun c hc => (h2 c hc).1, h3⟩
      · intro b s
        rw [segPolygonLoop, hedge.1, hedge.2]
        simp only [hseg]
        rw [if_pos hty, hjj]
        simp only [callUntil, List.isEmpty_cons, Bool.not_false, Bool.or_true]
        cases hv : visit s ⟨ty, i, (i + 1) % poly.length, pts⟩ with
        | mk stop s' =>
          cases stop with
          | true => simp
          | false => simp only [h4 true s', Bool.true_or]; simp

end Geometrix
