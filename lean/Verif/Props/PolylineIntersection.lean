import Verif.Lemmas.PolylineIntersection

/-!
# C45: intersections of polylines
-/

set_option linter.unusedSectionVars false

namespace Geometrix

open Spec

variable {K : Type*} [Field K] [LinearOrder K] [IsStrictOrderedRing K] {σ : Type*}

/-- `segment_polyline_intersect` calls the visitor for every edge that meets the segment, in order, with the
correct answer for the two segments, until it asks to stop; the result says whether there is such an edge. -/
theorem C45_segment_polyline (A B : P2 K) (poly : List (P2 K)) (visit : σ → EdgeCall K → Bool × σ) (s : σ)
    (hAB : A ≠ B) (hp : ProperEdges poly) : ∃ calls : List (EdgeCall K),
      (∀ i, (∃ c ∈ calls, c.i = i) ↔ MeetsEdge A B poly i) ∧
      calls.Pairwise (fun c d => c.i < d.i) ∧
      (∀ c ∈ calls, c.j = c.i + 1 ∧ ∃ C D, IsEdge poly c.i C D ∧ CorrectAnswer A B C D c.type c.pts) ∧
      ∃ r, segPolylineIntersect Cmp.direct A B poly visit s = .ok (r, callUntil visit s calls) ∧
        (r = true ↔ ∃ i, MeetsEdge A B poly i) := by
  obtain ⟨calls, h1, h2, h3, h4⟩ := segPolylineLoop_spec A B hAB visit 0 poly hp
  simp only [Nat.zero_add] at h1 h2
  refine ⟨calls, h1, h3, ?_, !calls.isEmpty, ?_, ?_⟩
  · intro c hc
    obtain ⟨k, C, D, e1, e2, e3, e4, -⟩ := h2 c hc
    exact ⟨by omega, C, D, by rw [e1]; exact e3, e4⟩
  · unfold segPolylineIntersect; rw [h4]; simp
  · constructor
    · intro h
      cases calls with
      | nil => simp at h
      | cons c cs => exact ⟨c.i, (h1 c.i).1 ⟨c, List.mem_cons_self, rfl⟩⟩
    · rintro ⟨i, hi⟩
      obtain ⟨c, hc, -⟩ := (h1 i).2 hi
      cases calls with
      | nil => simp at hc
      | cons c cs => rfl

example : ProperEdges [⟨0, 0⟩, ⟨1, 0⟩, (⟨1, 1⟩ : P2 ℚ)] := by
  rintro (_ | _ | _ | i) A B ⟨h1, h2⟩ <;> simp at h1 h2
  · subst h1; subst h2; decide +kernel
  · subst h1; subst h2; decide +kernel

/-- `polyline_polyline_intersect`: the result says whether the polylines meet, and the visitor is called, in
order and with the correct answers, for the edges of the second polyline that meet the first edge of the
first polyline that meets the second. Missing: the calls for the later edges of the first polyline. -/
theorem C45_polyline_polyline_partial (a b : List (P2 K)) (visit : σ → PairCall K → Bool × σ) (s : σ)
    (ha : ProperEdges a) (hb : ProperEdges b) : ∃ calls : List (PairCall K),
      (∀ i j, (∃ c ∈ calls, c.i1 = i ∧ c.i = j) ↔
        (EdgesMeet a b i j ∧ ∀ i' < i, ∀ j', ¬ EdgesMeet a b i' j')) ∧
      calls.Pairwise (fun c d => c.i < d.i) ∧
      (∀ c ∈ calls, c.j1 = c.i1 + 1 ∧ c.j = c.i + 1 ∧ ∃ A B C D, IsEdge a c.i1 A B ∧ IsEdge b c.i C D ∧
        CorrectAnswer A B C D c.type c.pts) ∧
      ∃ r, polyPolyIntersect Cmp.direct a b visit s = .ok (r, callUntil visit s calls) ∧
        (r = true ↔ ∃ i j, EdgesMeet a b i j) := by
  obtain ⟨calls, h1, h2, h3, h4⟩ := polyPolyLoop_spec b hb visit 0 a ha
  simp only [Nat.zero_add] at h1 h2
  refine ⟨calls, h1, h3, ?_, !calls.isEmpty, ?_, ?_⟩
  · intro c hc
    obtain ⟨k, A, B, C, D, e1, e2, e3, e4, e5, e6⟩ := h2 c hc
    exact ⟨by omega, e3, A, B, C, D, by rw [e1]; exact e4, e5, e6⟩
  · unfold polyPolyIntersect; rw [h4]; simp
  · constructor
    · intro h
      cases calls with
      | nil => simp at h
      | cons c cs => exact ⟨c.i1, c.i, ((h1 c.i1 c.i).1 ⟨c, List.mem_cons_self, rfl, rfl⟩).1⟩
    · rintro ⟨i, j, hij⟩
      classical
      have hex : ∃ i, ∃ j, EdgesMeet a b i j := ⟨i, j, hij⟩
      obtain ⟨j0, hj0⟩ := Nat.find_spec hex
      obtain ⟨c, hc, -⟩ := (h1 (Nat.find hex) j0).2 ⟨hj0, fun i' hi' j' h => Nat.find_min hex hi' ⟨j', h⟩⟩
      cases calls with
      | nil => simp at hc
      | cons c cs => rfl

example : ProperEdges [⟨0, 0⟩, (⟨1, 0⟩ : P2 ℚ)] := by
  rintro (_ | _ | i) A B ⟨h1, h2⟩ <;> simp at h1 h2
  subst h1; subst h2; decide +kernel

/-- With a visitor that never asks to stop, the edges of the first polyline after the first one that meets
the second are not visited: here the polylines cross twice, and the visitor is called once. -/
theorem C45_polyline_polyline_refuted : ∃ a b : List (P2 ℚ), ProperEdges a ∧ ProperEdges b ∧
    EdgesMeet a b 0 0 ∧ EdgesMeet a b 1 0 ∧
    polyPolyIntersect Cmp.direct a b (fun (n : Nat) _ => (false, n + 1)) 0 = .ok (true, 1) := by
  refine ⟨[⟨0, -1⟩, ⟨1, 1⟩, ⟨2, -1⟩], [⟨-1, 0⟩, ⟨3, 0⟩], ?_, ?_, ?_, ?_, by decide +kernel⟩
  · rintro (_ | _ | _ | i) A B ⟨h1, h2⟩ <;> simp at h1 h2
    · subst h1; subst h2; decide +kernel
    · subst h1; subst h2; decide +kernel
  · rintro (_ | _ | i) A B ⟨h1, h2⟩ <;> simp at h1 h2
    subst h1; subst h2; decide +kernel
  · refine ⟨⟨0, -1⟩, ⟨1, 1⟩, ⟨rfl, rfl⟩, ⟨-1, 0⟩, ⟨3, 0⟩, ⟨1 / 2, 0⟩, ⟨rfl, rfl⟩, ?_, ?_⟩
    · exact ⟨1 / 2, by norm_num, by norm_num, by decide +kernel⟩
    · exact ⟨3 / 8, by norm_num, by norm_num, by decide +kernel⟩
  · refine ⟨⟨1, 1⟩, ⟨2, -1⟩, ⟨rfl, rfl⟩, ⟨-1, 0⟩, ⟨3, 0⟩, ⟨3 / 2, 0⟩, ⟨rfl, rfl⟩, ?_, ?_⟩
    · exact ⟨1 / 2, by norm_num, by norm_num, by decide +kernel⟩
    · exact ⟨5 / 8, by norm_num, by norm_num, by decide +kernel⟩

example : EdgesMeet [⟨0, 0⟩, (⟨2, 2⟩ : P2 ℚ)] [⟨0, 2⟩, ⟨2, 0⟩] 0 0 :=
  ⟨⟨0, 0⟩, ⟨2, 2⟩, ⟨rfl, rfl⟩, ⟨0, 2⟩, ⟨2, 0⟩, ⟨1, 1⟩, ⟨rfl, rfl⟩,
    ⟨1 / 2, by norm_num, by norm_num, by decide +kernel⟩, ⟨1 / 2, by norm_num, by norm_num, by decide +kernel⟩⟩

end Geometrix
