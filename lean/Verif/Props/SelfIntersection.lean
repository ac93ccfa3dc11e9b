import Verif.Lemmas.SelfIntersection

/-!
# C74: self intersections of a polyline
-/

set_option linter.unusedSectionVars false

namespace Geometrix

open Spec

variable {K : Type*} [Field K] [LinearOrder K] [IsStrictOrderedRing K] {σ : Type*}

/-- C74: the visitor is called, in order and with the correct answers, for exactly the pairs of edges that have a point
in common other than the vertex between them, and the result says whether there are any. Missing: polylines that go
straight on at a vertex. -/
theorem C74_visits_partial (poly : List (P2 K)) (visit : σ → EdgeCall K → σ) (s : σ) (hp : ProperEdges poly)
    (hn : NoStraightVertex poly) : ∃ calls : List (EdgeCall K),
      (∀ i j, (∃ c ∈ calls, c.i = i ∧ c.j = j) ↔ SelfMeet poly i j) ∧
      calls.Pairwise (fun a b => a.i < b.i ∨ (a.i = b.i ∧ a.j < b.j)) ∧
      (∀ c ∈ calls, ∃ A B C D, IsEdge poly c.i A B ∧ IsEdge poly c.j C D ∧ CorrectAnswer A B C D c.type c.pts) ∧
      selfIntersection Cmp.direct poly visit s = .ok (!calls.isEmpty, calls.foldl visit s) := by
  by_cases hl : poly.length < 3
  · refine ⟨[], fun i j => ?_, List.Pairwise.nil, by simp, by simp [selfIntersection, hl]⟩
    constructor
    · rintro ⟨c, hc, -⟩; simp at hc
    · rintro ⟨A, B, C, D, X, hij, e1, e2, -⟩
      have := isEdge_lt e2
      omega
  · obtain ⟨calls, c1, c2, c3, c4⟩ := selfLoop_spec hp visit (selfPairs poly.length)
      (fun ij h => mem_selfPairs.1 h) (selfPairs_sorted _)
    refine ⟨calls, fun i j => ?_, c2, c3, by rw [selfIntersection, if_neg hl, c4, Bool.false_or]⟩
    rw [c1, mem_selfPairs]
    constructor
    · rintro ⟨⟨h1, -⟩, h2⟩; exact (selfHit_iff hp hn i j h1).1 h2
    · intro h
      obtain ⟨A, B, C, D, X, hij, e1, e2, -⟩ := id h
      exact ⟨⟨hij, isEdge_lt e2⟩, (selfHit_iff hp hn i j hij).2 h⟩

/-- C74: the result is false exactly for a simple polyline. Missing: polylines that go straight on at a vertex. -/
theorem C74_simple_partial (poly : List (P2 K)) (visit : σ → EdgeCall K → σ) (s : σ) (hp : ProperEdges poly)
    (hn : NoStraightVertex poly) : ∃ r s', selfIntersection Cmp.direct poly visit s = .ok (r, s') ∧
      (r = false ↔ SimplePolyline poly) := by
  obtain ⟨calls, c1, -, -, c4⟩ := C74_visits_partial poly visit s hp hn
  refine ⟨_, _, c4, ?_⟩
  constructor
  · intro h i j A B C D X hij e1 e2 hX
    by_contra hc
    obtain ⟨c, hcm, -⟩ := (c1 i j).2 ⟨A, B, C, D, X, hij, e1, e2, hX, hc⟩
    cases calls with
    | nil => simp at hcm
    | cons c cs => simp at h
  · intro h
    cases calls with
    | nil => rfl
    | cons c cs =>
      obtain ⟨A, B, C, D, X, hij, e1, e2, hX, hc⟩ := (c1 c.i c.j).1 ⟨c, List.mem_cons_self, rfl, rfl⟩
      exact absurd (h _ _ A B C D X hij e1 e2 hX) hc

/-- A polyline that crosses itself. -/
example : ProperEdges [⟨0, 0⟩, ⟨2, 0⟩, ⟨2, 1⟩, (⟨1, -1⟩ : P2 ℚ)] ∧
    NoStraightVertex [⟨0, 0⟩, ⟨2, 0⟩, ⟨2, 1⟩, (⟨1, -1⟩ : P2 ℚ)] := by
  constructor
  · rintro (_ | _ | _ | _ | i) A B ⟨h1, h2⟩ <;> simp at h1 h2
    all_goals subst h1; subst h2; decide +kernel
  · rintro (_ | _ | _ | i) A B C ⟨h1, h2⟩ ⟨h3, h4⟩ ⟨t, -, -, ht⟩ <;> simp at h1 h2 h3 h4
    all_goals subst h1; subst h2; subst h4
    · have hx := congrArg P2.x ht; have hy := congrArg P2.y ht; norm_num at hx hy; linarith
    · have hx := congrArg P2.x ht; have hy := congrArg P2.y ht; norm_num at hx hy; linarith

example : selfIntersection Cmp.direct [⟨0, 0⟩, ⟨2, 0⟩, ⟨2, 1⟩, (⟨1, -1⟩ : P2 ℚ)] (fun (l : List (Nat × Nat)) c =>
    l ++ [(c.i, c.j)]) [] = .ok (true, [(0, 2)]) := by decide +kernel

/-- C74, any polyline without edges of length zero: consecutive edges are reported if their points lie on a line, … -/
theorem C74_exact (poly : List (P2 K)) (visit : σ → EdgeCall K → σ) (s : σ) (hp : ProperEdges poly)
    (hl : 3 ≤ poly.length) : ∃ calls : List (EdgeCall K),
      (∀ i j, (∃ c ∈ calls, c.i = i ∧ c.j = j) ↔ i < j ∧ ∃ A B C D, IsEdge poly i A B ∧ IsEdge poly j C D ∧
        (∃ X, Common A B C D X) ∧ (j ≠ i + 1 ∨ (OnLine A B C ∧ OnLine A B D))) ∧
      selfIntersection Cmp.direct poly visit s = .ok (!calls.isEmpty, calls.foldl visit s) := by
  obtain ⟨calls, c1, c2, c3, c4⟩ := selfLoop_spec hp visit (selfPairs poly.length)
    (fun ij h => mem_selfPairs.1 h) (selfPairs_sorted _)
  refine ⟨calls, fun i j => ?_, by rw [selfIntersection, if_neg (by omega), c4, Bool.false_or]⟩
  rw [c1, mem_selfPairs]
  constructor
  · rintro ⟨⟨h1, -⟩, h2⟩; exact ⟨h1, h2⟩
  · rintro ⟨h1, h2⟩
    obtain ⟨A, B, C, D, e1, e2, -⟩ := id h2
    exact ⟨⟨h1, isEdge_lt e2⟩, h2⟩

/-- … also where the polyline just goes straight on: a simple polyline for which an intersection is reported. -/
theorem C74_straight_refuted : ∃ poly : List (P2 ℚ), ProperEdges poly ∧ SimplePolyline poly ∧
    selfIntersection Cmp.direct poly (fun (n : Nat) _ => n + 1) 0 = .ok (true, 1) := by
  refine ⟨[⟨0, 0⟩, ⟨1, 0⟩, ⟨2, 0⟩], ?_, ?_, by decide +kernel⟩
  · rintro (_ | _ | _ | i) A B ⟨h1, h2⟩ <;> simp at h1 h2
    all_goals subst h1; subst h2; decide +kernel
  · rintro (_ | _ | i) (_ | _ | j) A B C D X hij ⟨h1, h2⟩ ⟨h3, h4⟩ ⟨⟨s, s0, s1, hs⟩, ⟨t, t0, t1, ht⟩⟩ <;>
      simp at h1 h2 h3 h4 hij
    subst h1; subst h2; subst h3; subst h4
    refine ⟨rfl, ?_⟩
    have e := hs.symm.trans ht
    have hx := congrArg P2.x e
    simp at hx
    have : s = 1 := by linarith
    rw [hs, this]; ext <;> simp

end Geometrix
