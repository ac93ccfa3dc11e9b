import Verif.Model.PolylineIntersection
import Verif.Spec.PolylineIntersection
import Verif.Props.SegmentIntersection

/-!
# Lemmas on intersections of polylines
-/

set_option linter.unusedSectionVars false

namespace Geometrix

open Spec

variable {K : Type*} [Field K] [LinearOrder K] [IsStrictOrderedRing K] {σ : Type*}

theorem properEdges_tail {p : P2 K} {l : List (P2 K)} (h : ProperEdges (p :: l)) : ProperEdges l :=
  fun i A B he => h (i + 1) A B ⟨by simpa using he.1, by simpa using he.2⟩

theorem isEdge_zero {p q : P2 K} {l : List (P2 K)} : IsEdge (p :: q :: l) 0 p q := ⟨rfl, rfl⟩

theorem isEdge_succ {p A B : P2 K} {l : List (P2 K)} {i : Nat} : IsEdge (p :: l) (i + 1) A B ↔ IsEdge l i A B := by
  unfold IsEdge; simp

theorem meetsEdge_succ {A B p : P2 K} {l : List (P2 K)} {i : Nat} :
    MeetsEdge A B (p :: l) (i + 1) ↔ MeetsEdge A B l i := by
  unfold MeetsEdge; simp only [isEdge_succ]

theorem meetsEdge_zero {A B p q : P2 K} {l : List (P2 K)} :
    MeetsEdge A B (p :: q :: l) 0 ↔ ∃ P, Common A B p q P := by
  unfold MeetsEdge IsEdge
  constructor
  · rintro ⟨C, D, P, ⟨h1, h2⟩, h⟩
    simp only [List.getElem?_cons_zero, List.getElem?_cons_succ, Option.some.injEq, Nat.zero_add] at h1 h2
    subst h1; subst h2
    exact ⟨P, h⟩
  · rintro ⟨P, h⟩
    exact ⟨p, q, P, ⟨rfl, rfl⟩, h⟩

/-- The calls made for a segment. -/
theorem segPolylineLoop_spec (A B : P2 K) (hAB : A ≠ B) (visit : σ → EdgeCall K → Bool × σ) (i : Nat)
    (poly : List (P2 K)) (hp : ProperEdges poly) : ∃ calls : List (EdgeCall K),
      (∀ k, (∃ c ∈ calls, c.i = i + k) ↔ MeetsEdge A B poly k) ∧
      (∀ c ∈ calls, ∃ k C D, c.i = i + k ∧ c.j = i + k + 1 ∧ IsEdge poly k C D ∧
        CorrectAnswer A B C D c.type c.pts ∧ c.type ≠ .nonCrossing) ∧
      calls.Pairwise (fun c d => c.i < d.i) ∧
      ∀ b s, segPolylineLoop Cmp.direct A B visit i poly b s =
        .ok (b || !calls.isEmpty, callUntil visit s calls) := by
  induction poly generalizing i with
  | nil =>
    refine ⟨[], ?_, by simp, List.Pairwise.nil, ?_⟩
    · intro k; simp [MeetsEdge, IsEdge]
    · intro b s; simp [segPolylineLoop, callUntil]
  | cons p l ih =>
    cases l with
    | nil =>
      refine ⟨[], ?_, by simp, List.Pairwise.nil, ?_⟩
      · intro k; simp [MeetsEdge, IsEdge]
      · intro b s; simp [segPolylineLoop, callUntil]
    | cons q rest =>
      obtain ⟨calls, h1, h2, h3, h4⟩ := ih (i + 1) (properEdges_tail hp)
      obtain ⟨ty, pts, hseg, hcor⟩ := C09_segment_segment A B p q hAB (hp 0 p q isEdge_zero)
      have hlater : ∀ c ∈ calls, i < c.i := by
        intro c hc
        obtain ⟨k, C, D, hk, -⟩ := h2 c hc
        omega
      have hmeet : ty ≠ .nonCrossing ↔ ∃ P, Common A B p q P := by
        rw [ne_eq, hcor.nonCrossing, not_not]
      have hshift : ∀ k, (∃ c ∈ calls, c.i = i + (k + 1)) ↔ MeetsEdge A B (p :: q :: rest) (k + 1) := by
        intro k
        rw [meetsEdge_succ, ← h1 k]
        constructor
        · rintro ⟨c, hc, he⟩; exact ⟨c, hc, by omega⟩
        · rintro ⟨c, hc, he⟩; exact ⟨c, hc, by omega⟩
      have hold : ∀ c ∈ calls, ∃ k C D, c.i = i + k ∧ c.j = i + k + 1 ∧ IsEdge (p :: q :: rest) k C D ∧
          CorrectAnswer A B C D c.type c.pts ∧ c.type ≠ .nonCrossing := by
        intro c hc
        obtain ⟨k, C, D, e1, e2, e3, e4, e5⟩ := h2 c hc
        exact ⟨k + 1, C, D, by omega, by omega, isEdge_succ.2 e3, e4, e5⟩
      by_cases hty : ty = .nonCrossing
      · refine ⟨calls, ?_, hold, h3, ?_⟩
        · intro k
          cases k with
          | zero =>
            rw [meetsEdge_zero, ← hmeet]
            constructor
            · rintro ⟨c, hc, he⟩
              have := hlater c hc
              omega
            · intro h; exact absurd hty h
          | succ k => exact hshift k
        · intro b s
          simp only [segPolylineLoop, hseg]
          rw [if_neg (not_not.2 hty)]
          exact h4 b s
      · refine ⟨⟨ty, i, i + 1, pts⟩ :: calls, ?_, ?_, ?_, ?_⟩
        · intro k
          cases k with
          | zero =>
            rw [meetsEdge_zero, ← hmeet]
            exact ⟨fun _ => hty, fun _ => ⟨_, List.mem_cons_self, rfl⟩⟩
          | succ k =>
            rw [← hshift k]
            constructor
            · rintro ⟨c, hc, he⟩
              rcases List.mem_cons.1 hc with rfl | hc
              · exact absurd he (by simp)
              · exact ⟨c, hc, he⟩
            · rintro ⟨c, hc, he⟩; exact ⟨c, List.mem_cons_of_mem _ hc, he⟩
        · intro c hc
          rcases List.mem_cons.1 hc with rfl | hc
          · exact ⟨0, p, q, rfl, rfl, isEdge_zero, hcor, hty⟩
          · exact hold c hc
        · rw [List.pairwise_cons]
          exact ⟨fun c hc => hlater c hc, h3⟩
        · intro b s
          simp only [segPolylineLoop, hseg]
          rw [if_pos hty]
          simp only [callUntil, List.isEmpty_cons, Bool.not_false, Bool.or_true]
          cases hv : visit s ⟨ty, i, i + 1, pts⟩ with
          | mk stop s' =>
            cases stop with
            | true => simp
            | false => simp only [h4 true s', Bool.true_or]; simp

/-- The inner visitor passes its calls on and sets the flag. -/
theorem callUntil_inner (visit : σ → PairCall K → Bool × σ) (i1 j1 : Nat) (calls : List (EdgeCall K))
    (hc : ∀ c ∈ calls, c.type ≠ .nonCrossing) (b : Bool) (s : σ) :
    callUntil (innerVisitor visit i1 j1) (b, s) calls =
      (b || !calls.isEmpty, callUntil visit s (calls.map fun c => ⟨c.type, i1, j1, c.i, c.j, c.pts⟩)) := by
  induction calls generalizing b s with
  | nil => simp [callUntil]
  | cons c cs ih =>
    have h0 := hc c List.mem_cons_self
    have ih' := ih (fun d hd => hc d (List.mem_cons_of_mem _ hd))
    simp only [callUntil, List.map_cons, innerVisitor, h0, if_false, List.isEmpty_cons, Bool.not_false,
      Bool.or_true]
    cases hv : visit s ⟨c.type, i1, j1, c.i, c.j, c.pts⟩ with
    | mk stop s' =>
      cases stop with
      | true => simp
      | false => simp [ih']

theorem edgesMeet_succ {p : P2 K} {a b : List (P2 K)} {i j : Nat} :
    EdgesMeet (p :: a) b (i + 1) j ↔ EdgesMeet a b i j := by
  unfold EdgesMeet; simp only [isEdge_succ]

theorem edgesMeet_zero {p q : P2 K} {a b : List (P2 K)} {j : Nat} :
    EdgesMeet (p :: q :: a) b 0 j ↔ MeetsEdge p q b j := by
  unfold EdgesMeet IsEdge
  constructor
  · rintro ⟨A, B, ⟨h1, h2⟩, h⟩
    simp only [List.getElem?_cons_zero, List.getElem?_cons_succ, Option.some.injEq, Nat.zero_add] at h1 h2
    subst h1; subst h2
    exact h
  · intro h
    exact ⟨p, q, ⟨rfl, rfl⟩, h⟩

/-- The calls made for two polylines: those for the first edge of the first polyline that meets the
second. -/
theorem polyPolyLoop_spec (b : List (P2 K)) (hb : ProperEdges b) (visit : σ → PairCall K → Bool × σ) (i1 : Nat)
    (a : List (P2 K)) (ha : ProperEdges a) : ∃ calls : List (PairCall K),
      (∀ i j, (∃ c ∈ calls, c.i1 = i1 + i ∧ c.i = j) ↔
        (EdgesMeet a b i j ∧ ∀ i' < i, ∀ j', ¬ EdgesMeet a b i' j')) ∧
      (∀ c ∈ calls, ∃ k A B C D, c.i1 = i1 + k ∧ c.j1 = i1 + k + 1 ∧ c.j = c.i + 1 ∧ IsEdge a k A B ∧
        IsEdge b c.i C D ∧ CorrectAnswer A B C D c.type c.pts) ∧
      calls.Pairwise (fun c d => c.i < d.i) ∧
      ∀ f s, polyPolyLoop Cmp.direct b visit i1 a f s = .ok (f || !calls.isEmpty, callUntil visit s calls) := by
  induction a generalizing i1 with
  | nil =>
    refine ⟨[], ?_, by simp, List.Pairwise.nil, ?_⟩
    · intro i j; simp [EdgesMeet, IsEdge]
    · intro f s; simp [polyPolyLoop, callUntil]
  | cons p l ih =>
    cases l with
    | nil =>
      refine ⟨[], ?_, by simp, List.Pairwise.nil, ?_⟩
      · intro i j; simp [EdgesMeet, IsEdge]
      · intro f s; simp [polyPolyLoop, callUntil]
    | cons q rest =>
      obtain ⟨calls, h1, h2, h3, h4⟩ := ih (i1 + 1) (properEdges_tail ha)
      obtain ⟨ec, g1, g2, g3, g4⟩ := segPolylineLoop_spec p q (ha 0 p q isEdge_zero)
        (innerVisitor visit i1 (i1 + 1)) 0 b hb
      simp only [Nat.zero_add] at g1 g2
      have hne : ∀ c ∈ ec, c.type ≠ .nonCrossing := by
        intro c hc
        obtain ⟨k, C, D, -, -, -, -, h⟩ := g2 c hc
        exact h
      have hloop : ∀ f s, polyPolyLoop Cmp.direct b visit i1 (p :: q :: rest) f s =
          if ec.isEmpty then polyPolyLoop Cmp.direct b visit (i1 + 1) (q :: rest) f s
          else .ok (true, callUntil visit s (ec.map fun c => ⟨c.type, i1, i1 + 1, c.i, c.j, c.pts⟩)) := by
        intro f s
        simp only [polyPolyLoop, segPolylineIntersect, g4, callUntil_inner visit i1 (i1 + 1) ec hne]
        cases hec : ec with
        | nil => simp [callUntil]
        | cons c cs => simp
      cases hec : ec with
      | nil =>
        have hno : ∀ j, ¬ MeetsEdge p q b j := by
          intro j hj
          obtain ⟨c, hc, -⟩ := (g1 j).2 hj
          rw [hec] at hc; simp at hc
        refine ⟨calls, ?_, ?_, h3, ?_⟩
        · intro i j
          cases i with
          | zero =>
            rw [edgesMeet_zero]
            constructor
            · rintro ⟨c, hc, he, -⟩
              obtain ⟨k, A, B, C, D, hk, -⟩ := h2 c hc
              omega
            · rintro ⟨h, -⟩; exact absurd h (hno j)
          | succ i =>
            rw [edgesMeet_succ]
            have : (∃ c ∈ calls, c.i1 = i1 + (i + 1) ∧ c.i = j) ↔ (∃ c ∈ calls, c.i1 = i1 + 1 + i ∧ c.i = j) := by
              constructor
              · rintro ⟨c, hc, he, hj⟩; exact ⟨c, hc, by omega, hj⟩
              · rintro ⟨c, hc, he, hj⟩; exact ⟨c, hc, by omega, hj⟩
            rw [this, h1 i j]
            refine and_congr_right fun _ => ?_
            constructor
            · intro h i' hi' j'
              cases i' with
              | zero => rw [edgesMeet_zero]; exact hno j'
              | succ i' => rw [edgesMeet_succ]; exact h i' (by omega) j'
            · intro h i' hi' j'
              have := h (i' + 1) (by omega) j'
              rwa [edgesMeet_succ] at this
        · intro c hc
          obtain ⟨k, A, B, C, D, e1, e2, e3, e4, e5, e6⟩ := h2 c hc
          exact ⟨k + 1, A, B, C, D, by omega, by omega, e3, isEdge_succ.2 e4, e5, e6⟩
        · intro f s
          rw [hloop, hec]
          simp only [List.isEmpty_nil, if_true]
          exact h4 f s
      | cons c0 cs =>
        refine ⟨ec.map fun c => ⟨c.type, i1, i1 + 1, c.i, c.j, c.pts⟩, ?_, ?_, ?_, ?_⟩
        · intro i j
          cases i with
          | zero =>
            rw [edgesMeet_zero, ← g1 j]
            constructor
            · rintro ⟨c, hc, -, hj⟩
              obtain ⟨d, hd, rfl⟩ := List.mem_map.1 hc
              exact ⟨⟨d, hd, hj⟩, by intro i' hi'; omega⟩
            · rintro ⟨⟨d, hd, hj⟩, -⟩
              exact ⟨_, List.mem_map.2 ⟨d, hd, rfl⟩, rfl, hj⟩
          | succ i =>
            constructor
            · rintro ⟨c, hc, he, -⟩
              obtain ⟨d, hd, rfl⟩ := List.mem_map.1 hc
              simp at he
            · rintro ⟨-, h⟩
              exfalso
              obtain ⟨k, C, D, hk, hj, -⟩ := g2 c0 (by rw [hec]; exact List.mem_cons_self)
              refine h 0 (by omega) k ?_
              rw [edgesMeet_zero, ← g1 k]
              exact ⟨c0, by rw [hec]; exact List.mem_cons_self, hk⟩
        · intro c hc
          obtain ⟨d, hd, rfl⟩ := List.mem_map.1 hc
          obtain ⟨k, C, D, e1, e2, e3, e4, -⟩ := g2 d hd
          refine ⟨0, p, q, C, D, rfl, rfl, ?_, isEdge_zero, ?_, e4⟩
          · show d.j = d.i + 1; omega
          · show IsEdge b d.i C D; rw [e1]; exact e3
        · rw [List.pairwise_map]; exact g3
        · intro f s
          rw [hloop, hec]
          simp

end Geometrix
