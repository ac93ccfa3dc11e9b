import Verif.Lemmas.PolygonSimple

/-!
# C47: the test for simple polygons
-/

set_option linter.unusedSectionVars false

namespace Geometrix

open Spec

variable {K : Type*} [Field K] [LinearOrder K] [IsStrictOrderedRing K]

/-- For a polygon with at least four vertices and no edge of length zero, `is_polygon_simple` answers true
exactly for a simple polygon, although it never looks at consecutive edges: if these overlap, two other edges
touch. Missing: triangles, see below. -/
theorem C47_simple_partial (P : List (P2 K)) (hP : ProperPolygon P) (hn : 4 ≤ P.length) :
    ∃ b, isPolygonSimple Cmp.direct P = .ok b ∧ (b = true ↔ SimplePolygon P) := by
  classical
  refine ⟨_, isPolygonSimple_spec hP (by omega), ?_⟩
  rw [decide_eq_true_iff]
  exact simple_iff_apart (by omega)

example : isPolygonSimple Cmp.direct [⟨0, 0⟩, ⟨2, 0⟩, ⟨2, 2⟩, (⟨0, 2⟩ : P2 ℚ)] = .ok true := by decide +kernel

/-- A polygon whose edges cross. -/
example : isPolygonSimple Cmp.direct [⟨0, 0⟩, ⟨2, 2⟩, ⟨2, 0⟩, (⟨0, 2⟩ : P2 ℚ)] = .ok false := by decide +kernel

/-- The memoized and the plain version agree. -/
theorem C47_memoized_agrees (P : List (P2 K)) (hP : ProperPolygon P) (hn : 3 ≤ P.length) :
    isPolygonSimpleMemoized Cmp.direct P = isPolygonSimple Cmp.direct P := by
  classical
  rw [isPolygonSimple_spec hP (by omega), isPolygonSimpleMemoized_spec hP (by omega)]

example : isPolygonSimpleMemoized Cmp.direct [⟨0, 0⟩, ⟨2, 2⟩, ⟨2, 0⟩, (⟨0, 2⟩ : P2 ℚ)] = .ok false := by
  decide +kernel

/-- For fewer than three points the assertion of the plain version fails. -/
theorem C47_short (cmp : Cmp K) (P : List (P2 K)) (hn : P.length < 3) :
    isPolygonSimple cmp P = .error .assertFailed := by
  unfold isPolygonSimple
  simp only
  rw [if_pos (by omega)]

example : [(⟨0, 0⟩ : P2 ℚ)].length < 3 := by decide

/-- Every triangle is called simple, … -/
theorem C47_triangle_partial (P : List (P2 K)) (hP : ProperPolygon P) (hn : P.length = 3) :
    isPolygonSimple Cmp.direct P = .ok true := by
  classical
  rw [isPolygonSimple_spec hP (by omega)]
  congr 1
  rw [decide_eq_true_iff]
  rintro i j ⟨hi, hj, hne, a1, a2⟩
  rcases next_cases hi with ⟨h1, e1⟩ | ⟨h1, e1⟩ <;> rcases next_cases hj with ⟨h2, e2⟩ | ⟨h2, e2⟩ <;> omega

example : ProperPolygon [⟨0, 0⟩, ⟨2, 0⟩, (⟨1, 1⟩ : P2 ℚ)] := by
  rintro (_ | _ | _ | i) A B ⟨h1, h2⟩ <;> simp at h1 h2
  · subst h1; subst h2; decide +kernel
  · subst h1; subst h2; decide +kernel
  · subst h1; subst h2; decide +kernel

/-- … also one whose vertices lie on a line, so that its edges overlap. -/
theorem C47_triangle_refuted : ∃ P : List (P2 ℚ), ProperPolygon P ∧ isPolygonSimple Cmp.direct P = .ok true ∧
    isPolygonSimpleMemoized Cmp.direct P = .ok true ∧ ¬ SimplePolygon P := by
  refine ⟨[⟨0, 0⟩, ⟨2, 0⟩, ⟨1, 0⟩], ?_, by decide +kernel, by decide +kernel, ?_⟩
  · rintro (_ | _ | _ | i) A B ⟨h1, h2⟩ <;> simp at h1 h2
    · subst h1; subst h2; decide +kernel
    · subst h1; subst h2; decide +kernel
    · subst h1; subst h2; decide +kernel
  · intro h
    rcases h 0 1 ⟨0, 0⟩ ⟨2, 0⟩ ⟨2, 0⟩ ⟨1, 0⟩ ⟨1, 0⟩ (by decide) ⟨rfl, rfl⟩ ⟨rfl, rfl⟩
        ⟨⟨1 / 2, by norm_num, by norm_num, by decide +kernel⟩, ⟨1, by norm_num, by norm_num, by decide +kernel⟩⟩ with
      ⟨-, h⟩ | ⟨h, -⟩
    · have := congrArg P2.x h; norm_num at this
    · exact absurd h (by decide)

example : ¬ (⟨1, 0⟩ : P2 ℚ) = ⟨2, 0⟩ := by decide +kernel

/-- A non-degenerate triangle is simple, so the answer is right for it. -/
theorem C47_triangle (A B C : P2 K) (h : area2 A B C ≠ 0) :
    isPolygonSimple Cmp.direct [A, B, C] = .ok true ∧ SimplePolygon [A, B, C] := by
  have hP : ProperPolygon [A, B, C] := by
    rintro (_ | _ | _ | i) X Y ⟨h1, h2⟩ <;> simp at h1 h2
    all_goals subst h1; subst h2; rintro rfl; apply h; unfold area2; ring
  refine ⟨C47_triangle_partial _ hP rfl, ?_⟩
  -- consecutive edges of a triangle share only their vertex
  have key : ∀ U V W X : P2 K, area2 U V W ≠ 0 → OnSegment U V X → OnSegment V W X → X = V := by
    intro U V W X ha h1 h2
    by_contra hne
    apply ha
    rcases overlap_at_end hne h1 h2 with ⟨t, -, -, rfl⟩ | ⟨t, -, -, rfl⟩ <;>
    · simp only [area2, P2.add_x, P2.add_y, P2.sub_x, P2.sub_y, P2.smul_x, P2.smul_y]; ring
  have h' : area2 B C A ≠ 0 := by intro h0; apply h; rw [← h0]; unfold area2; ring
  have h'' : area2 C A B ≠ 0 := by intro h0; apply h; rw [← h0]; unfold area2; ring
  rintro (_ | _ | _ | i) (_ | _ | _ | j) X Y Z W T hij ⟨e1, e2⟩ ⟨e3, e4⟩ ⟨hT1, hT2⟩ <;> simp at e1 e2 e3 e4 hij
  all_goals subst e1; subst e2; subst e3; subst e4
  · left; exact ⟨rfl, key _ _ _ _ h hT1 hT2⟩
  · right; exact ⟨by simp, key _ _ _ _ h'' hT2 hT1⟩
  · right; exact ⟨rfl, key _ _ _ _ h hT2 hT1⟩
  · left; exact ⟨rfl, key _ _ _ _ h' hT1 hT2⟩
  · left; exact ⟨by simp, key _ _ _ _ h'' hT1 hT2⟩
  · right; exact ⟨rfl, key _ _ _ _ h' hT2 hT1⟩

example : area2 (⟨0, 0⟩ : P2 ℚ) ⟨1, 0⟩ ⟨0, 1⟩ ≠ 0 := by decide +kernel

/-- `is_polygon_with_holes_simple`: for rings with at least four vertices, the answer is true exactly if all
rings are simple and no two rings have a boundary point in common. It does not ask whether the holes are
inside. -/
theorem C47_with_holes_partial (outer : List (P2 K)) (holes : List (List (P2 K)))
    (hP : ∀ P ∈ outer :: holes, ProperPolygon P ∧ 4 ≤ P.length) :
    ∃ b, isPolygonWithHolesSimple Cmp.direct outer holes = .ok b ∧
      (b = true ↔ (∀ P ∈ outer :: holes, SimplePolygon P) ∧
        (outer :: holes).Pairwise fun P Q => ¬ ∃ X, OnBoundary P X ∧ OnBoundary Q X) := by
  classical
  unfold isPolygonWithHolesSimple
  rw [anyRes_ok _ (fun P => decide (¬ SimplePolygon P)) (outer :: holes) (by
    intro P hPm
    obtain ⟨b, h1, h2⟩ := C47_simple_partial P (hP P hPm).1 (hP P hPm).2
    rw [h1]
    simp only [Except.ok.injEq]
    rw [Bool.eq_iff_iff, Bool.not_eq_true', decide_eq_true_iff, ← Bool.not_eq_true, h2])]
  by_cases hall : ∀ P ∈ outer :: holes, SimplePolygon P
  · have h0 : ((outer :: holes).any fun P => decide (¬ SimplePolygon P)) = false := by
      rw [← Bool.not_eq_true, List.any_eq_true]
      rintro ⟨P, hPm, hd⟩
      simp only [decide_eq_true_eq] at hd
      exact hd (hall P hPm)
    rw [h0]
    obtain ⟨qs, hq, hrel⟩ := toPolylines_ok (Ps := outer :: holes) fun P hPm => by have := (hP P hPm).2; omega
    simp only [hq]
    -- the polylines have proper edges
    have hproper : ∀ q ∈ qs, ProperEdges q := by
      intro q hqm
      obtain ⟨k, hk, rfl⟩ := List.mem_iff_getElem.1 hqm
      have hlen := hrel.length_eq
      have hr := (List.forall₂_iff_get.1 hrel).2 k (by omega) hk
      intro i A B he
      exact (hP _ (List.get_mem _ _)).1 i A B ((hr i A B).1 he)
    rw [anyRes_ok _ (fun ab => decide (∃ i j, EdgesMeet ab.1 ab.2 i j)) (ringPairs qs) (by
      rintro ⟨a, b⟩ hab
      obtain ⟨ha, hb⟩ := mem_ringPairs hab
      obtain ⟨calls, -, -, -, r, h1, h2⟩ := C45_polyline_polyline_partial a b (nullVisitor (K := K)) ()
        (hproper a ha) (hproper b hb)
      simp only [h1, Except.ok.injEq]
      rw [Bool.eq_iff_iff, h2, decide_eq_true_iff])]
    refine ⟨_, rfl, ?_⟩
    rw [Bool.not_eq_true', ← Bool.not_eq_true, List.any_eq_true, and_iff_right hall]
    have hpw : (¬ ∃ x ∈ ringPairs qs, decide (∃ i j, EdgesMeet x.1 x.2 i j) = true) ↔
        qs.Pairwise fun a b => ¬ ∃ i j, EdgesMeet a b i j := by
      rw [← ringPairs_forall (fun a b => ¬ ∃ i j, EdgesMeet a b i j)]
      constructor
      · intro h ab hab hm; exact h ⟨ab, hab, by simpa using hm⟩
      · rintro h ⟨ab, hab, hm⟩; exact h ab hab (by simpa using hm)
    rw [hpw]
    have hmeet : ∀ P Q p q, (∀ i A B, IsEdge p i A B ↔ IsPolygonEdge P i A B) →
        (∀ i A B, IsEdge q i A B ↔ IsPolygonEdge Q i A B) →
        ((∃ i j, EdgesMeet p q i j) ↔ ∃ X : P2 K, OnBoundary P X ∧ OnBoundary Q X) := by
      intro P Q p q hp hq
      unfold EdgesMeet MeetsEdge OnBoundary Common
      simp only [hp, hq]
      constructor
      · rintro ⟨i, j, A, B, e1, C, D, X, e2, h1, h2⟩
        exact ⟨X, ⟨i, A, B, e1, h1⟩, ⟨j, C, D, e2, h2⟩⟩
      · rintro ⟨X, ⟨i, A, B, e1, h1⟩, ⟨j, C, D, e2, h2⟩⟩
        exact ⟨i, j, A, B, e1, C, D, X, e2, h1, h2⟩
    clear hall h0 hq hproper hpw hP
    generalize outer :: holes = Ps at hrel
    induction hrel with
    | nil => simp
    | cons hpq hrest ih =>
      rw [List.pairwise_cons, List.pairwise_cons]
      refine and_congr ?_ ih
      constructor
      · intro h Q hQ
        obtain ⟨k, hk, rfl⟩ := List.mem_iff_getElem.1 hQ
        have hlen := hrest.length_eq
        have hr := (List.forall₂_iff_get.1 hrest).2 k hk (by omega)
        have := hmeet _ _ _ _ hpq hr
        simp only [List.get_eq_getElem] at this
        rw [← this]
        exact h _ (List.getElem_mem _)
      · intro h q hq
        obtain ⟨k, hk, rfl⟩ := List.mem_iff_getElem.1 hq
        have hlen := hrest.length_eq
        have hr := (List.forall₂_iff_get.1 hrest).2 k (by omega) hk
        have := hmeet _ _ _ _ hpq hr
        simp only [List.get_eq_getElem] at this
        rw [this]
        exact h _ (List.getElem_mem _)
  · have h0 : ((outer :: holes).any fun P => decide (¬ SimplePolygon P)) = true := by
      rw [List.any_eq_true]
      push Not at hall
      obtain ⟨P, hPm, hn⟩ := hall
      exact ⟨P, hPm, by simpa using hn⟩
    rw [h0]
    refine ⟨false, rfl, ?_⟩
    constructor
    · intro h; cases h
    · intro h; exact absurd h.1 hall

/-- A square in a square. -/
example : isPolygonWithHolesSimple Cmp.direct [⟨0, 0⟩, ⟨4, 0⟩, ⟨4, 4⟩, (⟨0, 4⟩ : P2 ℚ)]
    [[⟨1, 1⟩, ⟨1, 2⟩, ⟨2, 2⟩, ⟨2, 1⟩]] = .ok true := by decide +kernel

end Geometrix
