import Verif.Lemmas.SegmentIntersection3

/-!
# C107: the intersection of two segments in space
-/

set_option linter.unusedSectionVars false

namespace Geometrix

open Spec

variable {K : Type*} [Field K] [LinearOrder K] [IsStrictOrderedRing K]

/-- C107: the common points of two segments in space, where the first one is not a single point. The answer is
"non crossing" without points exactly if there is none; "crossing" or "endpoint" with the common point if there is one;
and "overlapping" with the ends of the common part otherwise. -/
theorem C107_points (p1 p2 p3 p4 : P3 K) (h : p1 ≠ p2) :
    ∃ i pts, segSegIntersection3 Cmp.direct p1 p2 p3 p4 = .ok (i, pts) ∧
      ((i = .nonCrossing ∧ pts = [] ∧ ∀ P, ¬ (OnSegment3 p1 p2 P ∧ OnSegment3 p3 p4 P)) ∨
      ((i = .crossing ∨ i = .endpoint) ∧ ∃ P, pts = [P] ∧ ∀ Q, OnSegment3 p1 p2 Q ∧ OnSegment3 p3 p4 Q ↔ Q = P) ∨
      (i = .overlapping ∧ ∃ P Q, pts = [P, Q] ∧ (p3 ≠ p4 → P ≠ Q) ∧
        ∀ R, OnSegment3 p1 p2 R ∧ OnSegment3 p3 p4 R ↔ OnSegment3 P Q R)) := by
  rcases segSeg3_spec (p3 := p3) (p4 := p4) h with ⟨a, b⟩ | ⟨P, a, -, -, -, b⟩ | ⟨P, a, -, -, b⟩ | ⟨P, Q, a, -, b, c⟩
  · exact ⟨_, _, a, Or.inl ⟨rfl, rfl, b⟩⟩
  · exact ⟨_, _, a, Or.inr (Or.inl ⟨Or.inl rfl, P, rfl, b⟩)⟩
  · exact ⟨_, _, a, Or.inr (Or.inl ⟨Or.inr rfl, P, rfl, b⟩)⟩
  · exact ⟨_, _, a, Or.inr (Or.inr ⟨rfl, P, Q, rfl, b, c⟩)⟩

/-- Two segments that cross in space, two that overlap and two that do not meet. -/
example : segSegIntersection3 Cmp.direct (⟨0, 0, 0⟩ : P3 ℚ) ⟨2, 2, 2⟩ ⟨0, 2, 1⟩ ⟨2, 0, 1⟩ = .ok (.crossing, [⟨1, 1, 1⟩]) ∧
    segSegIntersection3 Cmp.direct (⟨0, 0, 0⟩ : P3 ℚ) ⟨2, 2, 2⟩ ⟨3, 3, 3⟩ ⟨1, 1, 1⟩ =
      .ok (.overlapping, [⟨1, 1, 1⟩, ⟨2, 2, 2⟩]) ∧
    segSegIntersection3 Cmp.direct (⟨0, 0, 0⟩ : P3 ℚ) ⟨2, 2, 2⟩ ⟨0, 2, 2⟩ ⟨2, 0, 1⟩ = .ok (.nonCrossing, []) := by
  decide +kernel

/-- C107: "crossing" is answered only for segments that are not parallel, with a point that is not an end of the second
segment; "endpoint" only with a point that is an end of one of the segments, namely of the second one unless they are
parallel. The full statement is that the answer is "crossing" only if the point is no end of either segment. Missing:
the ends of the first segment. -/
theorem C107_class_partial (p1 p2 p3 p4 : P3 K) (h : p1 ≠ p2) (i : IType) (P : P3 K)
    (hi : segSegIntersection3 Cmp.direct p1 p2 p3 p4 = .ok (i, [P])) :
    (i = .crossing ↔ cross3 (p2 - p1) (p4 - p3) ≠ 0 ∧ P ≠ p3 ∧ P ≠ p4) ∧
    (i = .endpoint ↔ cross3 (p2 - p1) (p4 - p3) = 0 ∨ P = p3 ∨ P = p4) ∧
    (i = .endpoint → P = p1 ∨ P = p2 ∨ P = p3 ∨ P = p4) := by
  rcases segSeg3_spec (p3 := p3) (p4 := p4) h with ⟨a, -⟩ | ⟨R, a, b1, b2, b3, -⟩ | ⟨R, a, b, c, -⟩ | ⟨R, Q, a, -, -, -⟩
  · rw [a] at hi
    simp at hi
  · rw [a] at hi
    simp only [Except.ok.injEq, Prod.mk.injEq, List.cons.injEq, and_true] at hi
    obtain ⟨rfl, rfl⟩ := hi
    refine ⟨⟨fun _ => ⟨b1, b2, b3⟩, fun _ => rfl⟩, ⟨fun h => (by cases h), ?_⟩, fun h => (by cases h)⟩
    rintro (h | h | h)
    · exact absurd h b1
    · exact absurd h b2
    · exact absurd h b3
  · rw [a] at hi
    simp only [Except.ok.injEq, Prod.mk.injEq, List.cons.injEq, and_true] at hi
    obtain ⟨rfl, rfl⟩ := hi
    refine ⟨⟨fun h => (by cases h), ?_⟩, ⟨fun _ => ?_, fun _ => rfl⟩, fun _ => ?_⟩
    · rintro ⟨h1, h2, h3⟩
      rcases b h1 with h | h
      · exact absurd h h2
      · exact absurd h h3
    · by_cases h0 : cross3 (p2 - p1) (p4 - p3) = 0
      · exact Or.inl h0
      · exact Or.inr (b h0)
    · by_cases h0 : cross3 (p2 - p1) (p4 - p3) = 0
      · rcases c h0 with h | h
        · exact Or.inl h
        · exact Or.inr (Or.inl h)
      · exact Or.inr (Or.inr (b h0))
  · rw [a] at hi
    simp at hi

/-- C107, disagreement: where the first segment ends inside the second one, the answer is "crossing", and with the
segments exchanged it is "endpoint". -/
theorem C107_class_refuted : ∃ p1 p2 p3 p4 : P3 ℚ, p1 ≠ p2 ∧ p3 ≠ p4 ∧
    segSegIntersection3 Cmp.direct p1 p2 p3 p4 = .ok (.crossing, [p1]) ∧
    segSegIntersection3 Cmp.direct p3 p4 p1 p2 = .ok (.endpoint, [p1]) :=
  ⟨⟨0, 0, 0⟩, ⟨0, 1, 1⟩, ⟨-1, 0, 0⟩, ⟨1, 0, 0⟩, by decide +kernel⟩

/-- C107, disagreement: with a single point as first segment the function divides by zero, whatever the second segment
is. -/
theorem C107_first_point_refuted (p p3 p4 : P3 K) :
    segSegIntersection3 Cmp.direct p p p3 p4 = .error .divByZero := by
  have e : p - p = 0 := by ext <;> simp
  have d0 : ∀ w : P3 K, dot3 (0 : P3 K) w = 0 := fun w => by simp [dot3]
  have c0 : ∀ w : P3 K, cross3 (0 : P3 K) w = 0 := fun w => by ext <;> simp [cross3]
  have d1 : ∀ w : P3 K, dot3 w (0 : P3 K) = 0 := fun w => by simp [dot3]
  unfold segSegIntersection3 isCoplanar
  simp [e, d0, c0, d1, Cmp.direct, cdiv]

example : segSegIntersection3 Cmp.direct (⟨1, 0, 0⟩ : P3 ℚ) ⟨1, 0, 0⟩ ⟨0, 0, 0⟩ ⟨2, 0, 0⟩ = .error .divByZero := by
  decide +kernel

/-- C107, disagreement: a single point inside the first segment as second segment is "overlapping", with the same point
twice. -/
theorem C107_second_point_refuted : ∃ p1 p2 p3 : P3 ℚ, p1 ≠ p2 ∧
    segSegIntersection3 Cmp.direct p1 p2 p3 p3 = .ok (.overlapping, [p3, p3]) :=
  ⟨⟨0, 0, 0⟩, ⟨2, 2, 2⟩, ⟨1, 1, 1⟩, by decide +kernel⟩

end Geometrix
