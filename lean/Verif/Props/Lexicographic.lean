import Verif.Lemmas.Lexicographic

/-!
# C03, C04: lexicographic comparers
-/

set_option linter.unusedSectionVars false

namespace Geometrix

open Spec

variable {K : Type*} [Field K] [LinearOrder K] [IsStrictOrderedRing K]

/-- C03: the comparer decides the order by `x`, then by `y` (direct policy). -/
theorem C03_lex_iff (p q : P2 K) : lexCompare Cmp.direct p q = true ↔ LexLT p q :=
  lexCompare_iff p q

/-- C03: the reverse comparer decides the order by `y`, then by `x` (direct policy). -/
theorem C03_reverse_lex_iff (p q : P2 K) :
    reverseLexCompare Cmp.direct p q = true ↔ (p.y < q.y ∨ (p.y = q.y ∧ p.x < q.x)) := by
  simp [reverseLexCompare]

/-- C03: the comparer is a strict weak ordering. -/
theorem C03_lex_strictWeakOrder : StrictWeakOrder (lexCompare (Cmp.direct : Cmp K)) where
  irrefl a := by
    rw [← Bool.not_eq_true, C03_lex_iff]; simp [LexLT]
  trans a b c := by
    simp only [C03_lex_iff, LexLT]
    rintro (h1 | ⟨h1, h2⟩) (h3 | ⟨h3, h4⟩)
    · exact Or.inl (h1.trans h3)
    · exact Or.inl (h3 ▸ h1)
    · exact Or.inl (h1 ▸ h3)
    · exact Or.inr ⟨h1.trans h3, h2.trans h4⟩
  incomp_trans a b c := by
    simp only [← Bool.not_eq_true, C03_lex_iff, LexLT, not_or, not_and, not_lt]
    rintro ⟨⟨h1, h2⟩, ⟨h3, h4⟩⟩ ⟨⟨h5, h6⟩, ⟨h7, h8⟩⟩
    have e1 : a.x = b.x := le_antisymm h3 h1
    have e2 : b.x = c.x := le_antisymm h7 h5
    exact ⟨⟨by rw [e1, e2], fun _ => (h6 e2).trans (h2 e1)⟩,
      ⟨by rw [e1, e2], fun _ => (h4 e1.symm).trans (h8 e2.symm)⟩⟩

/-- C03: the order is total: points that the comparer cannot separate are equal. -/
theorem C03_lex_total (p q : P2 K) (h1 : lexCompare Cmp.direct p q = false)
    (h2 : lexCompare Cmp.direct q p = false) : p = q := by
  simp only [← Bool.not_eq_true, C03_lex_iff, LexLT, not_or, not_and, not_lt] at h1 h2
  have e1 : p.x = q.x := le_antisymm h2.1 h1.1
  exact P2.ext e1 (le_antisymm (h2.2 e1.symm) (h1.2 e1))

example : lexCompare Cmp.direct (⟨1, 2⟩ : P2 ℚ) ⟨1, 2⟩ = false := by decide +kernel

/-- C03: the reverse comparer is a strict weak ordering. -/
theorem C03_reverse_lex_strictWeakOrder :
    StrictWeakOrder (reverseLexCompare (Cmp.direct : Cmp K)) where
  irrefl a := by
    rw [← Bool.not_eq_true, C03_reverse_lex_iff]; simp
  trans a b c := by
    simp only [C03_reverse_lex_iff]
    rintro (h1 | ⟨h1, h2⟩) (h3 | ⟨h3, h4⟩)
    · exact Or.inl (h1.trans h3)
    · exact Or.inl (h3 ▸ h1)
    · exact Or.inl (h1 ▸ h3)
    · exact Or.inr ⟨h1.trans h3, h2.trans h4⟩
  incomp_trans a b c := by
    simp only [← Bool.not_eq_true, C03_reverse_lex_iff, not_or, not_and, not_lt]
    rintro ⟨⟨h1, h2⟩, ⟨h3, h4⟩⟩ ⟨⟨h5, h6⟩, ⟨h7, h8⟩⟩
    have e1 : a.y = b.y := le_antisymm h3 h1
    have e2 : b.y = c.y := le_antisymm h7 h5
    exact ⟨⟨by rw [e1, e2], fun _ => (h6 e2).trans (h2 e1)⟩,
      ⟨by rw [e1, e2], fun _ => (h4 e1.symm).trans (h8 e2.symm)⟩⟩

/-- C03: points the reverse comparer cannot separate are equal. -/
theorem C03_reverse_lex_total (p q : P2 K) (h1 : reverseLexCompare Cmp.direct p q = false)
    (h2 : reverseLexCompare Cmp.direct q p = false) : p = q := by
  simp only [← Bool.not_eq_true, C03_reverse_lex_iff, not_or, not_and, not_lt] at h1 h2
  have e1 : p.y = q.y := le_antisymm h2.1 h1.1
  exact P2.ext (le_antisymm (h2.2 e1.symm) (h1.2 e1)) e1

example : reverseLexCompare Cmp.direct (⟨1, 2⟩ : P2 ℚ) ⟨1, 2⟩ = false := by decide +kernel

/-- C03: the comparer by one dimension is a strict weak ordering that separates distinct points. -/
theorem C03_dimension_compare (d : Fin 2) :
    StrictWeakOrder (dimensionCompare (Cmp.direct : Cmp K) d) ∧
    ∀ p q : P2 K, dimensionCompare Cmp.direct d p q = false →
      dimensionCompare Cmp.direct d q p = false → p = q := by
  have hd : d = 0 ∨ d = 1 := by omega
  rcases hd with rfl | rfl
  · have heq : dimensionCompare (Cmp.direct : Cmp K) 0 = lexCompare Cmp.direct := by
      funext p q
      simp only [dimensionCompare, lexCompare, if_true]
      split_ifs <;> rfl
    rw [heq]
    exact ⟨C03_lex_strictWeakOrder, C03_lex_total⟩
  · have heq : dimensionCompare (Cmp.direct : Cmp K) 1 = reverseLexCompare Cmp.direct := by
      funext p q
      rw [Bool.eq_iff_iff, C03_reverse_lex_iff]
      simp only [dimensionCompare, direct_lt, direct_equals]
      norm_num
      constructor
      · rintro (h | ⟨h, h2⟩)
        · exact Or.inl h
        · rw [C03_lex_iff, LexLT] at h2
          rcases h2 with h2 | ⟨_, h2⟩
          · exact Or.inr ⟨h, h2⟩
          · exact absurd h h2.ne
      · rintro (h | ⟨h, h2⟩)
        · exact Or.inl h
        · exact Or.inr ⟨h, (C03_lex_iff _ _).mpr (Or.inl h2)⟩
    rw [heq]
    exact ⟨C03_reverse_lex_strictWeakOrder, C03_reverse_lex_total⟩

/-- Disagreement with the documentation: `coordinate_less_compare` is documented to sort by less
than order but orders from large to small. -/
theorem C03_coordinate_less_compare_refuted :
    ¬ ∀ a b : ℚ, (coordinateLessCompare Cmp.direct a b = true ↔ a < b) := by
  intro h
  have := (h 2 1).mp (by decide +kernel)
  norm_num at this

/-! ## C04 -/

/-- What the segment comparator really does: it orders by the start points alone, because line 484
of the code takes the end of the second segment for both. -/
theorem C04_compares_starts (s1 s2 : Seg K) :
    lexSegmentCompare Cmp.direct s1 s2 = true ↔ LexLT s1.s s2.s := by
  obtain ⟨a, e1⟩ := s1
  obtain ⟨b, e⟩ := s2
  have hirr : ∀ p : P2 K, ¬ LexLT p p := fun p h => lexLT_asymm h h
  have htr : ∀ {p q r : P2 K}, LexLT p q → LexLT q r → LexLT p r := by
    intro p q r h1 h2
    exact (C03_lex_iff _ _).mp ((C03_lex_strictWeakOrder (K := K)).trans p q r
      ((C03_lex_iff _ _).mpr h1) ((C03_lex_iff _ _).mpr h2))
  simp only [lexSegmentCompare, Bool.or_eq_true, Bool.and_eq_true, C03_lex_iff, seqEquals_direct]
  split_ifs with h1 h2 h2
  · simp [hirr]
  · simp only [C03_lex_iff] at h1 h2
    rcases lexLT_trichotomy b e with h | h | h
    · exact absurd h h2
    · subst h; simp [h1]
    · exact ⟨fun _ => htr h1 h, fun _ => Or.inl h1⟩
  · simp only [C03_lex_iff] at h1 h2
    have hn : ¬ LexLT a b := fun hab => h1 (htr hab h2)
    simp only [hn, iff_false, not_or, not_and]
    refine ⟨lexLT_asymm h2, ?_⟩
    rintro rfl
    exact absurd h2 (hirr _)
  · simp [hirr]

/-- C04, first half: the segment comparator is a strict weak ordering. Missing: its equivalence is
equality of start points, not of endpoint pairs (see `C04_equivalence_refuted`). -/
theorem C04_strictWeakOrder_partial : StrictWeakOrder (lexSegmentCompare (Cmp.direct : Cmp K)) := by
  have h := C03_lex_strictWeakOrder (K := K)
  have heq : ∀ s1 s2 : Seg K, lexSegmentCompare Cmp.direct s1 s2 = lexCompare Cmp.direct s1.s s2.s := by
    intro s1 s2
    rw [Bool.eq_iff_iff, C04_compares_starts, C03_lex_iff]
  constructor
  · intro a; rw [heq]; exact h.irrefl _
  · intro a b c; simp only [heq]; exact h.trans _ _ _
  · intro a b c; simp only [heq]; exact h.incomp_trans _ _ _

/-- C04, second half, is false: segments that the comparator cannot separate need not be equal, as
sets of endpoints or otherwise. A container keyed by it drops the second of two segments that share
their start. -/
theorem C04_equivalence_refuted :
    ¬ ∀ s1 s2 : Seg ℚ, lexSegmentCompare Cmp.direct s1 s2 = false →
      lexSegmentCompare Cmp.direct s2 s1 = false →
      (s1 = s2 ∨ (s1.s = s2.e ∧ s1.e = s2.s)) := by
  intro h
  have := h ⟨⟨0, 0⟩, ⟨1, 0⟩⟩ ⟨⟨0, 0⟩, ⟨0, 7⟩⟩ (by decide +kernel) (by decide +kernel)
  revert this
  decide +kernel

/-- C04 is also false for reversed segments: a segment and its reversal are ordered, although the
code first sorts the ends of each segment. -/
theorem C04_direction_refuted :
    lexSegmentCompare Cmp.direct (⟨⟨0, 0⟩, ⟨1, 0⟩⟩ : Seg ℚ) ⟨⟨1, 0⟩, ⟨0, 0⟩⟩ = true := by
  decide +kernel

/-- C04 for `segment_interval_compare`: a segment is less than another exactly when its upper end
is lexicographically below the other's lower end. -/
theorem C04_interval_compare_iff (s1 s2 : Seg K) :
    segmentIntervalCompare Cmp.direct s1 s2 = true ↔
      ∃ u l, IsUpper s1 u ∧ IsLower s2 l ∧ LexLT u l := by
  have hu : ∀ s : Seg K, ∀ u, IsUpper s u ↔
      u = (if lexCompare Cmp.direct s.s s.e then s.e else s.s) := by
    intro s u
    unfold IsUpper
    split_ifs with h <;> rw [C03_lex_iff] at h
    · simp [h, lexLT_asymm h]
    · constructor
      · rintro (⟨h1, h2⟩ | ⟨h1, _⟩)
        · rcases lexLT_trichotomy s.s s.e with h3 | h3 | h3
          · exact absurd h3 h
          · rw [h1, h3]
          · exact absurd h3 h2
        · exact h1
      · intro h1; exact Or.inr ⟨h1, h⟩
  have hl : ∀ s : Seg K, ∀ u, IsLower s u ↔
      u = (if lexCompare Cmp.direct s.s s.e then s.s else s.e) := by
    intro s u
    unfold IsLower
    split_ifs with h <;> rw [C03_lex_iff] at h
    · simp [h, lexLT_asymm h]
    · constructor
      · rintro (⟨h1, h2⟩ | ⟨h1, _⟩)
        · rcases lexLT_trichotomy s.s s.e with h3 | h3 | h3
          · exact absurd h3 h
          · rw [h1, h3]
          · exact absurd h3 h2
        · exact h1
      · intro h1; exact Or.inr ⟨h1, h⟩
  simp only [hu, hl, segmentIntervalCompare, C03_lex_iff (p := ite _ _ _)]
  constructor
  · intro h; exact ⟨_, _, rfl, rfl, h⟩
  · rintro ⟨u, l, rfl, rfl, h⟩; exact h

end Geometrix
