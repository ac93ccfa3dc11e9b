import Verif.Lemmas.CollinearSegments

/-!
# C49: difference and union of collinear segments
-/

set_option linter.unusedSectionVars false

namespace Geometrix

open Spec

variable {K : Type*} [Field K] [LinearOrder K] [IsStrictOrderedRing K]

/-- `collinear_segment_union`: for a set of separate segments on a line and a segment of positive length on that
line, the new set covers exactly the points of the old set and of the segment, and is again a set of separate
segments on the line. -/
theorem C49_union (o v : P2 K) (S : List (Seg K)) (seg : Seg K) (hl : AllOnLine o v (seg :: S))
    (hS : SeparateSegments S) (hseg : seg.s ≠ seg.e) :
    ∃ S', collinearSegmentUnion Cmp.direct S seg = .ok S' ∧
      (∀ p, Covers S' p ↔ Covers S p ∨ OnSegment seg.s seg.e p) ∧
      SeparateSegments S' ∧ AllOnLine o v S' := by
  obtain ⟨w, hw, hk, T, hT⟩ := exists_lex_direction hl
  have hw0 := lex_ne_zero hw
  obtain ⟨u, T, rfl⟩ : ∃ u T', T = u :: T' := by
    cases T with
    | nil => simp at hT
    | cons u T => exact ⟨u, T, rfl⟩
  rw [List.map_cons] at hT
  injection hT with h1 h2
  subst h1 h2
  rw [separateSegments_segAt hw] at hS
  obtain ⟨hne, hP⟩ := hS
  have hu : u.1 ≠ u.2 := fun h => hseg (by simp only [segAt, h])
  obtain ⟨r1, r2, r3⟩ := range_spec ltI ltI_trans hP u
  have hap := range_append ltI T u
  have hlt := fun a b => segmentIntervalCompare_param (o := o) hw a b
  have hmem : ∀ s, s ∈ T ↔ (s ∈ rangeBefore ltI T u ∨ s ∈ rangeEqual ltI T u) ∨ s ∈ rangeAfter ltI T u := by
    intro s; conv_lhs => rw [← hap]
    simp only [List.mem_append]
  obtain ⟨x, hx, hx0, hxb⟩ := unionLoop_spec (o := o) hw0 (rangeEqual ltI T u) u hu (fun s hs =>
    ⟨hne s ((hmem s).2 (Or.inl (Or.inr hs))), exists_common_of_not_ltI (r2 s hs).1 (r2 s hs).2⟩)
  have hP' := hP
  rw [← hap, List.pairwise_append, List.pairwise_append] at hP'
  obtain ⟨⟨q1, q2, q3⟩, q4, q5⟩ := hP'
  have hrest : (rangeBefore ltI T u ++ rangeAfter ltI T u).Pairwise (fun a b => ltI a b = true) := by
    rw [List.pairwise_append]
    exact ⟨q1, q4, fun a ha b hb => q5 a (List.mem_append_left _ ha) b hb⟩
  obtain ⟨s1, s2⟩ := setInsert_spec ltI ltI_trans hrest x (by
    intro e he
    rcases List.mem_append.1 he with he | he
    · left
      rw [ltI_iff]
      intro a b ha hb
      rcases (hxb b).1 hb with hb | ⟨s, hs, hb⟩
      · exact (ltI_iff _ _).1 (r1 e he) a b ha hb
      · exact (ltI_iff _ _).1 (q3 e he s hs) a b ha hb
    · right
      rw [ltI_iff]
      intro a b ha hb
      rcases (hxb a).1 ha with ha | ⟨s, hs, ha⟩
      · exact (ltI_iff _ _).1 (r3 e he) a b ha hb
      · exact (ltI_iff _ _).1 (q5 s (List.mem_append_right _ hs) e he) a b ha hb)
  refine ⟨(setInsert ltI (rangeBefore ltI T u ++ rangeAfter ltI T u) x).map (segAt o w), ?_, ?_, ?_,
    allOnLine_segAt hl.1 hk _⟩
  · unfold collinearSegmentUnion
    simp only [rangeEqual_map _ _ _ hlt, rangeBefore_map _ _ _ hlt, rangeAfter_map _ _ _ hlt, hx, List.append_nil]
    rw [← List.map_append, setInsert_map _ _ _ hlt]
  · intro p
    rw [covers_segAt hw0, covers_segAt hw0, onSegment_segAt hw0]
    constructor
    · rintro ⟨y, rfl, s, hs, hy⟩
      rcases List.mem_cons.1 (s2.mem_iff.1 hs) with rfl | hs
      · rcases (hxb y).1 hy with hy | ⟨t, ht, hy⟩
        · exact Or.inr ⟨y, rfl, hy⟩
        · exact Or.inl ⟨y, rfl, t, (hmem t).2 (Or.inl (Or.inr ht)), hy⟩
      · refine Or.inl ⟨y, rfl, s, (hmem s).2 ?_, hy⟩
        rcases List.mem_append.1 hs with h | h
        · exact Or.inl (Or.inl h)
        · exact Or.inr h
    · rintro (⟨y, rfl, s, hs, hy⟩ | ⟨y, rfl, hy⟩)
      · rcases (hmem s).1 hs with (h | h) | h
        · exact ⟨y, rfl, s, s2.mem_iff.2 (List.mem_cons_of_mem _ (List.mem_append_left _ h)), hy⟩
        · exact ⟨y, rfl, x, s2.mem_iff.2 List.mem_cons_self, (hxb y).2 (Or.inr ⟨s, h, hy⟩)⟩
        · exact ⟨y, rfl, s, s2.mem_iff.2 (List.mem_cons_of_mem _ (List.mem_append_right _ h)), hy⟩
      · exact ⟨y, rfl, x, s2.mem_iff.2 List.mem_cons_self, (hxb y).2 (Or.inl hy)⟩
  · rw [separateSegments_segAt hw]
    refine ⟨fun s hs => ?_, s1⟩
    rcases List.mem_cons.1 (s2.mem_iff.1 hs) with rfl | hs
    · exact hx0
    · apply hne s
      rw [hmem]
      rcases List.mem_append.1 hs with h | h
      · exact Or.inl (Or.inl h)
      · exact Or.inr h

/-- Three separate segments and one that joins two of them, given in various directions. -/
example : AllOnLine (⟨0, 0⟩ : P2 ℚ) ⟨1, 1⟩
      [⟨⟨4, 4⟩, ⟨1, 1⟩⟩, ⟨⟨0, 0⟩, ⟨1, 1⟩⟩, ⟨⟨3, 3⟩, ⟨2, 2⟩⟩, ⟨⟨7, 7⟩, ⟨8, 8⟩⟩] ∧
    collinearSegmentUnion Cmp.direct [⟨⟨0, 0⟩, ⟨1, 1⟩⟩, ⟨⟨3, 3⟩, ⟨2, 2⟩⟩, ⟨⟨7, 7⟩, ⟨8, 8⟩⟩] (⟨⟨4, 4⟩, ⟨1, 1⟩⟩ : Seg ℚ)
      = .ok [⟨⟨0, 0⟩, ⟨4, 4⟩⟩, ⟨⟨7, 7⟩, ⟨8, 8⟩⟩] := by
  refine ⟨⟨by decide +kernel, ?_⟩, by decide +kernel⟩
  intro s hs
  simp only [List.mem_cons, List.not_mem_nil, or_false] at hs
  rcases hs with rfl | rfl | rfl | rfl
  · exact ⟨⟨4, by decide +kernel⟩, 1, by decide +kernel⟩
  · exact ⟨⟨0, by decide +kernel⟩, 1, by decide +kernel⟩
  · exact ⟨⟨3, by decide +kernel⟩, 2, by decide +kernel⟩
  · exact ⟨⟨7, by decide +kernel⟩, 8, by decide +kernel⟩

/-- `collinear_segment_difference`: the new set covers every point of the old set that is not on the segment and
no point that was not covered or is strictly inside the segment. It consists again of separate segments of
positive length on the line. Missing: an end of the segment that is not the end of a remaining part is not
covered any more, although it is not in the interior of the segment. -/
theorem C49_difference_partial (o v : P2 K) (S : List (Seg K)) (seg : Seg K) (hl : AllOnLine o v (seg :: S))
    (hS : SeparateSegments S) (hseg : seg.s ≠ seg.e) :
    ∃ S', collinearSegmentDifference Cmp.direct S seg = .ok S' ∧
      (∀ p, Covers S p → ¬ OnSegment seg.s seg.e p → Covers S' p) ∧
      (∀ p, Covers S' p → Covers S p ∧ ¬ InsideSegment seg.s seg.e p) ∧
      SeparateSegments S' ∧ AllOnLine o v S' := by
  obtain ⟨w, hw, hk, T, hT⟩ := exists_lex_direction hl
  have hw0 := lex_ne_zero hw
  obtain ⟨u, T, rfl⟩ : ∃ u T', T = u :: T' := by
    cases T with
    | nil => simp at hT
    | cons u T => exact ⟨u, T, rfl⟩
  rw [List.map_cons] at hT
  injection hT with h1 h2
  subst h1 h2
  rw [separateSegments_segAt hw] at hS
  obtain ⟨hne, hP⟩ := hS
  have hu : u.1 ≠ u.2 := fun h => hseg (by simp only [segAt, h])
  obtain ⟨r1, r2, r3⟩ := range_spec ltI ltI_trans hP u
  have hap := range_append ltI T u
  have hlt := fun a b => segmentIntervalCompare_param (o := o) hw a b
  have hmem : ∀ s, s ∈ T ↔ (s ∈ rangeBefore ltI T u ∨ s ∈ rangeEqual ltI T u) ∨ s ∈ rangeAfter ltI T u := by
    intro s; conv_lhs => rw [← hap]
    simp only [List.mem_append]
  have hP' := hP
  rw [← hap, List.pairwise_append, List.pairwise_append] at hP'
  obtain ⟨⟨q1, q2, q3⟩, q4, q5⟩ := hP'
  obtain ⟨kept, ins, e, i1, i2, i3, i4, i5, i6⟩ := differenceLoop_spec (o := o) hw0 hu (rangeEqual ltI T u)
    (fun s hs => hne s ((hmem s).2 (Or.inl (Or.inr hs)))) q2
  have hrest : (rangeBefore ltI T u ++ kept ++ rangeAfter ltI T u).Pairwise (fun a b => ltI a b = true) := by
    refine hP.sublist ?_
    conv_rhs => rw [← hap]
    exact (i1.append_left _).append_right _
  obtain ⟨s1, s2⟩ := foldl_setInsert_spec ltI ltI_trans ins hrest i5 (by
    intro x hx e he
    obtain ⟨_, t, ht, hsub⟩ := i2 x hx
    rcases List.mem_append.1 he with he | he
    · rcases List.mem_append.1 he with he | he
      · exact Or.inl (ltI_sub (SubI.refl _) hsub (q3 e he t ht))
      · exact i6 x hx e he
    · exact Or.inr (ltI_sub hsub (SubI.refl _) (q5 t (List.mem_append_right _ ht) e he)))
  have hmem' : ∀ s, s ∈ ins.foldl (setInsert ltI) (rangeBefore ltI T u ++ kept ++ rangeAfter ltI T u) ↔
      s ∈ ins ∨ (s ∈ rangeBefore ltI T u ∨ s ∈ kept) ∨ s ∈ rangeAfter ltI T u := by
    intro s; rw [s2.mem_iff]; simp only [List.mem_append]
  refine ⟨(ins.foldl (setInsert ltI) (rangeBefore ltI T u ++ kept ++ rangeAfter ltI T u)).map (segAt o w),
    ?_, ?_, ?_, ?_, allOnLine_segAt hl.1 hk _⟩
  · unfold collinearSegmentDifference
    have hs : seqEquals Cmp.direct (segAt o w u).s (segAt o w u).e = false := by
      rw [← Bool.not_eq_true, seqEquals_direct]; exact hseg
    have e' : differenceLoop Cmp.direct (segAt o w u).s (segAt o w u).e ((rangeEqual ltI T u).map (segAt o w)) =
      .ok (kept.map (segAt o w), ins.map (segAt o w)) := e
    simp only [hs, rangeEqual_map _ _ _ hlt, rangeBefore_map _ _ _ hlt, rangeAfter_map _ _ _ hlt, e']
    rw [← List.map_append, ← List.map_append, foldl_setInsert_map _ _ _ hlt, if_neg (by simp)]
  · intro p hp hn
    rw [covers_segAt hw0] at hp ⊢
    obtain ⟨y, rfl, s, hs, hy⟩ := hp
    refine ⟨y, rfl, ?_⟩
    have hn' : ¬ Btw u.1 u.2 y := fun h => hn ((onSegment_segAt hw0 _ _).2 ⟨y, rfl, h⟩)
    rcases (hmem s).1 hs with (h | h) | h
    · exact ⟨s, (hmem' s).2 (Or.inr (Or.inl (Or.inl h))), hy⟩
    · obtain ⟨t, ht, hty⟩ := i4 s h y hy hn'
      refine ⟨t, (hmem' t).2 ?_, hty⟩
      rcases ht with ht | ht
      · exact Or.inr (Or.inl (Or.inr ht))
      · exact Or.inl ht
    · exact ⟨s, (hmem' s).2 (Or.inr (Or.inr h)), hy⟩
  · intro p hp
    rw [covers_segAt hw0] at hp ⊢
    obtain ⟨y, rfl, s, hs, hy⟩ := hp
    have hin : ∀ h : Btw u.1 u.2 y → y = u.1 ∨ y = u.2,
        ¬ InsideSegment (segAt o w u).s (segAt o w u).e (o + y • w) := by
      intro h hI
      rcases (insideSegment_param hw0 _ _ _).1 hI with ⟨_, hb, h1, h2⟩ | ⟨h1, _⟩
      · rcases h hb with h | h
        · exact h1 h
        · exact h2 h
      · exact hu h1
    rcases (hmem' s).1 hs with h | (h | h) | h
    · obtain ⟨_, t, ht, hsub⟩ := i2 s h
      exact ⟨⟨y, rfl, t, (hmem t).2 (Or.inl (Or.inr ht)), hsub y hy⟩, hin (i3 s (Or.inr h) y hy)⟩
    · refine ⟨⟨y, rfl, s, (hmem s).2 (Or.inl (Or.inl h)), hy⟩, hin fun hb => ?_⟩
      exact absurd ((ltI_iff _ _).1 (r1 s h) y y hy hb) (lt_irrefl _)
    · exact ⟨⟨y, rfl, s, (hmem s).2 (Or.inl (Or.inr (i1.subset h))), hy⟩, hin (i3 s (Or.inl h) y hy)⟩
    · refine ⟨⟨y, rfl, s, (hmem s).2 (Or.inr h), hy⟩, hin fun hb => ?_⟩
      exact absurd ((ltI_iff _ _).1 (r3 s h) y y hb hy) (lt_irrefl _)
  · rw [separateSegments_segAt hw]
    refine ⟨fun s hs => ?_, s1⟩
    rcases (hmem' s).1 hs with h | (h | h) | h
    · exact (i2 s h).1
    · exact hne s ((hmem s).2 (Or.inl (Or.inl h)))
    · exact hne s ((hmem s).2 (Or.inl (Or.inr (i1.subset h))))
    · exact hne s ((hmem s).2 (Or.inr h))

/-- A segment that cuts two others and is cut out of a third. -/
example : AllOnLine (⟨0, 0⟩ : P2 ℚ) ⟨0, 1⟩
      [⟨⟨0, 6⟩, ⟨0, 1⟩⟩, ⟨⟨0, 0⟩, ⟨0, 2⟩⟩, ⟨⟨0, 4⟩, ⟨0, 3⟩⟩, ⟨⟨0, 5⟩, ⟨0, 8⟩⟩] ∧
    collinearSegmentDifference Cmp.direct [⟨⟨0, 0⟩, ⟨0, 2⟩⟩, ⟨⟨0, 4⟩, ⟨0, 3⟩⟩, ⟨⟨0, 5⟩, ⟨0, 8⟩⟩]
      (⟨⟨0, 6⟩, ⟨0, 1⟩⟩ : Seg ℚ) = .ok [⟨⟨0, 0⟩, ⟨0, 1⟩⟩, ⟨⟨0, 6⟩, ⟨0, 8⟩⟩] ∧
    collinearSegmentDifference Cmp.direct [⟨⟨0, 0⟩, ⟨0, 9⟩⟩] (⟨⟨0, 6⟩, ⟨0, 1⟩⟩ : Seg ℚ)
      = .ok [⟨⟨0, 0⟩, ⟨0, 1⟩⟩, ⟨⟨0, 6⟩, ⟨0, 9⟩⟩] := by
  refine ⟨⟨by decide +kernel, ?_⟩, by decide +kernel, by decide +kernel⟩
  intro s hs
  simp only [List.mem_cons, List.not_mem_nil, or_false] at hs
  rcases hs with rfl | rfl | rfl | rfl
  · exact ⟨⟨6, by decide +kernel⟩, 1, by decide +kernel⟩
  · exact ⟨⟨0, by decide +kernel⟩, 2, by decide +kernel⟩
  · exact ⟨⟨4, by decide +kernel⟩, 3, by decide +kernel⟩
  · exact ⟨⟨5, by decide +kernel⟩, 8, by decide +kernel⟩

/-- A segment without length takes nothing away. -/
theorem C49_difference_point (S : List (Seg K)) (seg : Seg K) (h : seg.s = seg.e) :
    collinearSegmentDifference Cmp.direct S seg = .ok S := by
  unfold collinearSegmentDifference
  rw [if_pos ((seqEquals_direct _ _).2 h)]

/-- C49 taken literally is false for the difference: a segment minus itself is empty, although its ends are not
in the interior of the subtracted segment. -/
theorem C49_difference_refuted :
    ¬ ∀ (S : List (Seg ℚ)) (seg : Seg ℚ) (S' : List (Seg ℚ)), seg.s ≠ seg.e → SeparateSegments S →
      (∃ o v, AllOnLine o v (seg :: S)) → collinearSegmentDifference Cmp.direct S seg = .ok S' →
      ∀ p, Covers S' p ↔ Covers S p ∧ ¬ InsideSegment seg.s seg.e p := by
  intro h
  have := (h [⟨⟨0, 0⟩, ⟨1, 0⟩⟩] ⟨⟨0, 0⟩, ⟨1, 0⟩⟩ [] (by decide +kernel) ⟨by decide +kernel, by simp⟩
    ⟨⟨0, 0⟩, ⟨1, 0⟩, by decide +kernel, by
      intro s hs
      simp only [List.mem_cons, List.not_mem_nil, or_false, or_self] at hs
      subst hs
      exact ⟨⟨0, by decide +kernel⟩, 1, by decide +kernel⟩⟩ (by decide +kernel) ⟨0, 0⟩).2
    ⟨⟨_, List.mem_singleton.2 rfl, 0, le_refl _, by norm_num, by decide +kernel⟩, by
      rintro ⟨t, h0, h1, h2⟩
      have := congrArg P2.x h2
      simp at this
      linarith⟩
  obtain ⟨s, hs, _⟩ := this
  simp at hs

/-- The positive length of the segment is needed for the union: the union with a point of a horizontal segment
replaces the segment by the point, because `is_between` compares only the `y` coordinates when the two ends are
equal. -/
theorem C49_union_point_refuted :
    ¬ ∀ (S : List (Seg ℚ)) (seg : Seg ℚ) (S' : List (Seg ℚ)), SeparateSegments S →
      (∃ o v, AllOnLine o v (seg :: S)) → collinearSegmentUnion Cmp.direct S seg = .ok S' →
      ∀ p, Covers S' p ↔ Covers S p ∨ OnSegment seg.s seg.e p := by
  intro h
  have := (h [⟨⟨0, 0⟩, ⟨2, 0⟩⟩] ⟨⟨1, 0⟩, ⟨1, 0⟩⟩ [⟨⟨1, 0⟩, ⟨1, 0⟩⟩] ⟨by decide +kernel, by simp⟩
    ⟨⟨0, 0⟩, ⟨1, 0⟩, by decide +kernel, by
      intro s hs
      simp only [List.mem_cons, List.not_mem_nil, or_false] at hs
      rcases hs with rfl | rfl
      · exact ⟨⟨1, by decide +kernel⟩, 1, by decide +kernel⟩
      · exact ⟨⟨0, by decide +kernel⟩, 2, by decide +kernel⟩⟩ (by decide +kernel) ⟨0, 0⟩).2
    (Or.inl ⟨_, List.mem_singleton.2 rfl, 0, le_refl _, by norm_num, by decide +kernel⟩)
  obtain ⟨s, hs, t, _, _, ht⟩ := this
  simp only [List.mem_singleton] at hs
  subst hs
  have := congrArg P2.x ht
  simp at this

end Geometrix
