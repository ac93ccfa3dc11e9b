import Verif.Lemmas.SweepRun
import Mathlib.Tactic.NormNum

/-!
# C110: the sweep over segments
-/

set_option linter.unusedSectionVars false

namespace Geometrix

open Spec

variable {K : Type*} [Field K] [LinearOrder K] [IsStrictOrderedRing K]

/-- C110: the visitor is called once for every point in which segments meet, unless all segments through the point lie on
one line and have it in their middle; in lexicographical order; with the numbers of all segments through the point, in
order. The full statement is for all segments, and without the other outcome. Missing: segments of one point; and the
event queue can outgrow what is reserved for it. -/
theorem C110_sweep_partial (segs : List (Seg K)) (hd : ∀ s ∈ segs, s.s ≠ s.e) (fuel : Nat)
    (hf : 2 * segs.length + segs.length * segs.length ≤ fuel) :
    bentleyOttmann Cmp.direct fuel segs = .error .outOfRange ∨
    ∃ calls, bentleyOttmann Cmp.direct fuel segs = .ok calls ∧ SweepCalls segs calls :=
  (run_spec hd hf).imp And.left id

/-- Three segments through one point, one of them vertical, one that ends on the first, and one on the line of the
first. -/
def sweepExample : List (Seg ℚ) :=
  [⟨⟨4, 4⟩, ⟨0, 0⟩⟩, ⟨⟨0, 4⟩, ⟨4, 0⟩⟩, ⟨⟨2, 0⟩, ⟨2, 4⟩⟩, ⟨⟨3, 5⟩, ⟨3, 3⟩⟩, ⟨⟨3, 3⟩, ⟨6, 6⟩⟩]

example : (∀ s ∈ sweepExample, s.s ≠ s.e) ∧ 2 * sweepExample.length + sweepExample.length * sweepExample.length ≤ 35 ∧
    bentleyOttmann Cmp.direct 35 sweepExample = .ok [(⟨2, 2⟩, [0, 1, 2]), (⟨3, 3⟩, [0, 3, 4]), (⟨4, 4⟩, [0, 4])] := by
  decide +kernel

/-- C110: if the points in which segments cross, other than ends of segments, are not more than the segments, the visitor
is called for all points in which segments meet. The full statement is for any number of crossings, and for all segments.
Missing: more crossings than segments, and segments of one point. -/
theorem C110_few_crossings_partial (segs : List (Seg K)) (hd : ∀ s ∈ segs, s.s ≠ s.e) (fuel : Nat)
    (hf : 2 * segs.length + segs.length * segs.length ≤ fuel) (X : List (P2 K)) (hX : X.length ≤ segs.length)
    (hc : ∀ q, IsCrossingOf segs q → IsEndOf segs q ∨ q ∈ X) :
    ∃ calls, bentleyOttmann Cmp.direct fuel segs = .ok calls ∧ SweepCalls segs calls := by
  rcases run_spec hd hf with ⟨-, Z, hn, hZ, hl⟩ | h
  · exfalso
    have hsub : Z ⊆ segs.map (fun s => s.s) ++ segs.map (fun s => s.e) ++ X := by
      intro q hq
      have key : IsEndOf segs q ∨ q ∈ X := by
        rcases (candidate_iff hd q).mp (hZ q hq) with h | h
        · exact Or.inl h
        · exact hc q h
      simp only [List.mem_append, List.mem_map]
      rcases key with ⟨s, hs, rfl | rfl⟩ | h
      · exact Or.inl (Or.inl ⟨s, hs, rfl⟩)
      · exact Or.inl (Or.inr ⟨s, hs, rfl⟩)
      · exact Or.inr h
    have := (List.subperm_of_subset hn hsub).length_le
    simp only [List.length_append, List.length_map] at this
    omega
  · exact h

example : (∀ q, IsCrossingOf ([⟨⟨0, 0⟩, ⟨2, 2⟩⟩, ⟨⟨0, 2⟩, ⟨2, 0⟩⟩] : List (Seg ℚ)) q →
      IsEndOf ([⟨⟨0, 0⟩, ⟨2, 2⟩⟩, ⟨⟨0, 2⟩, ⟨2, 0⟩⟩] : List (Seg ℚ)) q ∨ q ∈ [(⟨1, 1⟩ : P2 ℚ)]) ∧
    bentleyOttmann Cmp.direct 8 ([⟨⟨0, 0⟩, ⟨2, 2⟩⟩, ⟨⟨0, 2⟩, ⟨2, 0⟩⟩] : List (Seg ℚ)) = .ok [(⟨1, 1⟩, [0, 1])] := by
  refine ⟨?_, by decide +kernel⟩
  rintro q ⟨s, hs, t, ht, h0, h1, h2⟩
  right
  have h3 : ∀ v : P2 ℚ, Parallel v v := fun v => Or.inl ⟨1, by apply P2.ext <;> simp⟩
  simp only [List.mem_cons, List.not_mem_nil, or_false] at hs ht ⊢
  rcases hs with rfl | rfl <;> rcases ht with rfl | rfl
  · exact absurd (h3 _) h0
  · obtain ⟨a, -, -, rfl⟩ := h1
    obtain ⟨b, -, -, e⟩ := h2
    have ex := congrArg P2.x e
    have ey := congrArg P2.y e
    simp at ex ey
    apply P2.ext <;> simp <;> linarith
  · obtain ⟨a, -, -, rfl⟩ := h1
    obtain ⟨b, -, -, e⟩ := h2
    have ex := congrArg P2.x e
    have ey := congrArg P2.y e
    simp at ex ey
    apply P2.ext <;> simp <;> linarith
  · exact absurd (h3 _) h0

/-- Eight segments, all from the left to the abscissa 1000, most pairs of which cross. -/
def sweepCrowd : List (Seg ℚ) :=
  [⟨⟨0, 7⟩, ⟨1000, 85⟩⟩, ⟨⟨3, 19⟩, ⟨1000, 81⟩⟩, ⟨⟨2, 26⟩, ⟨1000, 78⟩⟩, ⟨⟨4, 33⟩, ⟨1000, 54⟩⟩, ⟨⟨5, 43⟩, ⟨1000, 47⟩⟩,
    ⟨⟨6, 49⟩, ⟨1000, 33⟩⟩, ⟨⟨7, 77⟩, ⟨1000, 25⟩⟩, ⟨⟨1, 89⟩, ⟨1000, 19⟩⟩]

/-- C110, disagreement: the event queue can outgrow the three places for each segment that are reserved for it; then its
elements move while one of them is in use. Eight segments are enough. -/
theorem C110_capacity_refuted : (∀ s ∈ sweepCrowd, s.s ≠ s.e) ∧
    ∀ fuel, 80 ≤ fuel → bentleyOttmann Cmp.direct fuel sweepCrowd = .error .outOfRange := by
  have hd : ∀ s ∈ sweepCrowd, s.s ≠ s.e := by decide +kernel
  exact ⟨hd, fun fuel hf => bentleyOttmann_mono _ _ hf (by decide +kernel) (by simp)⟩

/-- Two segments that cross in (5, 0), one that ends between them, and a segment of one point between them. -/
def sweepPoint : List (Seg ℚ) :=
  [⟨⟨0, -2⟩, ⟨10, 2⟩⟩, ⟨⟨0, 0⟩, ⟨3, 0⟩⟩, ⟨⟨1, 1 / 2⟩, ⟨1, 1 / 2⟩⟩, ⟨⟨0, 2⟩, ⟨10, -2⟩⟩]

/-- C110, disagreement: a segment of one point stays on the sweep line for good, and keeps segments that cross apart: a
crossing is not reported. Without the segment of one point it is. -/
theorem C110_point_refuted : MeetingPoint sweepPoint ⟨5, 0⟩ ∧
    (∀ fuel, 24 ≤ fuel → bentleyOttmann Cmp.direct fuel sweepPoint = .ok []) ∧
    ∀ fuel, 24 ≤ fuel → bentleyOttmann Cmp.direct fuel (sweepPoint.eraseIdx 2) = .ok [(⟨5, 0⟩, [0, 2])] := by
  refine ⟨⟨⟨0, 3, by decide, ⟨_, rfl, 1 / 2, by norm_num, by norm_num, ?_⟩, ⟨_, rfl, 1 / 2, by norm_num, by norm_num, ?_⟩⟩,
    Or.inr ⟨⟨⟨0, -2⟩, ⟨10, 2⟩⟩, by simp [sweepPoint], ⟨⟨0, 2⟩, ⟨10, -2⟩⟩, by simp [sweepPoint], ?_,
      ⟨1 / 2, by norm_num, by norm_num, ?_⟩, ⟨1 / 2, by norm_num, by norm_num, ?_⟩⟩⟩,
    fun fuel hf => bentleyOttmann_mono _ _ hf (by decide +kernel) (by simp),
    fun fuel hf => bentleyOttmann_mono _ _ hf (by decide +kernel) (by simp)⟩
  · apply P2.ext <;> norm_num
  · apply P2.ext <;> norm_num
  · rw [parallel_iff_cross (by rw [P2.ne_zero_iff]; norm_num)]; norm_num [cross]
  · apply P2.ext <;> norm_num
  · apply P2.ext <;> norm_num

end Geometrix
