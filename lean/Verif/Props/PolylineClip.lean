import Verif.Lemmas.PolylineClip

/-!
# C71: clipping the ends of a polyline
-/

set_option linter.unusedSectionVars false

namespace Geometrix

open Spec

/-- Clipping less than the length from the front: the polyline is cut in two, the first part has the length `l`, and the
result is the second part. -/
theorem C71_front (poly : List (P2 ℝ)) (l : ℝ) (h0 : 0 ≤ l) (h1 : l < chainSum Spec.dist poly) :
    ∃ a b, clipFront Cmp.direct poly l = .ok b ∧ IsCut poly a b ∧ chainSum Spec.dist a = l ∧
      chainSum Spec.dist b = chainSum Spec.dist poly - l :=
  clipFront_spec poly l h0 h1

/-- Clipping less than the length from the back: the result is the first part, the second has the length `l`. -/
theorem C71_back (poly : List (P2 ℝ)) (l : ℝ) (h0 : 0 ≤ l) (h1 : l < chainSum Spec.dist poly) :
    ∃ a b, clipBack Cmp.direct poly l = .ok a ∧ IsCut poly a b ∧ chainSum Spec.dist b = l ∧
      chainSum Spec.dist a = chainSum Spec.dist poly - l :=
  clipBack_spec poly l h0 h1

/-- Clipping both ends of a polyline that is longer than twice the length to clip: the result is the middle of three
parts, and the outer parts have the length `l`. -/
theorem C71_ends (poly : List (P2 ℝ)) (l : ℝ) (h0 : 0 ≤ l) (h1 : 2 * l < chainSum Spec.dist poly) :
    ∃ a m b rest, clipEnds Cmp.direct poly l = .ok m ∧ IsCut poly a rest ∧ IsCut rest m b ∧
      chainSum Spec.dist a = l ∧ chainSum Spec.dist b = l ∧
      chainSum Spec.dist m = chainSum Spec.dist poly - 2 * l := by
  obtain ⟨a, rest, e1, c1, ha, hrest⟩ := clipFront_spec poly l h0 (by linarith)
  obtain ⟨m, b, e2, c2, hb, hm⟩ := clipBack_spec rest l h0 (by linarith)
  refine ⟨a, m, b, rest, ?_, c1, c2, ha, hb, by linarith⟩
  rw [clipEnds, e1]
  exact e2

/-- The hypotheses hold for an L shape. -/
example : (0 : ℝ) ≤ 1 / 2 ∧ 2 * (1 / 2 : ℝ) < chainSum Spec.dist [(⟨0, 0⟩ : P2 ℝ), ⟨2, 0⟩, ⟨2, 1⟩] := by
  refine ⟨by norm_num, ?_⟩
  rw [chainSum_cons, chainSum_cons, chainSum_single]
  have h : Spec.dist (⟨0, 0⟩ : P2 ℝ) ⟨2, 0⟩ = 2 := by
    rw [Spec.dist, show ((2 : ℝ) - 0) ^ 2 + (0 - 0) ^ 2 = 2 ^ 2 by norm_num, Real.sqrt_sq (by norm_num)]
  have := dist_nonneg' (⟨2, 0⟩ : P2 ℝ) ⟨2, 1⟩
  linarith

/-- Clipping more than the length leaves nothing, from the front, from the back and from both ends. -/
theorem C71_long (poly : List (P2 ℝ)) (l : ℝ) (h : chainSum Spec.dist poly < l) :
    clipFront Cmp.direct poly l = .ok [] ∧ clipBack Cmp.direct poly l = .ok [] ∧
      clipEnds Cmp.direct poly l = .ok [] := by
  have hf := clipFront_long poly l h
  have hb : ∀ p : List (P2 ℝ), chainSum Spec.dist p < l → clipBack Cmp.direct p l = .ok [] := by
    intro p hp
    rw [clipBack, clipFront_long p.reverse l (by rwa [chainSum_dist_reverse])]
    rfl
  refine ⟨hf, hb poly h, ?_⟩
  rw [clipEnds, hf]
  exact hb [] (by rw [chainSum_nil]; exact lt_of_le_of_lt (chainSum_nonneg poly) h)

/-- Clipping exactly the length leaves a part of length zero (nothing, or the last vertex if it is repeated). -/
theorem C71_all (poly : List (P2 ℝ)) : ∃ b, clipFront Cmp.direct poly (chainSum Spec.dist poly) = .ok b ∧
    b <:+ poly ∧ chainSum Spec.dist b = 0 :=
  clipFront_all poly _ rfl

/-- Both ends together are at least as long as the polyline: a part of length zero is left. -/
theorem C71_ends_long (poly : List (P2 ℝ)) (l : ℝ) (h0 : 0 ≤ l) (h1 : chainSum Spec.dist poly ≤ 2 * l) :
    ∃ m, clipEnds Cmp.direct poly l = .ok m ∧ chainSum Spec.dist m = 0 := by
  have hb : ∀ p : List (P2 ℝ), chainSum Spec.dist p ≤ l →
      ∃ m, clipBack Cmp.direct p l = .ok m ∧ chainSum Spec.dist m = 0 := by
    intro p hp
    rcases hp.lt_or_eq with hp | hp
    · exact ⟨[], (C71_long p l hp).2.1, rfl⟩
    · obtain ⟨b, e, -, hz⟩ := clipFront_all p.reverse l (by rwa [chainSum_dist_reverse])
      exact ⟨b.reverse, by rw [clipBack, e], by rw [chainSum_dist_reverse, hz]⟩
  rcases lt_trichotomy l (chainSum Spec.dist poly) with h | h | h
  · obtain ⟨a, rest, e1, c1, ha, hrest⟩ := clipFront_spec poly l h0 h
    rw [clipEnds, e1]
    exact hb rest (by linarith)
  · obtain ⟨b, e, -, hz⟩ := clipFront_all poly l h.symm
    rw [clipEnds, e]
    exact hb b (by rw [hz]; exact h0)
  · exact ⟨[], (C71_long poly l h).2.2, rfl⟩

end Geometrix
