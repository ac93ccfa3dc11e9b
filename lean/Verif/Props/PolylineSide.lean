import Verif.Lemmas.PolylineSide

/-!
# C95: the side of a polyline on which a point is

At its closest point `Q` the polyline comes from the direction `back` and goes on in the direction `out`. The sector
counterclockwise from `out` to `back` is the left side there, the one from `back` to `out` the right side.
-/

set_option linter.unusedSectionVars false

namespace Geometrix

open Spec

variable {K : Type*} [Field K] [LinearOrder K] [IsStrictOrderedRing K]

/-- C95: for a polyline without edges of length zero that does not turn back onto itself, the answer is left exactly when
the point is on the left of the polyline at a closest point of it, and right exactly when it is on the right. The
condition on the start is that if it is a closest point and there is a second edge, then the point is not behind it.

Partial: behind the start the answer may be wrong (`C95_start_refuted`). -/
theorem C95_side_partial (p : P2 K) (pts : List (P2 K)) (h : 2 ≤ pts.length)
    (hne : ∀ i A B, IsEdge pts i A B → A ≠ B)
    (hback : ∀ i A B C, IsEdge pts i A B → pts[i + 2]? = some C → cross (B - A) (C - B) = 0 → 0 < dot (B - A) (C - B))
    (hstart : ∀ A B, IsEdge pts 0 A B → 2 < pts.length → IsClosest (OnPolyline pts) p A → 0 ≤ dot (p - A) (B - A)) :
    ∃ r Q back out, polylineSide Cmp.direct p pts = .ok r ∧ IsClosest (OnPolyline pts) p Q ∧
      PassesThrough pts Q back out ∧ (r = .left ↔ InSector out back (p - Q)) ∧
      (r = .right ↔ InSector back out (p - Q)) :=
  polylineSide_spec p pts h hne hback hstart

example : let pts : List (P2 ℚ) := [⟨0, 0⟩, ⟨2, 0⟩, ⟨2, 2⟩]
    2 ≤ pts.length ∧ (∀ i A B, IsEdge pts i A B → A ≠ B) ∧
    (∀ i A B C, IsEdge pts i A B → pts[i + 2]? = some C → cross (B - A) (C - B) = 0 → 0 < dot (B - A) (C - B)) ∧
    ∀ A B, IsEdge pts 0 A B → 2 < pts.length → IsClosest (OnPolyline pts) ⟨1, 1⟩ A → 0 ≤ dot (⟨1, 1⟩ - A) (B - A) := by
  refine ⟨by decide, ?_, ?_, ?_⟩
  · rintro (_ | _ | _ | i) A B ⟨h1, h2⟩ <;> simp at h1 h2 <;> subst h1 h2 <;> decide
  · rintro (_ | _ | _ | i) A B C ⟨h1, h2⟩ h3 <;> simp at h1 h2 h3 <;> subst h1 h2 h3
    intro h
    exact absurd h (by decide +kernel)
  · rintro A B ⟨h1, h2⟩ - -
    simp at h1 h2
    subst h1 h2
    decide +kernel

/-- C95: a point on the polyline is collinear, also if the polyline turns back onto itself. -/
theorem C95_on (p : P2 K) (pts : List (P2 K)) (hp : OnPolyline pts p) :
    polylineSide Cmp.direct p pts = .ok .collinear :=
  polylineSide_on p pts hp

example : OnPolyline [(⟨0, 0⟩ : P2 ℚ), ⟨2, 0⟩, ⟨2, 2⟩] ⟨2, 1⟩ :=
  ⟨1, ⟨2, 0⟩, ⟨2, 2⟩, ⟨rfl, rfl⟩, 1 / 2, by norm_num, by norm_num, by ext <;> norm_num⟩

/-- C95 refuted: the point (-10,30) is behind the start (0,0) of the polyline, which is its closest point, and on the left of
the first edge; the answer is right, because the second vertex is taken for the closest point. -/
theorem C95_start_refuted :
    let pts : List (P2 ℚ) := [⟨0, 0⟩, ⟨10, 0⟩, ⟨9, 1⟩]
    (match polylineSide Cmp.direct ⟨-10, 30⟩ pts with
      | .ok r => decide (r = .right)
      | _ => false) = true ∧
    IsClosest (OnPolyline pts) ⟨-10, 30⟩ ⟨0, 0⟩ ∧ (∀ X, IsClosest (OnPolyline pts) ⟨-10, 30⟩ X → X = ⟨0, 0⟩) ∧
    PassesThrough pts ⟨0, 0⟩ ⟨-10, 0⟩ ⟨10, 0⟩ ∧ InSector (⟨10, 0⟩ : P2 ℚ) ⟨-10, 0⟩ (⟨-10, 30⟩ - ⟨0, 0⟩) := by
  intro pts
  have hd : ∀ X, OnPolyline pts X → sqDist (⟨-10, 30⟩ : P2 ℚ) ⟨0, 0⟩ ≤ sqDist ⟨-10, 30⟩ X ∧
      (sqDist (⟨-10, 30⟩ : P2 ℚ) ⟨0, 0⟩ = sqDist ⟨-10, 30⟩ X → X = ⟨0, 0⟩) := by
    rintro X ⟨i, A, B, ⟨h1, h2⟩, t, t0, t1, rfl⟩
    rcases i with _ | _ | _ | i <;> simp [pts] at h1 h2 <;> subst h1 h2
    · simp [sqDist, P2.ext_iff]
      constructor
      · nlinarith
      · intro h
        have : t * (t + 2) = 0 := by linarith
        rcases mul_eq_zero.1 this with h | h <;> linarith
    · simp [sqDist, P2.ext_iff]
      constructor
      · nlinarith
      · intro h
        nlinarith
  have h0 : OnPolyline pts ⟨0, 0⟩ := ⟨0, ⟨0, 0⟩, ⟨10, 0⟩, ⟨rfl, rfl⟩, 0, le_rfl, zero_le_one, by ext <;> simp⟩
  refine ⟨by decide +kernel, ⟨h0, fun X hX => (hd X hX).1⟩, fun X hX => (hd X hX.1).2 ?_, ?_, ?_⟩
  · exact le_antisymm (hd X hX.1).1 (hX.2 _ h0)
  · exact ⟨0, ⟨0, 0⟩, ⟨10, 0⟩, ⟨rfl, rfl⟩, Or.inr (Or.inr (Or.inr ⟨rfl, by ext <;> simp, rfl, by ext <;> simp⟩))⟩
  · exact Or.inr (Or.inr (by norm_num [cross]))

end Geometrix
