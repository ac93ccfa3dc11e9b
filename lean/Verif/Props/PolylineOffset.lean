import Verif.Lemmas.PolylineOffset

/-!
# C97: polylines parallel to a polyline
-/

set_option linter.unusedSectionVars false

namespace Geometrix

open Spec

/-- `polyline_offset`: the result has as many vertices as the polyline, both ends of each of its edges are at the given
distance, on the given side, of the line of the edge of the polyline with the same number, and its ends are straight across
from the ends of the polyline. Wanted: for every polyline without edges of length zero. Missing: this is for polylines that
turn at every inner vertex (see `C97_straight_refuted`). Sides other than left are all taken as right. -/
theorem C97_offset_partial (poly : List (P2 ℝ)) (side : Orient) (d : ℝ) (junk : P2 ℝ) (h : 2 ≤ poly.length)
    (h1 : ∀ i A B, IsEdge poly i A B → A ≠ B)
    (h2 : ∀ i A B C, IsEdge poly i A B → poly[i + 2]? = some C → ¬ Parallel (B - A) (C - B)) :
    ∃ r, polylineOffset Cmp.direct poly side d junk = .ok r ∧ r.length = poly.length ∧
      (∀ i A B P Q, IsEdge poly i A B → IsEdge r i P Q →
        AtOffset (decide (side = .left)) d A B P ∧ AtOffset (decide (side = .left)) d A B Q) ∧
      (∀ A B P, IsEdge poly 0 A B → r[0]? = some P → dot (P - A) (B - A) = 0) ∧
      ∀ i A B Q, IsEdge poly i A B → i + 2 = poly.length → r[i + 1]? = some Q → dot (Q - B) (B - A) = 0 := by
  obtain ⟨r, e, hr⟩ := polylineOffsetImpl_spec (decide (side = .left)) d junk poly h h1 h2
  refine ⟨r, ?_, hr⟩
  rw [← e]
  unfold polylineOffset
  by_cases hs : side = .left <;> simp [hs]

/-- A polyline with a right angle turn meets the hypotheses. -/
example : ∃ r, polylineOffset Cmp.direct [⟨0, 0⟩, ⟨4, 0⟩, ⟨4, 3⟩] .left 1 ⟨0, 0⟩ = .ok r ∧ r.length = 3 := by
  obtain ⟨r, h1, h2, -⟩ := C97_offset_partial [⟨0, 0⟩, ⟨4, 0⟩, ⟨4, 3⟩] .left 1 ⟨0, 0⟩ (by simp)
    (by
      rintro i A B ⟨h1, h2⟩
      rcases i with _ | _ | i <;> simp at h1 h2 <;> subst h1 h2 <;> simp [P2.ext_iff])
    (by
      rintro i A B C ⟨h1, h2⟩ h3
      rcases i with _ | _ | i <;> simp at h1 h2 h3
      subst h1 h2 h3
      rw [parallel_iff_cross (by simp [P2.ext_iff])]
      simp [cross])
  exact ⟨r, h1, h2⟩

/-- Fewer than two points fail the assertion. -/
theorem C97_short (poly : List (P2 ℝ)) (side : Orient) (left : Bool) (d : ℝ) (junk : P2 ℝ) (h : poly.length < 2) :
    polylineOffset Cmp.direct poly side d junk = .error .assertFailed ∧
      untrimmedOffset Cmp.direct left d poly = .error .assertFailed := by
  match poly, h with
  | [], _ => simp [polylineOffset, polylineOffsetImpl, untrimmedOffset]
  | [A], _ => simp [polylineOffset, polylineOffsetImpl, untrimmedOffset]

example : polylineOffset Cmp.direct [⟨1, 2⟩] .left 1 ⟨0, 0⟩ = .error .assertFailed :=
  (C97_short [⟨1, 2⟩] .left true 1 ⟨0, 0⟩ (by simp)).1

/-- At a vertex where the polyline goes straight on, the point pushed is whatever an unset point holds: the result of
`line_line_intersect` is not looked at. -/
theorem C97_straight_refuted (junk : P2 ℝ) :
    polylineOffset Cmp.direct [⟨0, 0⟩, ⟨1, 0⟩, ⟨2, 0⟩] .left 1 junk = .ok [⟨0, 1⟩, junk, ⟨2, 1⟩] ∧
      ∃ j : P2 ℝ, ¬ AtOffset true 1 ⟨0, 0⟩ ⟨1, 0⟩ j := by
  constructor
  · have e1 : offsetEdge true 1 (⟨0, 0⟩ : P2 ℝ) ⟨1, 0⟩ = .ok (⟨0, 1⟩, ⟨1, 1⟩) := by
      norm_num [offsetEdge, normalize2, normSq, dot, offsetNormal, leftNormal, P2.ext_iff]
    have e2 : offsetEdge true 1 (⟨1, 0⟩ : P2 ℝ) ⟨2, 0⟩ = .ok (⟨1, 1⟩, ⟨2, 1⟩) := by
      norm_num [offsetEdge, normalize2, normSq, dot, offsetNormal, leftNormal, P2.ext_iff]
    obtain ⟨r, -, f1, -⟩ := C10_line_line_parallel (⟨0, 1⟩ : P2 ℝ) ⟨1, 1⟩ ⟨1, 1⟩ ⟨2, 1⟩ (by simp [P2.ext_iff])
      (by simp [P2.ext_iff]) (by rw [parallel_iff_cross (by simp [P2.ext_iff])]; simp [cross])
    simp [polylineOffset, polylineOffsetImpl, offsetLoop, e1, e2, f1]
  · exact ⟨⟨0, 0⟩, by simp [AtOffset, area2, sqDist]⟩

/-- `untrimmed_offset`: each edge of the polyline has an edge of the result both ends of which are at the given distance, on
the given side, of its line; all other edges of the result join two points at the distance from a common inner vertex; the
ends of the result are straight across from the ends of the polyline. Wanted: for every polyline without edges of length
zero. Missing: this is for polylines that never turn straight back (see `C97_uturn_refuted`). -/
theorem C97_untrimmed_partial (left : Bool) (d : ℝ) (poly : List (P2 ℝ)) (h : 2 ≤ poly.length)
    (h1 : ∀ i A B, IsEdge poly i A B → A ≠ B)
    (h2 : ∀ i A B C, IsEdge poly i A B → poly[i + 2]? = some C → ¬ ∃ k : ℝ, k < 0 ∧ C - B = k • (B - A)) :
    ∃ r, untrimmedOffset Cmp.direct left d poly = .ok r ∧
      (∀ i A B, IsEdge poly i A B →
        ∃ j X Y, IsEdge r j X Y ∧ AtOffset left d A B X ∧ AtOffset left d A B Y) ∧
      (∀ j X Y, IsEdge r j X Y →
        (∃ i A B, IsEdge poly i A B ∧ AtOffset left d A B X ∧ AtOffset left d A B Y) ∨
        ∃ V ∈ poly.tail.dropLast, sqDist V X = d ^ 2 ∧ sqDist V Y = d ^ 2) ∧
      (∀ A B, IsEdge poly 0 A B → ∃ X, r.head? = some X ∧ AtOffset left d A B X ∧ dot (X - A) (B - A) = 0) ∧
      ∀ i A B, IsEdge poly i A B → i + 2 = poly.length →
        ∃ X, r.getLast? = some X ∧ AtOffset left d A B X ∧ dot (X - B) (B - A) = 0 :=
  untrimmedOffset_spec left d poly h h1 h2

/-- A polyline that goes straight on and then turns meets the hypotheses. -/
example : ∃ r, untrimmedOffset Cmp.direct false 1 [⟨0, 0⟩, ⟨4, 0⟩, ⟨5, 0⟩, ⟨5, 3⟩] = .ok r := by
  obtain ⟨r, h1, -⟩ := C97_untrimmed_partial false 1 [⟨0, 0⟩, ⟨4, 0⟩, ⟨5, 0⟩, ⟨5, 3⟩] (by simp)
    (by
      rintro i A B ⟨h1, h2⟩
      rcases i with _ | _ | _ | i <;> simp at h1 h2 <;> subst h1 h2 <;> simp [P2.ext_iff])
    (by
      rintro i A B C ⟨h1, h2⟩ h3
      rcases i with _ | _ | i <;> simp at h1 h2 h3 <;> subst h1 h2 h3 <;> rintro ⟨k, hk, he⟩ <;>
        have hx := congrArg P2.x he <;> have hy := congrArg P2.y he <;> norm_num at hx hy
      linarith)
  exact ⟨r, h1⟩

/-- `untrimmed_offset` of two edges that make a corner: the edges `PQ` and `RS` at the given distance are cut, or made longer,
to the point `X` where their lines meet if the offset is on the outer side of the corner or both edges go through `X`;
otherwise they are kept as they are and joined by the edge `QR`. -/
theorem C97_corner (left : Bool) (d : ℝ) (A B D : P2 ℝ) (h1 : A ≠ B) (h2 : ¬ Parallel (B - A) (D - B)) :
    ∃ P Q R S X, (AtOffset left d A B P ∧ dot (P - A) (B - A) = 0) ∧ (AtOffset left d A B Q ∧ dot (Q - B) (B - A) = 0) ∧
      (AtOffset left d B D R ∧ dot (R - B) (D - B) = 0) ∧ (AtOffset left d B D S ∧ dot (S - D) (D - B) = 0) ∧
      AtOffset left d A B X ∧ AtOffset left d B D X ∧
      (((if left then d else -d) * area2 A B D < 0 ∨ OnSegment P Q X ∧ OnSegment R S X) →
        untrimmedOffset Cmp.direct left d [A, B, D] = .ok [P, X, S]) ∧
      (¬ ((if left then d else -d) * area2 A B D < 0 ∨ OnSegment P Q X ∧ OnSegment R S X) →
        untrimmedOffset Cmp.direct left d [A, B, D] = .ok [P, Q, R, S]) := by
  have h3 : B ≠ D := by
    rintro rfl
    apply h2
    rw [parallel_iff_cross (sub_ne_zero_P2 h1)]
    simp [cross]
  obtain ⟨n, e1, e2, -, e3⟩ := offsetEdge_spec (left := left) (d := d) h1
  obtain ⟨m, g1, g2, -, g3⟩ := offsetEdge_spec (left := left) (d := d) h3
  obtain ⟨X, x1, x2, x3, x4⟩ := untrimmedPush_corner h1 h3 h2 e3 e2 g3 g2
  have hs : ∀ V k : P2 ℝ, V + k - V = k := fun V k => by ext <;> simp
  refine ⟨A + n, B + n, B + m, D + m, X, ⟨(atOffset_end e3).1, by rw [hs, e2]⟩, ⟨(atOffset_end e3).2, by rw [hs, e2]⟩,
    ⟨(atOffset_end g3).1, by rw [hs, g2]⟩, ⟨(atOffset_end g3).2, by rw [hs, g2]⟩, x1, x2, fun h => ?_, fun h => ?_⟩
  · simp only [untrimmedOffset, untrimmedLoop, e1, g1, x3 h, List.cons_append, List.nil_append]
  · simp only [untrimmedOffset, untrimmedLoop, e1, g1, x4 h, List.cons_append, List.nil_append]

/-- A right angle, the offset outside. -/
example : ∃ P X S, untrimmedOffset Cmp.direct false 1 [⟨0, 0⟩, ⟨4, 0⟩, ⟨4, 3⟩] = .ok [P, X, S] := by
  obtain ⟨P, Q, R, S, X, -, -, -, -, -, -, h, -⟩ := C97_corner false 1 ⟨0, 0⟩ ⟨4, 0⟩ ⟨4, 3⟩ (by simp [P2.ext_iff])
    (by rw [parallel_iff_cross (by simp [P2.ext_iff])]; simp [cross])
  exact ⟨P, X, S, h (Or.inl (by simp [area2]))⟩

/-- Where the polyline turns straight back nothing is pushed: the result of a way there and back is one edge, across the
polyline, and neither edge of the polyline has an edge at its distance. -/
theorem C97_uturn_refuted :
    untrimmedOffset Cmp.direct true 1 [⟨0, 0⟩, ⟨1, 0⟩, ⟨0, 0⟩] = .ok [⟨0, 1⟩, ⟨0, -1⟩] ∧
      OnSegment (⟨0, 1⟩ : P2 ℝ) ⟨0, -1⟩ ⟨0, 0⟩ ∧ ¬ AtOffset true 1 (⟨0, 0⟩ : P2 ℝ) ⟨1, 0⟩ ⟨0, -1⟩ := by
  refine ⟨?_, ⟨1 / 2, by norm_num, by norm_num, by ext <;> norm_num⟩, by norm_num [AtOffset, area2, sqDist]⟩
  have e1 : offsetEdge true 1 (⟨0, 0⟩ : P2 ℝ) ⟨1, 0⟩ = .ok (⟨0, 1⟩, ⟨1, 1⟩) := by
    norm_num [offsetEdge, normalize2, normSq, dot, offsetNormal, leftNormal, P2.ext_iff]
  have e2 : offsetEdge true 1 (⟨1, 0⟩ : P2 ℝ) ⟨0, 0⟩ = .ok (⟨1, -1⟩, ⟨0, -1⟩) := by
    norm_num [offsetEdge, normalize2, normSq, dot, offsetNormal, leftNormal, P2.ext_iff]
  obtain ⟨r, f1, -, f2, -, f3⟩ := C10_line_line_parallel (⟨0, 1⟩ : P2 ℝ) ⟨1, 1⟩ ⟨1, -1⟩ ⟨0, -1⟩ (by simp [P2.ext_iff])
    (by simp [P2.ext_iff]) (by rw [parallel_iff_cross (by simp [P2.ext_iff])]; simp [cross])
  have hr : r = .nonCrossing := by
    rw [f3]
    rintro ⟨Q, ⟨s, rfl⟩, ⟨t, ht⟩⟩
    have := congrArg P2.y ht
    norm_num at this
  subst hr
  have e3 : untrimmedPush Cmp.direct (⟨0, 1⟩ : P2 ℝ) ⟨1, 1⟩ ⟨1, -1⟩ ⟨0, -1⟩ = .ok [] := by
    simp only [untrimmedPush, f1]
  simp [untrimmedOffset, untrimmedLoop, e1, e2, e3]

end Geometrix
