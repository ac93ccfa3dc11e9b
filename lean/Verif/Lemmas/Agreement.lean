import Verif.Props.SegmentIntersection
import Verif.Props.Distance
import Verif.Props.Between
import Verif.Props.PointInPolygon
import Verif.Props.ConvexParity
import Verif.Props.NodeBsp
import Verif.Props.SolidBsp
import Verif.Props.SegmentPolylineDistance
import Verif.Props.PolylineIntersection
import Verif.Props.SegmentPolygon
import Verif.Props.SphereHits
import Verif.Props.Box
import Verif.Props.BoxDistance
import Verif.Lemmas.ConvexBorder

/-!
# Lemmas for C148
-/

set_option linter.unusedSectionVars false

namespace Geometrix

open Spec

variable {K : Type*} [Field K] [LinearOrder K] [IsStrictOrderedRing K]

theorem sqDist_zero_iff (P Q : P2 K) : sqDist P Q = 0 ↔ P = Q := by
  rw [← dot_self_sub, dot_self_eq_zero, sub_eq_zero_P2]; exact eq_comm

theorem minOver_zero {S : P2 K → Prop} {p : P2 K} {d : K} (h : IsMinOver S (sqDist p) d) : d = 0 ↔ S p := by
  obtain ⟨⟨c, hc, hcd⟩, hmin⟩ := h
  constructor
  · rintro rfl
    rwa [(sqDist_zero_iff p c).1 hcd]
  · intro hp
    have h1 := hmin p hp
    rw [(sqDist_zero_iff p p).2 rfl] at h1
    have h2 : 0 ≤ sqDist p c := by unfold sqDist; positivity
    linarith

theorem minDist_zero {S T : P2 K → Prop} {d : K} (h : IsMinDist S T d) : d = 0 ↔ ∃ P, S P ∧ T P := by
  obtain ⟨⟨⟨P, Q⟩, ⟨hP, hQ⟩, hcd⟩, hmin⟩ := h
  simp only at hP hQ hcd
  constructor
  · rintro rfl
    rw [← (sqDist_zero_iff P Q).1 hcd] at hQ
    exact ⟨P, hP, hQ⟩
  · rintro ⟨R, hR, hR'⟩
    have h1 := hmin (R, R) ⟨hR, hR'⟩
    simp only at h1
    rw [(sqDist_zero_iff R R).2 rfl] at h1
    have h2 : 0 ≤ sqDist P Q := by unfold sqDist; positivity
    linarith

/-- The border of a strictly convex polygon is met by each of its points on the lines of its own sides only. -/
theorem onlyOwnLines_convex {poly : List (P2 K)} (hn : 2 < poly.length) (hc : StrictlyConvex poly) {p : P2 K}
    (hp : OnBoundary poly p) : OnlyOwnLines (sides poly) p := by
  intro s hs h0
  obtain ⟨i, hi⟩ := (mem_sides_iff poly s).1 hs
  exact on_side_of_inside hn hc hi (inside_boundary hc hp) h0

end Geometrix
