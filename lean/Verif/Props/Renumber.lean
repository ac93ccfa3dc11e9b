import Verif.Lemmas.Renumber
import Verif.Props.PointInPolygon
import Verif.Props.PolygonSimple
import Verif.Props.PointSequence
import Verif.Props.Distance
import Verif.Props.SegmentPolylineDistance
import Verif.Props.PolylineDistance

/-!
# C153: the answers about a polygon do not depend on its start vertex and direction
-/

set_option linter.unusedSectionVars false

namespace Geometrix

open Spec

variable {K : Type*} [Field K] [LinearOrder K] [IsStrictOrderedRing K]

/-- C153: `point_in_polygon` and `polygon_containment`. -/
theorem C153_inside (eps : K) {l m : List (P2 K)} (h : SameCycle l m) (p : P2 K) :
    pointInPolygon p m = pointInPolygon p l ∧
    (2 < l.length → polygonContainment Cmp.direct eps p m = polygonContainment Cmp.direct eps p l) := by
  have h1 : pointInPolygon p m = pointInPolygon p l := h.induct (pointInPolygon p) (fun l => C38_rotate p l 1) (C38_reverse p)
  refine ⟨h1, fun hl => ?_⟩
  have hl' : 2 < m.length := by rw [h.length]; exact hl
  have hc := sideCount_sameCycle h (fun a b => OnSegment a b p) (fun a b => onSegment_swap a b p)
  obtain ⟨a1, a2, a3⟩ := C38_classify_partial eps p l hl
  obtain ⟨b1, b2, b3⟩ := C38_classify_partial eps p m hl'
  by_cases hp : p ∈ l
  · rw [a1 hp, b1 ((h.mem p).2 hp)]
  · have hp' : p ∉ m := fun k => hp ((h.mem p).1 k)
    by_cases ho : Odd (sideCount l fun a b => OnSegment a b p)
    · rw [a2 hp ho, b2 hp' (hc ▸ ho)]
    · rw [a3 hp ho, b3 hp' (hc ▸ ho), h1]

/-- C153: `get_area` and `get_centroid`; the centroid fails for one order exactly if it fails for the other. -/
theorem C153_area {l m : List (P2 K)} (h : SameCycle l m) : polygonArea m = polygonArea l ∧ centroid m = centroid l := by
  constructor
  · refine h.induct polygonArea (fun l => ?_) (fun l => ?_)
    · rw [polygonArea, C25_rotate, polygonArea]
    · by_cases h0 : l = []
      · subst h0; rfl
      · have ha := C25_area l _ (signedArea_eq l h0) 0
        rw [ha.1, ha.2.1]
  · refine h.induct centroid (fun l => ?_) (fun l => ?_)
    · by_cases h0 : l = []
      · subst h0; rfl
      · have ht := C25_centroid_total l _ (signedArea_eq l h0)
        by_cases hz : cyclicSum cross l / 2 = 0
        · rw [ht.2 hz]
          exact (C25_centroid_total (l.rotate 1) _ (by rw [C25_rotate]; exact signedArea_eq l h0)).2 hz
        · obtain ⟨c, hc⟩ := ht.1 hz
          rw [hc, C25_centroid_rotate l c hc 1]
    · by_cases h0 : l = []
      · subst h0; rfl
      · have hr : l.reverse ≠ [] := by simpa using h0
        have ht := C25_centroid_total l _ (signedArea_eq l h0)
        have hs := C25_reverse l _ (signedArea_eq l h0)
        by_cases hz : cyclicSum cross l / 2 = 0
        · rw [ht.2 hz]
          exact (C25_centroid_total l.reverse _ hs).2 (by rw [hz, neg_zero])
        · have hA : cyclicSum cross l ≠ 0 := fun k => hz (by rw [k, zero_div])
          have e0 : cyclicSum cross l.reverse = -cyclicSum cross l := by
            rw [cyclicSum_reverse, cyclicSum_congr (g := fun A B : P2 K => -cross A B) (by intro A B; simp only [cross]; ring), cyclicSum_neg]
          have e1 : cyclicSum (fun a b : P2 K => cross a b * (a.x + b.x)) l.reverse = -cyclicSum (fun a b : P2 K => cross a b * (a.x + b.x)) l := by
            rw [cyclicSum_reverse, cyclicSum_congr (g := fun a b : P2 K => -(cross a b * (a.x + b.x))) (by intro A B; simp only [cross]; ring), cyclicSum_neg]
          have e2 : cyclicSum (fun a b : P2 K => cross a b * (a.y + b.y)) l.reverse = -cyclicSum (fun a b : P2 K => cross a b * (a.y + b.y)) l := by
            rw [cyclicSum_reverse, cyclicSum_congr (g := fun a b : P2 K => -(cross a b * (a.y + b.y))) (by intro A B; simp only [cross]; ring), cyclicSum_neg]
          rw [centroid_eq l h0 hA, centroid_eq _ hr (by rw [e0]; exact neg_ne_zero.2 hA), e0, e1, e2, mul_neg, neg_div_neg_eq, neg_div_neg_eq]

/-- C153: `is_polygon_simple` and its memoized variant, for polygons without edges of length zero. -/
theorem C153_simple {l m : List (P2 K)} (h : SameCycle l m) (hp : ProperPolygon l) (hn : 3 ≤ l.length) :
    isPolygonSimple Cmp.direct m = isPolygonSimple Cmp.direct l ∧
    isPolygonSimpleMemoized Cmp.direct m = isPolygonSimpleMemoized Cmp.direct l := by
  have hp' := (proper_sameCycle h).2 hp
  have hn' : 3 ≤ m.length := by rw [h.length]; exact hn
  have key : isPolygonSimple Cmp.direct m = isPolygonSimple Cmp.direct l := by
    rcases hn.eq_or_lt with h3 | h3
    · rw [C47_triangle_partial l hp h3.symm, C47_triangle_partial m hp' (by rw [h.length]; exact h3.symm)]
    · obtain ⟨r, r1, r2⟩ := C47_simple_partial l hp h3
      obtain ⟨s, s1, s2⟩ := C47_simple_partial m hp' (by rw [h.length]; exact h3)
      rw [r1, s1, Bool.eq_iff_iff.2 (s2.trans ((simple_sameCycle h).trans r2.symm))]
  exact ⟨key, by rw [C47_memoized_agrees m hp' hn', C47_memoized_agrees l hp hn, key]⟩

/-- C153: distances of points, segments and polygons from the border of a polygon. Missing: `polygon_polygon_distance_sqrd` for two
polygons of six or more vertices, see `C153_distance_refuted`. -/
theorem C153_distance_partial {l m : List (P2 K)} (h : SameCycle l m) (hl : l ≠ []) (p q : P2 K) :
    pointPolygonDistSq p m = pointPolygonDistSq p l ∧
    segPolygonDistSq Cmp.direct p q m = segPolygonDistSq Cmp.direct p q l ∧
    ∀ {l' m' : List (P2 K)}, SameCycle l' m' → l' ≠ [] →
      polygonDistBrute Cmp.direct m m' = polygonDistBrute Cmp.direct l l' ∧
      ((l.length < 6 ∨ l'.length < 6) → ∀ pop, polygonDistSq pop Cmp.direct m m' = polygonDistSq pop Cmp.direct l l') := by
  have hm := h.ne_nil hl
  have hb := onBoundary_sameCycle h
  refine ⟨?_, ?_, fun {l' m'} h' hl' => ?_⟩
  · obtain ⟨d, d1, ⟨x, x1, x2⟩, d3⟩ := C21_polygon_distance p l hl
    obtain ⟨d', e1, ⟨y, y1, y2⟩, e3⟩ := C21_polygon_distance p m hm
    rw [d1, e1, le_antisymm ((e3 x ((hb x).2 x1)).trans x2.le) ((d3 y ((hb y).1 y1)).trans y2.le)]
  · obtain ⟨d, d1, d2⟩ := (C53_distance p q l).2 hl
    obtain ⟨d', e1, e2⟩ := (C53_distance p q m).2 hm
    rw [d1, e1, isMinDist_unique (fun _ => Iff.rfl) hb e2 d2]
  · have hm' := h'.ne_nil hl'
    have hb' := onBoundary_sameCycle h'
    constructor
    · obtain ⟨d, d1, d2⟩ := polygonDistBrute_spec l l' hl hl'
      obtain ⟨d', e1, e2⟩ := polygonDistBrute_spec m m' hm hm'
      rw [d1, e1, isMinDist_unique hb hb' e2 d2]
    · intro hs pop
      obtain ⟨d, d1, d2⟩ := C23_small_partial pop l l' hl hl' hs
      obtain ⟨d', e1, e2⟩ := C23_small_partial pop m m' hm hm' (by rw [h.length, h'.length]; exact hs)
      rw [d1, e1, isMinDist_unique hb hb' e2 d2]

/-- Disagreement: for two polygons of six vertices `polygon_polygon_distance_sqrd` depends on the start vertex of the first one. -/
theorem C153_distance_refuted : ∃ l m l' : List (P2 ℚ), SameCycle l m ∧
    (match polygonDistSq popFirstLeast Cmp.direct l l', polygonDistSq popFirstLeast Cmp.direct m l' with
      | .ok (some d), .ok (some d') => d == 1 && d' == 0
      | _, _ => false) = true :=
  ⟨[⟨0, 0⟩, ⟨-4, 0⟩, ⟨-4, 1⟩, ⟨-4, 2⟩, ⟨-4, 3⟩, ⟨0, 3⟩], [⟨0, 3⟩, ⟨0, 0⟩, ⟨-4, 0⟩, ⟨-4, 1⟩, ⟨-4, 2⟩, ⟨-4, 3⟩],
    [⟨0, 1⟩, ⟨4, 1⟩, ⟨4, 3 / 2⟩, ⟨4, 7 / 4⟩, ⟨4, 15 / 8⟩, ⟨0, 2⟩], ⟨5, Or.inl rfl⟩, by decide +kernel⟩

example : ∃ l m : List (P2 ℚ), SameCycle l m ∧ l ≠ m ∧ l ≠ [] ∧ 3 ≤ l.length ∧ ProperPolygon l := by
  refine ⟨[⟨0, 0⟩, ⟨4, 0⟩, ⟨1, 1⟩, ⟨0, 4⟩], [⟨4, 0⟩, ⟨0, 0⟩, ⟨0, 4⟩, ⟨1, 1⟩], ⟨2, Or.inr rfl⟩, by simp, by simp, by simp, ?_⟩
  rintro (_ | _ | _ | _ | i) A B ⟨h1, h2⟩ <;> simp at h1 h2 <;> subst h1 <;> subst h2 <;> simp

end Geometrix
