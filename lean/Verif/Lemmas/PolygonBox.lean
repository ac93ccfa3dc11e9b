import Verif.Model.PolygonIntersection
import Verif.Spec.PolygonContainment
import Verif.Lemmas.PolygonContainment
import Verif.Props.BoxIntersection

/-!
# Polygons and polylines with boxes
-/

set_option linter.unusedSectionVars false

namespace Geometrix

open Spec

variable {K : Type*} [Field K] [LinearOrder K] [IsStrictOrderedRing K]

theorem polylineAabb_iff (eps : K) (b : Box K) : ∀ pts : List (P2 K), polylineAabb eps b pts = true ↔
    ∃ i A B, IsEdge pts i A B ∧ segmentAabb eps A B b = true
  | [] => by simp [polylineAabb, IsEdge]
  | [p] => by simp [polylineAabb, IsEdge]
  | p :: q :: rest => by
    have ih := polylineAabb_iff eps b (q :: rest)
    rw [polylineAabb]
    split_ifs with h
    · simp only [true_iff]
      exact ⟨0, p, q, ⟨rfl, rfl⟩, h⟩
    · rw [ih]
      constructor
      · rintro ⟨i, A, B, h1, h2⟩
        exact ⟨i + 1, A, B, ⟨by simpa using h1.1, by simpa using h1.2⟩, h2⟩
      · rintro ⟨i, A, B, ⟨h1, h2⟩, h3⟩
        cases i with
        | zero =>
          simp only [List.getElem?_cons_zero, List.getElem?_cons_succ, Option.some.injEq, Nat.zero_add] at h1 h2
          subst h1; subst h2
          exact absurd h3 h
        | succ i => exact ⟨i, A, B, ⟨by simpa using h1, by simpa using h2⟩, h3⟩

theorem polygonAabbLoop_eq (eps : K) (b : Box K) (poly : List (P2 K)) (k i : Nat)
    (hk : i + k = poly.length) : ∃ r, polygonAabbLoop eps b poly k i ((i + 1) % poly.length) = .ok r ∧
      (r = true ↔ ∃ l A B, i ≤ l ∧ IsPolygonEdge poly l A B ∧ segmentAabb eps A B b = true) := by
  induction k generalizing i with
  | zero =>
    refine ⟨false, rfl, ?_⟩
    simp only [Bool.false_eq_true, false_iff]
    rintro ⟨l, A, B, hl, ⟨h1, -⟩, -⟩
    rw [List.getElem?_eq_none (by omega)] at h1
    simp at h1
  | succ k ih =>
    have hi : i < poly.length := by omega
    have hj : (i + 1) % poly.length < poly.length := Nat.mod_lt _ (by omega)
    rw [polygonAabbLoop, List.getElem?_eq_getElem hi, List.getElem?_eq_getElem hj]
    dsimp only
    by_cases h : segmentAabb eps poly[i] poly[(i + 1) % poly.length] b = true
    · rw [if_pos h]
      exact ⟨true, rfl, by
        simp only [true_iff]
        exact ⟨i, _, _, le_rfl, ⟨List.getElem?_eq_getElem hi, List.getElem?_eq_getElem hj⟩, h⟩⟩
    · rw [if_neg h]
      have hjj : ((i + 1) % poly.length + 1) % poly.length = (i + 1 + 1) % poly.length := by
        rw [Nat.mod_add_mod]
      rw [hjj]
      obtain ⟨r, h1, h2⟩ := ih (i + 1) (by omega)
      refine ⟨r, h1, h2.trans ⟨?_, ?_⟩⟩
      · rintro ⟨l, A, B, hl, h3⟩
        exact ⟨l, A, B, by omega, h3⟩
      · rintro ⟨l, A, B, hl, h3, h4⟩
        rcases Nat.eq_or_lt_of_le hl with rfl | hlt
        · obtain ⟨h5, h6⟩ := h3
          rw [List.getElem?_eq_getElem hi] at h5
          rw [List.getElem?_eq_getElem hj] at h6
          cases h5; cases h6
          exact absurd h4 h
        · exact ⟨l, A, B, hlt, h3, h4⟩

/-- The four corners of a box. -/
theorem box_segment {b : Box K} {P Q X : P2 K} (hP : InBox b P) (hQ : InBox b Q) (hX : OnSegment P Q X) :
    InBox b X := by
  obtain ⟨t, t0, t1, rfl⟩ := hX
  obtain ⟨a1, a2, a3, a4⟩ := hP
  obtain ⟨c1, c2, c3, c4⟩ := hQ
  refine ⟨?_, ?_, ?_, ?_⟩ <;> simp only [P2.add_x, P2.add_y, P2.smul_x, P2.smul_y, P2.sub_x, P2.sub_y] <;> nlinarith

/-- The corners that the function looks at are in the box. -/
theorem corners_inBox {b : Box K} (hb : ValidBox b) : InBox b b.lo ∧ InBox b ⟨b.hi.x, b.lo.y⟩ ∧ InBox b b.hi ∧
    InBox b ⟨b.lo.x, b.hi.y⟩ := by
  obtain ⟨h1, h2⟩ := hb
  refine ⟨⟨le_rfl, h1, le_rfl, h2⟩, ⟨h1, le_rfl, le_rfl, h2⟩, ⟨h1, le_rfl, h2, le_rfl⟩, ⟨le_rfl, h1, h2, le_rfl⟩⟩

/-- The result for a polygon, in terms of the segment test. -/
theorem polygonAabb_eq (eps : K) (poly : List (P2 K)) (b : Box K) (hn : poly.length ≠ 1) :
    ∃ r, polygonAabb eps poly b = .ok r ∧
      (r = true ↔ (∃ c ∈ [b.lo, ⟨b.hi.x, b.lo.y⟩, b.hi, ⟨b.lo.x, b.hi.y⟩], pointInPolygon c poly = true) ∨
        ∃ l A B, IsPolygonEdge poly l A B ∧ segmentAabb eps A B b = true) := by
  unfold polygonAabb
  by_cases h : (pointInPolygon b.lo poly || pointInPolygon ⟨b.hi.x, b.lo.y⟩ poly || pointInPolygon b.hi poly ||
      pointInPolygon ⟨b.lo.x, b.hi.y⟩ poly) = true
  · rw [if_pos h]
    refine ⟨true, rfl, ?_⟩
    simp only [true_iff]
    left
    simp only [Bool.or_eq_true] at h
    simp only [List.mem_cons, List.not_mem_nil, or_false]
    rcases h with ((h | h) | h) | h
    · exact ⟨_, Or.inl rfl, h⟩
    · exact ⟨_, Or.inr (Or.inl rfl), h⟩
    · exact ⟨_, Or.inr (Or.inr (Or.inl rfl)), h⟩
    · exact ⟨_, Or.inr (Or.inr (Or.inr rfl)), h⟩
  · rw [if_neg h]
    have hno : ¬ ∃ c ∈ [b.lo, ⟨b.hi.x, b.lo.y⟩, b.hi, ⟨b.lo.x, b.hi.y⟩], pointInPolygon c poly = true := by
      rintro ⟨c, hc, hp⟩
      simp only [List.mem_cons, List.not_mem_nil, or_false] at hc
      apply h
      rcases hc with rfl | rfl | rfl | rfl <;> simp [hp]
    rcases Nat.eq_zero_or_pos poly.length with h0 | h0
    · refine ⟨false, by rw [h0]; rfl, ?_⟩
      simp only [Bool.false_eq_true, false_iff]
      rintro (h' | ⟨l, A, B, ⟨h1, -⟩, -⟩)
      · exact hno h'
      · rw [List.getElem?_eq_none (by omega)] at h1; simp at h1
    · have h1 : 1 = (0 + 1) % poly.length := (Nat.mod_eq_of_lt (by omega)).symm
      obtain ⟨r, h2, h3⟩ := polygonAabbLoop_eq eps b poly poly.length 0 (by omega)
      rw [← h1] at h2
      refine ⟨r, h2, h3.trans ⟨?_, ?_⟩⟩
      · rintro ⟨l, A, B, -, h4⟩
        exact Or.inr ⟨l, A, B, h4⟩
      · rintro (h' | ⟨l, A, B, h4⟩)
        · exact absurd h' hno
        · exact ⟨l, A, B, by omega, h4⟩

/-- If no point of the border is in the box, the points of the box agree. -/
theorem box_const {poly : List (P2 K)} {b : Box K} (h : ¬ ∃ X, OnBoundary poly X ∧ InBox b X) {P Q : P2 K}
    (hP : InBox b P) (hQ : InBox b Q) : InClosed poly P ↔ InClosed poly Q :=
  closed_const fun X hX hb => h ⟨X, hb, box_segment hP hQ hX⟩

theorem inClosed_off {poly : List (P2 K)} {P : P2 K} (h : ¬ OnBoundary poly P) :
    InClosed poly P ↔ pointInPolygon P poly = true := by
  unfold InClosed
  rw [pointInPolygon_iff]
  simp [h]

theorem inClosed_pip {poly : List (P2 K)} {P : P2 K} (h : pointInPolygon P poly = true) : InClosed poly P :=
  Or.inr ((pointInPolygon_iff P poly).1 h)

end Geometrix
