import Verif.Lemmas.Subsequence

/-!
# C76: the part of the border of a polygon near a point
-/

set_option linter.unusedSectionVars false

namespace Geometrix

open Spec

variable {K : Type*} [Field K] [LinearOrder K] [IsStrictOrderedRing K]

/-- C76, `find_containing_polygon_border_segment`: the first side that contains the point, none if it is not on the
border. -/
theorem C76_containing (P : List (P2 K)) (p : P2 K) (hP : ProperPolygon P) (hl : P.length ≠ 1) :
    ∃ r, findContaining Cmp.direct P p = .ok r ∧ (r = none ↔ ¬ OnBoundary P p) ∧
      ∀ i, r = some i ↔ FirstSide P p i := by
  have h := containingLoop_spec hP p P.length 0 (by omega) (by simp)
  by_cases h0 : P.length = 0
  · rw [h0] at h
    rw [findContaining, h0]
    exact h
  · rw [start_mod hl h0] at h
    exact h

/-- C76, `find_closest_polygon_border_segment`: the first of the closest sides; only the empty polygon has none. -/
theorem C76_closest (P : List (P2 K)) (p : P2 K) (hl : P.length ≠ 1) :
    ∃ r, findClosest P p = .ok r ∧ (r = none ↔ P = []) ∧ ∀ i, r = some i ↔ FirstClosestSide P p i := by
  have h : ∃ r, closestLoop P p P.length 0 1 none = .ok r ∧ BestBefore P p P.length r := by
    have h := closestLoop_spec (P := P) p P.length 0 (by omega) none rfl
    by_cases h0 : P.length = 0
    · rw [h0] at h ⊢
      exact h
    · rw [start_mod hl h0] at h
      exact h
  obtain ⟨r, h1, h2⟩ := h
  refine ⟨_, by rw [findClosest, h1], ?_⟩
  exact bestBefore_end h2

/-- C76, `find_containing_or_closest_polygon_border_segment`: the first side that contains the point if there is one,
else the first of the closest sides. -/
theorem C76_containing_or_closest (P : List (P2 K)) (p : P2 K) (hP : ProperPolygon P) (hl : P.length ≠ 1) :
    ∃ r, findContainingOrClosest Cmp.direct P p = .ok r ∧
      (OnBoundary P p → ∀ i, r = some i ↔ FirstSide P p i) ∧
      (¬ OnBoundary P p → (r = none ↔ P = []) ∧ ∀ i, r = some i ↔ FirstClosestSide P p i) := by
  have h := containingOrClosestLoop_spec hP p P.length 0 (by omega) none rfl (by simp)
  by_cases h0 : P.length = 0
  · rw [h0] at h
    rw [findContainingOrClosest, h0]
    exact h
  · rw [start_mod hl h0] at h
    exact h

example : ProperPolygon [⟨0, 0⟩, ⟨2, 0⟩, (⟨1, 1⟩ : P2 ℚ)] := by
  rintro (_ | _ | _ | i) A B ⟨h1, h2⟩ <;> simp at h1 h2
  all_goals subst h1; subst h2; decide +kernel

example : let P : List (P2 ℚ) := [⟨0, 0⟩, ⟨2, 0⟩, ⟨1, 1⟩]
    findContaining Cmp.direct P ⟨3/2, 1/2⟩ = .ok (some 1) ∧ findContaining Cmp.direct P ⟨1, 2⟩ = .ok none ∧
      findClosest P ⟨1, 2⟩ = .ok (some 1) ∧ findContainingOrClosest Cmp.direct P ⟨0, 1⟩ = .ok (some 2) := by
  decide +kernel

/-- C76: a polygon with one vertex is read beyond its end. -/
theorem C76_single (cmp : Cmp K) (q p : P2 K) : findContaining cmp [q] p = .error .outOfRange ∧
    findClosest [q] p = .error .outOfRange ∧ findContainingOrClosest cmp [q] p = .error .outOfRange :=
  ⟨rfl, rfl, rfl⟩

/-- C76, `polygon_subsequence_half`: the walk from the given point along the border for the length `extent`. It starts
at the point, has that length and runs through exactly the points that are reached within it. -/
theorem C76_half (P : List (P2 ℝ)) (p : P2 ℝ) (extent : ℝ) (he : 0 < extent) (startIndex : Nat)
    (hne : ∃ A ∈ P, ∃ B ∈ P, A ≠ B) (inc : Nat → Nat → Nat) (hinc : inc = incCw ∨ inc = incCcw) :
    ∃ N L, (∀ fuel, N ≤ fuel → subsequenceHalf fuel P inc p extent startIndex = .ok L) ∧ L.head? = some p ∧
      chainSum Spec.dist L = extent ∧
      ∀ X, OnPolyline L X ↔ ∃ d ≤ extent, Ahead P (inc P.length) (inc P.length startIndex) p d X := by
  have hn : 0 < P.length := by
    obtain ⟨A, hA, -⟩ := hne
    exact List.length_pos_of_mem hA
  have hlt : ∀ j, inc P.length j < P.length := by
    rcases hinc with rfl | rfl
    · exact fun j => incCw_lt j hn
    · exact fun j => incCcw_lt j hn
  have hB : P[inc P.length startIndex]? = some (P[inc P.length startIndex]'(hlt _)) := List.getElem?_eq_getElem _
  obtain ⟨m, hm⟩ : ∃ m, extent ≤ walkLength P (inc P.length) (inc P.length startIndex) m := by
    rcases hinc with rfl | rfl
    · exact cw_large (hlt _) hne extent
    · exact ccw_large (hlt _) hne extent
  obtain ⟨L, h1, h2⟩ := halfLoop_walk (fun j _ => hlt j) m _ p _ hB extent he.le
    (by have := dist_nonneg' p (P[inc P.length startIndex]'(hlt _)); linarith)
  refine ⟨m + 2, p :: L, fun fuel hf => ?_, rfl, h1.length, fun X => ?_⟩
  · rw [subsequenceHalf, if_neg (by omega), h2 fuel hf]
  · obtain ⟨b, l, rfl, -⟩ := h1.nonempty he
    rw [← onChain_iff, h1.points]

/-- C76, `polygon_subsequence` for a point on the border and a positive length: the result has twice that length and
runs through exactly the points of the border that are reached from the point within that length, one way or the
other. -/
theorem C76_subsequence (P : List (P2 ℝ)) (p : P2 ℝ) (extent : ℝ) (he : 0 < extent) (hl : P.length ≠ 1)
    (hP : ProperPolygon P) (hp : OnBoundary P p) :
    ∃ N L i, FirstSide P p i ∧ (∀ fuel, N ≤ fuel → polygonSubsequence fuel Cmp.direct P p extent = .ok L) ∧
      chainSum Spec.dist L = 2 * extent ∧
      ∀ X, OnPolyline L X ↔ ∃ d ≤ extent,
        Ahead P (fun j => (j + 1) % P.length) ((i + 1) % P.length) p d X ∨
          Ahead P (fun j => (j + P.length - 1) % P.length) i p d X := by
  obtain ⟨r, hr, h1, -⟩ := C76_containing_or_closest P p hP hl
  obtain ⟨i0, A0, B0, e0, -⟩ := id hp
  obtain ⟨i, hi⟩ : ∃ i, r = some i := by
    obtain ⟨r', -, k1, k2⟩ := C76_containing P p hP hl
    cases r' with
    | none => exact absurd hp (k1.1 rfl)
    | some i => exact ⟨i, (h1 hp i).2 ((k2 i).1 rfl)⟩
  have hfirst := (h1 hp i).1 hi
  obtain ⟨⟨A, B, hAB, hpAB⟩, -⟩ := id hfirst
  have hil := polyEdge_lt hAB
  have hne : ∃ A ∈ P, ∃ B ∈ P, A ≠ B :=
    ⟨A, List.mem_of_getElem? hAB.1, B, List.mem_of_getElem? hAB.2, hP i A B hAB⟩
  have hn : 0 < P.length := by omega
  have hcw : incCw P.length (i + 1) = i := by
    rw [incCw, show i + 1 + P.length - 1 = i + P.length by omega, Nat.add_mod_right, Nat.mod_eq_of_lt hil]
  obtain ⟨m1, hm1⟩ := cw_large hil hne extent
  obtain ⟨m2, hm2⟩ := ccw_large (incCcw_lt i hn) hne extent
  obtain ⟨L1, w1, f1⟩ := halfLoop_walk (fun j _ => incCw_lt j hn) m1 i p A hAB.1 extent he.le
    (by have := dist_nonneg' p A; linarith)
  obtain ⟨L2, w2, f2⟩ := halfLoop_walk (fun j _ => incCcw_lt j hn) m2 (incCcw P.length i) p B hAB.2 extent he.le
    (by have := dist_nonneg' p B; linarith)
  obtain ⟨a, l1, rfl, A', hA', ha⟩ := w1.nonempty he
  obtain ⟨b, l2, rfl, B', hB', hb⟩ := w2.nonempty he
  obtain rfl : A = A' := Option.some.inj (hAB.1.symm.trans hA')
  obtain rfl : B = B' := Option.some.inj (hAB.2.symm.trans hB')
  have hpab : OnSegment a b p := by
    obtain ⟨u, u0, u1, hu⟩ := hpAB
    obtain ⟨s, s0, s1, hs⟩ := ha
    obtain ⟨t, t0, t1, ht⟩ := hb
    have ea : a = p + (-(s * u)) • (B - A) := by
      rw [hs, hu]; ext <;> simp <;> ring
    have eb : b = p + (t * (1 - u)) • (B - A) := by
      rw [ht, hu]; ext <;> simp <;> ring
    have x0 : 0 ≤ s * u := by positivity
    have y0 : 0 ≤ t * (1 - u) := mul_nonneg t0 (by linarith)
    generalize s * u = x at *
    generalize t * (1 - u) = y at *
    rcases (add_nonneg x0 y0).eq_or_lt with h | h
    · obtain rfl : x = 0 := by linarith
      obtain rfl : y = 0 := by linarith
      refine ⟨0, le_rfl, zero_le_one, ?_⟩
      rw [ea]; ext <;> simp
    · refine ⟨x / (x + y), by positivity, (div_le_one h).2 (by linarith), ?_⟩
      have := h.ne'
      rw [ea, eb]
      ext <;> simp <;> field_simp <;> ring
  obtain ⟨j1, j2⟩ := join_halves hpab l1 l2
  refine ⟨max (m1 + 2) (m2 + 2), (a :: l1).reverse ++ b :: l2, i, hfirst, fun fuel hf => ?_, ?_, fun X => ?_⟩
  · rw [polygonSubsequence, hr, hi]
    dsimp only
    rw [subsequenceHalf, if_neg (by omega), hcw, f1 fuel (le_trans (le_max_left _ _) hf)]
    dsimp only
    rw [subsequenceHalf, if_neg (by omega), f2 fuel (le_trans (le_max_right _ _) hf)]
    dsimp only
    congr 1
    simp [List.take_append]
  · rw [j1, w1.length, w2.length]; ring
  · rw [j2, ← onChain_iff, ← onChain_iff, w1.points, w2.points]
    constructor
    · rintro (⟨d, hd, h⟩ | ⟨d, hd, h⟩)
      · exact ⟨d, hd, Or.inr h⟩
      · exact ⟨d, hd, Or.inl h⟩
    · rintro ⟨d, hd, h | h⟩
      · exact Or.inr ⟨d, hd, h⟩
      · exact Or.inl ⟨d, hd, h⟩

/-- The hypotheses for the middle of a side. -/
example : OnBoundary [⟨0, 0⟩, ⟨2, 0⟩, (⟨1, 1⟩ : P2 ℝ)] ⟨1, 0⟩ :=
  ⟨0, ⟨0, 0⟩, ⟨2, 0⟩, ⟨rfl, rfl⟩, 1 / 2, by norm_num, by norm_num, by ext <;> norm_num⟩

/-- C76: without a positive length the result is empty, also when the point is on the border. -/
theorem C76_nothing (fuel : Nat) (P : List (P2 ℝ)) (p : P2 ℝ) (extent : ℝ) (he : extent ≤ 0) (hl : P.length ≠ 1)
    (hP : ProperPolygon P) (h0 : P ≠ []) : polygonSubsequence (fuel + 1) Cmp.direct P p extent = .ok [] := by
  obtain ⟨r, hr, h1, h2⟩ := C76_containing_or_closest P p hP hl
  have hn : P.length ≠ 0 := fun h => h0 (List.eq_nil_of_length_eq_zero h)
  obtain ⟨i, hi⟩ : ∃ i, r = some i := by
    by_cases hb : OnBoundary P p
    · obtain ⟨r', -, k1, k2⟩ := C76_containing P p hP hl
      cases r' with
      | none => exact absurd hb (k1.1 rfl)
      | some i => exact ⟨i, (h1 hb i).2 ((k2 i).1 rfl)⟩
    · cases r with
      | none => exact absurd ((h2 hb).1.1 rfl) h0
      | some i => exact ⟨i, rfl⟩
  have hl : ∀ inc j, halfLoop P inc (fuel + 1) p extent j = .ok [] := fun inc j => by
    rw [halfLoop, if_neg (not_lt.2 he)]
  rw [polygonSubsequence, hr, hi]
  dsimp only
  rw [subsequenceHalf, if_neg hn, hl]
  dsimp only
  rw [subsequenceHalf, if_neg hn, hl]
  rfl

/-- C76: if all vertices are equal then the loop never ends. -/
theorem C76_diverges (fuel : Nat) (P : List (P2 ℝ)) (p : P2 ℝ) (extent : ℝ) (he : 0 < extent) (startIndex : Nat)
    (h0 : P ≠ []) (hP : ∀ X ∈ P, X = p) (inc : Nat → Nat → Nat) (hinc : inc = incCw ∨ inc = incCcw) :
    subsequenceHalf fuel P inc p extent startIndex = .error .diverges := by
  have hn : 0 < P.length := List.length_pos_of_ne_nil h0
  have hlt : ∀ j, inc P.length j < P.length := by
    rcases hinc with rfl | rfl
    · exact fun j => incCw_lt j hn
    · exact fun j => incCcw_lt j hn
  rw [subsequenceHalf, if_neg (by omega), halfLoop_diverges (fun j _ => hlt j) hP he fuel _ (hlt _)]

example : ∀ X ∈ [⟨1, 2⟩, (⟨1, 2⟩ : P2 ℝ)], X = ⟨1, 2⟩ := by simp

end Geometrix
