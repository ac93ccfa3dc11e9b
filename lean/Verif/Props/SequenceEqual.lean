import Verif.Lemmas.SequenceEqual
import Verif.Spec.Order
import Verif.Spec.Geometry

/-!
# Properties of equal point sequences and polygons, and of the order of points by distance
-/

set_option linter.unusedSectionVars false

namespace Geometrix

open Spec

variable {K : Type*} [Field K] [LinearOrder K] [IsStrictOrderedRing K]

/-! ## C104 -/

/-- C104: `point_sequences_equal` answers true exactly for equal sequences. -/
theorem C104_sequences (p1 p2 : List (P2 K)) :
    ∃ r, sequencesEqual Cmp.direct p1 p2 = .ok r ∧ (r = true ↔ p1 = p2) := by
  unfold sequencesEqual
  by_cases h : p1.length = p2.length
  · rw [if_neg (by simpa using h)]
    obtain ⟨r, hr, hiff⟩ := sequencesEqualLoop_spec p1 p2 h p1.length 0 (by omega)
    refine ⟨r, hr, hiff.trans ⟨fun hj => List.ext_getElem? fun i => ?_, fun e j _ _ => by rw [e]⟩⟩
    rcases lt_or_ge i p1.length with hi | hi
    · exact hj i (Nat.zero_le _) hi
    · rw [List.getElem?_eq_none hi, List.getElem?_eq_none (by omega)]
  · rw [if_pos h]
    exact ⟨false, rfl, by simp only [Bool.false_eq_true, false_iff]; rintro rfl; exact h rfl⟩

example : sequencesEqual Cmp.direct [(⟨0, 1⟩ : P2 ℚ), ⟨2, 3⟩] [⟨0, 1⟩, ⟨2, 3⟩] = .ok true := by decide +kernel

/-- C104: `polygons_equal` answers true exactly if the second polygon started at the offset is the first; the sum of the
offset and the size has to be representable. -/
theorem C104_polygons (p1 p2 : List (P2 K)) (o : Nat) (h : p1.length + o ≤ 2 ^ 64) :
    ∃ r, polygonsEqual Cmp.direct p1 p2 o = .ok r ∧ (r = true ↔ p2.rotate o = p1) := by
  unfold polygonsEqual
  by_cases hl : p1.length = p2.length
  · rw [if_neg (by simpa using hl)]
    obtain ⟨r, hr, hiff⟩ := polygonsEqualLoop_spec p1 p2 o hl p1.length 0 (by omega)
    refine ⟨r, hr, hiff.trans ⟨fun hj => List.ext_getElem? fun i => ?_, fun e j _ hj => ?_⟩⟩
    · rcases lt_or_ge i p1.length with hi | hi
      · rw [List.getElem?_rotate (by omega), hj i (Nat.zero_le _) hi, Nat.mod_eq_of_lt (by omega : i + o < 2 ^ 64)]
      · rw [List.getElem?_eq_none hi, List.getElem?_eq_none (by rw [List.length_rotate]; omega)]
    · rw [← e, List.getElem?_rotate (by omega), Nat.mod_eq_of_lt (by omega : j + o < 2 ^ 64)]
  · rw [if_pos hl]
    refine ⟨false, rfl, ?_⟩
    simp only [Bool.false_eq_true, false_iff]
    rintro rfl
    exact hl (List.length_rotate _ _)

/-- The hypothesis holds for a triangle and the offset 2. -/
example : [(⟨4, 0⟩ : P2 ℚ), ⟨0, 0⟩, ⟨0, 4⟩].length + 2 ≤ 2 ^ 64 ∧
    polygonsEqual Cmp.direct [(⟨4, 0⟩ : P2 ℚ), ⟨0, 0⟩, ⟨0, 4⟩] [⟨0, 0⟩, ⟨0, 4⟩, ⟨4, 0⟩] 2 = .ok true := by decide +kernel

/-- C104: `polygon_polygon_offset` returns the first index at which the second polygon has the first point of the first,
or the largest number if there is none. -/
theorem C104_first (a : P2 K) (p1 p2 : List (P2 K)) (ha : p1[0]? = some a) (hl : p2.length = p1.length) :
    ∃ k, polygonOffset Cmp.direct p1 p2 = .ok k ∧
      ((p2[k]? = some a ∧ ∀ j, j < k → p2[j]? ≠ some a) ∨ (k = 2 ^ 64 - 1 ∧ a ∉ p2)) := by
  unfold polygonOffset
  rw [if_neg (by simpa using hl)]
  rcases startLoop_spec a p1 p2 ha p2.length 0 (by omega) with ⟨k, h1, -, h2, h3⟩ | ⟨h1, h2⟩
  · exact ⟨k, h1, Or.inl ⟨h2, fun j hj => h3 j (Nat.zero_le _) hj⟩⟩
  · refine ⟨_, h1, Or.inr ⟨rfl, fun hm => ?_⟩⟩
    obtain ⟨j, hj⟩ := List.getElem?_of_mem hm
    exact h2 j (Nat.zero_le _) hj

/-- C104: if the first polygon is the second started at some index, and no point occurs twice, that index is returned, and
`polygons_equal` answers true for it. Missing: polygons that pass a point twice, see `C104_repeated_refuted`. -/
theorem C104_offset_partial (p1 p2 : List (P2 K)) (o : Nat) (h : p2.rotate o = p1) (ho : o < p2.length)
    (hn : p2.Nodup) (hs : 2 * p2.length ≤ 2 ^ 64) :
    polygonOffset Cmp.direct p1 p2 = .ok o ∧ polygonsEqual Cmp.direct p1 p2 o = .ok true := by
  have hl : p1.length = p2.length := by rw [← h, List.length_rotate]
  have ha : p1[0]? = some p2[o] := by
    rw [← h, List.getElem?_rotate (by omega), Nat.zero_add, Nat.mod_eq_of_lt ho, List.getElem?_eq_getElem ho]
  constructor
  · obtain ⟨k, hk, hc⟩ := C104_first _ p1 p2 ha hl.symm
    rcases hc with ⟨h1, -⟩ | ⟨-, h1⟩
    · rw [hk]
      obtain ⟨hkl, he⟩ := List.getElem?_eq_some_iff.1 h1
      rw [(List.Nodup.getElem_inj_iff hn).1 he]
    · exact absurd (List.getElem_mem ho) h1
  · obtain ⟨r, hr, hiff⟩ := C104_polygons p1 p2 o (by omega)
    rw [hr, hiff.2 h]

/-- The hypotheses hold for a triangle. -/
example : [(⟨0, 0⟩ : P2 ℚ), ⟨0, 4⟩, ⟨4, 0⟩].rotate 2 = [⟨4, 0⟩, ⟨0, 0⟩, ⟨0, 4⟩] ∧
    [(⟨0, 0⟩ : P2 ℚ), ⟨0, 4⟩, ⟨4, 0⟩].Nodup := by decide +kernel

/-- Disagreement: a polygon that passes a point twice; the returned index is not the one at which the polygons agree. -/
theorem C104_repeated_refuted :
    [(⟨0, 0⟩ : P2 ℚ), ⟨1, 0⟩, ⟨0, 0⟩, ⟨0, 1⟩].rotate 2 = [⟨0, 0⟩, ⟨0, 1⟩, ⟨0, 0⟩, ⟨1, 0⟩] ∧
    polygonOffset Cmp.direct [(⟨0, 0⟩ : P2 ℚ), ⟨0, 1⟩, ⟨0, 0⟩, ⟨1, 0⟩] [⟨0, 0⟩, ⟨1, 0⟩, ⟨0, 0⟩, ⟨0, 1⟩] = .ok 0 ∧
    polygonsEqual Cmp.direct [(⟨0, 0⟩ : P2 ℚ), ⟨0, 1⟩, ⟨0, 0⟩, ⟨1, 0⟩] [⟨0, 0⟩, ⟨1, 0⟩, ⟨0, 0⟩, ⟨0, 1⟩] 0 = .ok false := by
  decide +kernel

/-! ## C105 -/

/-- C105: `distance_compare` with exact comparison is a strict weak ordering, and its relation is to be nearer to the
fixed point. -/
theorem C105_order_partial (p : P2 K) : StrictWeakOrder (distanceCompare Cmp.direct p) ∧
    ∀ a b, distanceCompare Cmp.direct p a b = true ↔ sqDist p a < sqDist p b := by
  have hd : ∀ a b : P2 K, distSq a b = sqDist a b := by
    intro a b; simp only [distSq, normSq, dot, sqDist, P2.sub_x, P2.sub_y]; ring
  have hiff : ∀ a b, distanceCompare Cmp.direct p a b = true ↔ sqDist p a < sqDist p b := by
    intro a b; rw [distanceCompare, hd, hd]; simp [Cmp.direct]
  have hiff' : ∀ a b, distanceCompare Cmp.direct p a b = false ↔ sqDist p b ≤ sqDist p a := by
    intro a b; rw [Bool.eq_false_iff, ne_eq, hiff, not_lt]
  refine ⟨⟨fun a => by rw [hiff'], fun a b c => by rw [hiff, hiff, hiff]; exact lt_trans, fun a b c => ?_⟩, hiff⟩
  simp only [hiff']
  rintro ⟨h1, h2⟩ ⟨h3, h4⟩
  exact ⟨h3.trans h1, h2.trans h4⟩

example : distanceCompare Cmp.direct (⟨0, 0⟩ : P2 ℚ) ⟨1, 0⟩ ⟨-1, 1⟩ = true := by decide +kernel

/-- Disagreement: with a tolerance it is not a strict weak ordering, as `std::sort` and the ordered containers need. -/
theorem C105_tolerance_refuted : ¬ StrictWeakOrder (distanceCompare (Cmp.absolute 1) (⟨0, 0⟩ : P2 ℚ)) := by
  intro h
  have := h.incomp_trans ⟨0, 0⟩ ⟨1, 0⟩ ⟨1, 1⟩ (by decide +kernel) (by decide +kernel)
  revert this
  decide +kernel

end Geometrix
