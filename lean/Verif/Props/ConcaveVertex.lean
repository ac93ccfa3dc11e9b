import Verif.Model.PointSequence
import Verif.Spec.Convex
import Verif.Lemmas.Orientation

/-!
# C62: concave vertices of a polygon
-/

set_option linter.unusedSectionVars false

namespace Geometrix

open Spec

variable {K : Type*} [Field K] [LinearOrder K] [IsStrictOrderedRing K]

/-- `next_index` and `prev_index` go round the polygon in both directions. -/
theorem C62_cyclic (n i : Nat) (h : i < n) :
    nextIndex n i = (i + 1) % n ∧ prevIndex n i = (i + (n - 1)) % n ∧
      prevIndex n (nextIndex n i) = i ∧ nextIndex n (prevIndex n i) = i := by
  unfold nextIndex prevIndex
  refine ⟨?_, ?_, ?_, ?_⟩
  · split_ifs with h1
    · rw [Nat.mod_eq_of_lt h1]
    · rw [show i + 1 = n by omega, Nat.mod_self]
  · split_ifs with h1
    · rw [show i + (n - 1) = n + (i - 1) by omega, Nat.add_mod_left, Nat.mod_eq_of_lt (by omega)]
    · rw [Nat.mod_eq_of_lt (by omega)]; omega
  · split_ifs <;> omega
  · split_ifs <;> omega

example : nextIndex 5 4 = 0 ∧ prevIndex 5 0 = 4 := by decide

/-- `is_point_concave` is true exactly if the polygon does not turn left at the vertex: the triangle of the
previous vertex, the vertex and the next one is not counterclockwise. -/
theorem C62_concave_iff (poly : List (P2 K)) (i : Nat) (prev p next : P2 K) (hp : poly[i]? = some p)
    (hprev : poly[(i + (poly.length - 1)) % poly.length]? = some prev)
    (hnext : poly[(i + 1) % poly.length]? = some next) :
    isPointConcave poly i = .ok (decide (area2 prev p next ≤ 0)) := by
  have hi : i < poly.length := by
    by_contra hc
    rw [List.getElem?_eq_none (by omega)] at hp
    simp at hp
  obtain ⟨h1, h2, _⟩ := C62_cyclic poly.length i hi
  unfold isPointConcave
  rw [h1, h2, hp, hprev, hnext]
  simp only
  congr 1
  rw [Bool.eq_iff_iff, Bool.not_eq_true', decide_eq_false_iff_not, decide_eq_true_iff, not_lt]
  simp only [cross, area2, P2.sub_x, P2.sub_y]

/-- The fourth vertex of this quadrilateral is a reflex vertex, the others are not. -/
example : (List.range 4).map (isPointConcave ([⟨0, 0⟩, ⟨4, 0⟩, ⟨0, 4⟩, ⟨1, 1⟩] : List (P2 ℚ))) =
    [.ok false, .ok false, .ok false, .ok true] := by decide +kernel

/-- An index outside the polygon reads outside the sequence. -/
theorem C62_out_of_range (poly : List (P2 K)) (i : Nat) (h : poly.length ≤ i) :
    isPointConcave poly i = .error .outOfRange := by
  unfold isPointConcave
  rw [List.getElem?_eq_none h]

/-- No vertex of a strictly convex counterclockwise polygon is concave. -/
theorem C62_convex (poly : List (P2 K)) (hn : 3 ≤ poly.length) (hc : StrictlyConvex poly) (i : Nat)
    (hi : i < poly.length) : isPointConcave poly i = .ok false := by
  have hg : ∀ k, k < poly.length → ∃ q, poly[k]? = some q := fun k hk => ⟨_, List.getElem?_eq_getElem hk⟩
  obtain ⟨p, hp⟩ := hg i hi
  obtain ⟨prev, hprev⟩ := hg ((i + (poly.length - 1)) % poly.length) (Nat.mod_lt _ (by omega))
  obtain ⟨next, hnext⟩ := hg ((i + 1) % poly.length) (Nat.mod_lt _ (by omega))
  rw [C62_concave_iff poly i prev p next hp hprev hnext]
  congr 1
  rw [decide_eq_false_iff_not, not_le]
  obtain ⟨h1, h2, _⟩ := C62_cyclic poly.length i hi
  rw [← h1] at hnext
  rw [← h2] at hprev
  unfold nextIndex at hnext
  unfold prevIndex at hprev
  have cyc : ∀ a b c : P2 K, area2 a b c = area2 b c a := by
    intro a b c; simp only [area2]; ring
  split_ifs at hnext hprev
  · exact hc (i - 1) i (i + 1) prev p next (by omega) (by omega) hprev hp hnext
  · rw [cyc]
    exact hc i (i + 1) (poly.length - 1) p next prev (by omega) (by omega) hp hnext hprev
  · rw [cyc, cyc]
    exact hc 0 (i - 1) i next prev p (by omega) (by omega) hnext hprev hp
  · omega

example : StrictlyConvex ([⟨0, 0⟩, ⟨4, 0⟩, ⟨0, 4⟩] : List (P2 ℚ)) := by
  intro i j k a b c hij hjk ha hb hc
  have hk : k < 3 := by
    by_contra h
    rw [List.getElem?_eq_none (by simp; omega)] at hc
    simp at hc
  obtain rfl : k = 2 := by omega
  obtain rfl : j = 1 := by omega
  obtain rfl : i = 0 := by omega
  simp at ha hb hc
  subst ha hb hc
  norm_num [area2]

end Geometrix
