import Verif.Lemmas.KdTree
import Mathlib.Data.Rat.Cast.Order
import Mathlib.Tactic.FinCases

/-!
# C32: range search in a kd-tree
-/

set_option linter.unusedSectionVars false

namespace Geometrix

open Spec

variable {K : Type*} [Field K] [LinearOrder K] [IsStrictOrderedRing K] {d : Nat}

/-- Whatever `std::nth_element` does within its contract, the construction of the tree from a sequence
that is not empty ends, and a search for any box calls the visitor for every stored point in the box
exactly as often as it is stored, and for no point more often than it is stored. Missing for the full
property: the visitor may also be called for stored points outside the box
(`C32_outside_refuted`). -/
theorem C32_complete_partial
    (nth : Fin (d + 1) → Nat → List (PN (d + 1) K) → List (PN (d + 1) K))
    (hnth : ∀ dim n l, n < l.length → IsNthElement (Precedes dim) n l (nth dim n l))
    (pts : List (PN (d + 1) K)) (h : pts ≠ []) :
    ∃ t, kdTree Cmp.direct nth pts = .ok t ∧ ∀ range : BoxN (d + 1) K,
      (∀ p, InBoxN range p → (t.search Cmp.direct range).count p = pts.count p) ∧
      ∀ p, (t.search Cmp.direct range).count p ≤ pts.count p := by
  obtain ⟨c, hc, hin⟩ := getBoundsN_ok pts h
  obtain ⟨t, h1, -, h3, h4, -⟩ := kdBuild_spec nth hnth pts.length c 0 pts
    (List.length_pos_iff.mpr h) le_rfl hin
  refine ⟨t, by simp only [kdTree, hc, h1], fun range => ⟨fun p hp => ?_, fun p => ?_⟩⟩
  · rw [(search_count range t h3).2 p hp, h4.count_eq]
  · rw [← h4.count_eq]
    exact (search_count range t h3).1 p

/-- There is a `std::nth_element`: sorting does it. -/
example : ∀ (dim : Fin 2) (n : Nat) (l : List (PN 2 ℚ)), n < l.length →
    IsNthElement (Precedes dim) n l
      (l.mergeSort fun p q => !dimensionCompareN Cmp.direct dim q p) := by
  intro dim n l hn
  refine ⟨List.mergeSort_perm _ _, ?_⟩
  have hpre : ∀ p q : PN 2 ℚ, (!dimensionCompareN Cmp.direct dim q p) = true ↔ ¬ Precedes dim q p := by
    intro p q
    rw [← dimensionCompareN_iff]
    simp
  have hs := List.pairwise_mergeSort (le := fun p q => !dimensionCompareN Cmp.direct dim q p)
    (by
      intro a b c hab hbc
      rw [hpre] at hab hbc ⊢
      simp only [Precedes, Fin.exists_fin_two, Fin.forall_fin_two] at hab hbc ⊢
      fin_cases dim <;> simp at hab hbc ⊢ <;> grind)
    (by
      intro a b
      rw [Bool.or_eq_true, hpre, hpre]
      simp only [Precedes, Fin.exists_fin_two, Fin.forall_fin_two]
      fin_cases dim <;> simp <;> grind) l
  intro i j hi hj h1 h2
  rcases Nat.lt_or_ge i j with hij | hij
  · have := List.pairwise_iff_getElem.mp hs i j hi hj hij
    exact (hpre _ _).mp this
  · have : i = j := by omega
    subst this
    simp [Precedes]

/-- A box that does not meet the bounding box of two or more points gives no visits. -/
theorem C32_disjoint
    (nth : Fin (d + 1) → Nat → List (PN (d + 1) K) → List (PN (d + 1) K))
    (hnth : ∀ dim n l, n < l.length → IsNthElement (Precedes dim) n l (nth dim n l))
    (pts : List (PN (d + 1) K)) (h : 2 ≤ pts.length) (bounds range : BoxN (d + 1) K)
    (hb : getBoundsN Cmp.direct pts = some bounds) (hd : DisjointBoxes range bounds) :
    ∃ t, kdTree Cmp.direct nth pts = .ok t ∧ t.search Cmp.direct range = [] := by
  have hne : pts ≠ [] := by rintro rfl; simp at h
  obtain ⟨c, hc, hin⟩ := getBoundsN_ok pts hne
  rw [hb] at hc
  cases hc
  obtain ⟨t, h1, h2, h3, h4, h5⟩ := kdBuild_spec nth hnth pts.length bounds 0 pts
    (by omega) le_rfl hin
  obtain ⟨m, a, b, rfl⟩ := h5 h
  exact ⟨_, by simp only [kdTree, hb, h1], search_disjoint range bounds m a b h3 hd⟩

/-- The full property fails: the tree of the points (0,0) and (10,10) visits (10,10) in a search for
the box from (10,0) to (10,1). (The two points are in order, so that `std::nth_element` may leave them
as they are.) -/
theorem C32_outside_refuted :
    ∃ (pts : List (PN 2 ℚ)) (range : BoxN 2 ℚ) (p : PN 2 ℚ) (t : KdTree 2 ℚ),
      (∀ dim, IsNthElement (Precedes dim) (pts.length / 2) pts pts) ∧
      kdTree Cmp.direct (fun _ _ l => l) pts = .ok t ∧
      p ∈ t.search Cmp.direct range ∧ ¬ InBoxN range p := by
  have hk : (match kdTree Cmp.direct (fun _ _ l => l) [![(0 : ℚ), 0], ![10, 10]] with
      | .ok t => decide (![10, 10] ∈ t.search Cmp.direct ⟨![10, 0], ![10, 1]⟩)
      | _ => false) = true := by decide +kernel
  cases hb : kdTree Cmp.direct (fun _ _ l => l) [![(0 : ℚ), 0], ![10, 10]] with
  | error f => rw [hb] at hk; simp at hk
  | ok t =>
  rw [hb] at hk
  refine ⟨[![0, 0], ![10, 10]], ⟨![10, 0], ![10, 1]⟩, ![10, 10], t, ?_, hb,
    of_decide_eq_true hk, ?_⟩
  · intro dim
    refine ⟨List.Perm.refl _, ?_⟩
    intro i j hi hj h1 h2
    simp at hi hj h1 h2
    have : j = 1 := by omega
    subst this
    have hi' : i = 0 ∨ i = 1 := by omega
    rcases hi' with rfl | rfl <;>
    · simp only [Precedes]
      fin_cases dim <;> simp [Fin.exists_fin_two]
  · intro h
    have := (h 1).2
    norm_num at this

/-- A tree with one point visits it in every search, wherever the box is. -/
theorem C32_single_refuted (nth : Fin (d + 1) → Nat → List (PN (d + 1) K) → List (PN (d + 1) K))
    (p : PN (d + 1) K) (range : BoxN (d + 1) K) :
    ∃ t, kdTree Cmp.direct nth [p] = .ok t ∧ t.search Cmp.direct range = [p] :=
  ⟨.leaf ⟨p, p⟩ p, rfl, rfl⟩

/-- Without points the constructor steps past the end of an empty sequence. -/
theorem C32_empty (nth : Fin (d + 1) → Nat → List (PN (d + 1) K) → List (PN (d + 1) K)) :
    kdTree Cmp.direct nth [] = .error .outOfRange := rfl

end Geometrix
