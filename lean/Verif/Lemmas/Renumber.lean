import Verif.Spec.Renumber
import Verif.Spec.PolygonSimple
import Verif.Lemmas.PointInPolygon
import Verif.Lemmas.PolygonContainment
import Verif.Lemmas.PointSequence

/-!
# Helper lemmas: the same polygon from another start vertex or in the other direction
-/

set_option linter.unusedSectionVars false

namespace Geometrix

open Spec

variable {K : Type*} [Field K] [LinearOrder K] [IsStrictOrderedRing K]

theorem Spec.SameCycle.length {α : Type*} {l m : List α} (h : SameCycle l m) : m.length = l.length := by
  obtain ⟨k, rfl | rfl⟩ := h <;> simp

theorem Spec.SameCycle.ne_nil {α : Type*} {l m : List α} (h : SameCycle l m) (hl : l ≠ []) : m ≠ [] := by
  intro h0
  have := h.length
  rw [h0] at this
  exact hl (List.eq_nil_of_length_eq_zero this.symm)

theorem Spec.SameCycle.mem {α : Type*} {l m : List α} (h : SameCycle l m) (x : α) : x ∈ m ↔ x ∈ l := by
  obtain ⟨k, rfl | rfl⟩ := h <;> simp

/-- A statement about polygons that does not change from one start vertex to the next and by reversal is the same for all. -/
theorem Spec.SameCycle.induct {α : Type*} {β : Sort*} (F : List α → β) (h1 : ∀ l, F (l.rotate 1) = F l) (h2 : ∀ l, F l.reverse = F l) {l m : List α}
    (h : SameCycle l m) : F m = F l := by
  have hk : ∀ k, F (l.rotate k) = F l := by
    intro k
    induction k with
    | zero => rw [List.rotate_zero]
    | succ k ih => rw [← List.rotate_rotate, h1, ih]
  obtain ⟨k, rfl | rfl⟩ := h
  · exact hk k
  · rw [h2, hk]

theorem sideCount_sameCycle {α : Type*} {l m : List α} (h : SameCycle l m) (φ : α → α → Prop) (hφ : ∀ p q, φ p q ↔ φ q p) :
    sideCount m φ = sideCount l φ := by
  refine h.induct (fun l => sideCount l φ) (fun l => ?_) (fun l => ?_)
  · unfold sideCount
    rw [sides_rotate]
    exact (List.rotate_perm _ _).countP_eq _
  · unfold sideCount
    rw [(sides_reverse l).countP_eq, List.countP_map]
    congr 1
    funext e
    exact decide_eq_decide.2 (hφ _ _)

theorem onBoundary_sameCycle {l m : List (P2 K)} (h : SameCycle l m) (x : P2 K) : OnBoundary m x ↔ OnBoundary l x := by
  have := h.induct (fun l => OnBoundary l x) (fun l => ?_) (fun l => ?_)
  · exact iff_of_eq this
  · refine propext ?_
    rw [onBoundary_iff_sides, onBoundary_iff_sides, sides_rotate]
    simp only [List.mem_rotate]
  · refine propext ?_
    rw [onBoundary_iff_sides, onBoundary_iff_sides]
    constructor
    · rintro ⟨e, he, hx⟩
      have := (sides_reverse l).mem_iff.1 he
      obtain ⟨e', he', rfl⟩ := List.mem_map.1 this
      exact ⟨e', he', (onSegment_swap _ _ _).1 hx⟩
    · rintro ⟨e, he, hx⟩
      exact ⟨e.swap, (sides_reverse l).mem_iff.2 (List.mem_map.2 ⟨e, he, rfl⟩), (onSegment_swap _ _ _).1 hx⟩

theorem edge_rotate_one {l : List (P2 K)} {i : Nat} {A B : P2 K} :
    IsPolygonEdge (l.rotate 1) i A B ↔ i < l.length ∧ IsPolygonEdge l ((i + 1) % l.length) A B := by
  unfold IsPolygonEdge
  by_cases hi : i < l.length
  · rw [List.length_rotate, List.getElem?_rotate hi, List.getElem?_rotate (Nat.mod_lt _ (by omega))]
    simp [hi]
  · have : (l.rotate 1)[i]? = none := by rw [List.getElem?_eq_none_iff, List.length_rotate]; omega
    simp [this, hi]

theorem edge_lt {l : List (P2 K)} {i : Nat} {A B : P2 K} (h : IsPolygonEdge l i A B) : i < l.length := by
  obtain ⟨h1, -⟩ := h
  exact (List.getElem?_eq_some_iff.1 h1).1

/-- The number of the edge with the other direction in the reversed polygon. -/
def revEdge (n i : Nat) : Nat := if i + 2 ≤ n then n - 2 - i else n - 1

theorem revEdge_lt {n i : Nat} (h : i < n) : revEdge n i < n := by unfold revEdge; split_ifs <;> omega

theorem revEdge_inj {n i j : Nat} (hi : i < n) (hj : j < n) (h : revEdge n i = revEdge n j) : i = j := by
  unfold revEdge at h; split_ifs at h <;> omega

theorem mod_succ {n i : Nat} (h : i < n) : (i + 1) % n = if i + 1 = n then 0 else i + 1 := by
  split_ifs with h1
  · rw [h1, Nat.mod_self]
  · exact Nat.mod_eq_of_lt (by omega)

theorem revEdge_next {n i j : Nat} (hi : i < n) (hj : j < n) : revEdge n i = (revEdge n j + 1) % n ↔ j = (i + 1) % n := by
  rw [mod_succ (revEdge_lt hj), mod_succ hi]
  unfold revEdge
  split_ifs <;> omega

theorem edge_reverse {l : List (P2 K)} {i : Nat} {A B : P2 K} (h : IsPolygonEdge l.reverse i A B) :
    IsPolygonEdge l (revEdge l.length i) B A := by
  have hi := edge_lt h
  rw [List.length_reverse] at hi
  obtain ⟨h1, h2⟩ := h
  have hi' := Nat.mod_lt (i + 1) (show 0 < l.length by omega)
  rw [List.length_reverse, List.getElem?_reverse hi'] at h2
  rw [List.getElem?_reverse hi] at h1
  refine ⟨?_, ?_⟩
  · rw [← h2]
    congr 1
    rw [mod_succ hi]; unfold revEdge; split_ifs <;> omega
  · rw [← h1]
    congr 1
    rw [mod_succ (revEdge_lt hi)]; unfold revEdge; split_ifs <;> omega

theorem proper_sameCycle {l m : List (P2 K)} (h : SameCycle l m) : ProperPolygon m ↔ ProperPolygon l := by
  have r1 : ∀ l : List (P2 K), ProperPolygon l → ProperPolygon (l.rotate 1) := fun l hl i A B he => hl _ _ _ (edge_rotate_one.1 he).2
  have rk : ∀ k (l : List (P2 K)), ProperPolygon l → ProperPolygon (l.rotate k) := by
    intro k
    induction k with
    | zero => intro l hl; rwa [List.rotate_zero]
    | succ k ih => intro l hl; rw [← List.rotate_rotate]; exact r1 _ (ih l hl)
  have r2 : ∀ l : List (P2 K), ProperPolygon l → ProperPolygon l.reverse := fun l hl i A B he => (hl _ _ _ (edge_reverse he)).symm
  refine iff_of_eq (h.induct (fun l => ProperPolygon l) (fun l => propext ⟨fun hl => ?_, r1 l⟩) (fun l => propext ⟨fun hl => ?_, r2 l⟩))
  · have := rk (l.length - 1) _ hl
    by_cases h0 : l = []
    · subst h0; exact hl
    · have hp := List.length_pos_iff.2 h0
      rwa [List.rotate_rotate, Nat.add_sub_cancel' (by omega), List.rotate_length] at this
  · have := r2 _ hl; rwa [List.reverse_reverse] at this

theorem simple_sameCycle {l m : List (P2 K)} (h : SameCycle l m) : SimplePolygon m ↔ SimplePolygon l := by
  have r1 : ∀ l : List (P2 K), SimplePolygon l → SimplePolygon (l.rotate 1) := by
    intro l hl i j A B C D X hij e1 e2 hX
    obtain ⟨i1, e1⟩ := edge_rotate_one.1 e1
    obtain ⟨j1, e2⟩ := edge_rotate_one.1 e2
    have hinj : ∀ {a b : Nat}, a < l.length → b < l.length → (a + 1) % l.length = (b + 1) % l.length → a = b := by
      intro a b ha hb hab
      rw [mod_succ ha, mod_succ hb] at hab
      split_ifs at hab <;> omega
    have hm : ∀ a, (a + 1) % l.length < l.length := fun a => Nat.mod_lt _ (by omega)
    rw [List.length_rotate]
    rcases hl _ _ _ _ _ _ X (fun h => hij (hinj i1 j1 h)) e1 e2 hX with ⟨h1, h2⟩ | ⟨h1, h2⟩
    · exact Or.inl ⟨hinj j1 (hm i) h1, h2⟩
    · exact Or.inr ⟨hinj i1 (hm j) h1, h2⟩
  have rk : ∀ k (l : List (P2 K)), SimplePolygon l → SimplePolygon (l.rotate k) := by
    intro k
    induction k with
    | zero => intro l hl; rwa [List.rotate_zero]
    | succ k ih => intro l hl; rw [← List.rotate_rotate]; exact r1 _ (ih l hl)
  have r2 : ∀ l : List (P2 K), SimplePolygon l → SimplePolygon l.reverse := by
    intro l hl i j A B C D X hij e1 e2 hX
    have i1 := edge_lt e1
    have j1 := edge_lt e2
    rw [List.length_reverse] at i1 j1 ⊢
    have e1' := edge_reverse e1
    have e2' := edge_reverse e2
    have hX' : Common B A D C X := ⟨(onSegment_swap _ _ _).1 hX.1, (onSegment_swap _ _ _).1 hX.2⟩
    rcases hl _ _ _ _ _ _ X (fun h => hij (revEdge_inj i1 j1 h)) e1' e2' hX' with ⟨h1, h2⟩ | ⟨h1, h2⟩
    · right
      rw [revEdge_next j1 i1] at h1
      refine ⟨h1, ?_⟩
      have a1 := e1.1
      have a2 := e2.2
      rw [List.length_reverse, ← h1, a1] at a2
      rw [h2]; exact Option.some.inj a2
    · left
      rw [revEdge_next i1 j1] at h1
      refine ⟨h1, ?_⟩
      have a1 := e2.1
      have a2 := e1.2
      rw [List.length_reverse, ← h1, a1] at a2
      rw [h2]; exact Option.some.inj a2
  refine iff_of_eq (h.induct (fun l => SimplePolygon l) (fun l => propext ⟨fun hl => ?_, r1 l⟩) (fun l => propext ⟨fun hl => ?_, r2 l⟩))
  · have := rk (l.length - 1) _ hl
    by_cases h0 : l = []
    · subst h0; exact hl
    · have hp := List.length_pos_iff.2 h0
      rwa [List.rotate_rotate, Nat.add_sub_cancel' (by omega), List.rotate_length] at this
  · have := r2 _ hl; rwa [List.reverse_reverse] at this

theorem isMinDist_unique {S T S' T' : P2 K → Prop} (hS : ∀ x, S x ↔ S' x) (hT : ∀ x, T x ↔ T' x) {a b : K} (h1 : IsMinDist S T a) (h2 : IsMinDist S' T' b) :
    a = b := by
  obtain ⟨⟨x, x1, x2⟩, x3⟩ := h1
  obtain ⟨⟨y, y1, y2⟩, y3⟩ := h2
  have l1 := x3 y ⟨(hS _).2 y1.1, (hT _).2 y1.2⟩
  have l2 := y3 x ⟨(hS _).1 x1.1, (hT _).1 x1.2⟩
  exact le_antisymm (l1.trans y2.le) (l2.trans x2.le)

end Geometrix
