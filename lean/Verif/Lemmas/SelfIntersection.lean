import Verif.Model.SelfIntersection
import Verif.Spec.SelfIntersection
import Verif.Lemmas.PolygonSimple
import Mathlib.Tactic.FieldSimp
import Mathlib.Tactic.LinearCombination

/-!
# Self intersections of a polyline
-/

set_option linter.unusedSectionVars false

namespace Geometrix

open Spec

variable {K : Type*} [Field K] [LinearOrder K] [IsStrictOrderedRing K] {σ : Type*}

/-- The pairs in the order of the loops. -/
theorem selfPairs_sorted (n : Nat) : (selfPairs n).Pairwise fun a b => a.1 < b.1 ∨ (a.1 = b.1 ∧ a.2 < b.2) := by
  unfold selfPairs
  rw [List.flatMap_def, List.pairwise_flatten]
  constructor
  · intro l hl
    obtain ⟨i, -, rfl⟩ := List.mem_map.1 hl
    rw [List.pairwise_map]
    exact List.Pairwise.imp (fun h => Or.inr ⟨rfl, h⟩) List.pairwise_lt_range'
  · rw [List.pairwise_map]
    refine List.Pairwise.imp (fun {a b} h => ?_) List.pairwise_lt_range
    intro x hx y hy
    obtain ⟨_, -, rfl⟩ := List.mem_map.1 hx
    obtain ⟨_, -, rfl⟩ := List.mem_map.1 hy
    exact Or.inl h

theorem mem_selfPairs {n i j : Nat} : (i, j) ∈ selfPairs n ↔ i < j ∧ j + 1 < n := by
  unfold selfPairs
  rw [List.mem_flatMap]
  constructor
  · rintro ⟨a, ha, h⟩
    obtain ⟨b, hb, e⟩ := List.mem_map.1 h
    rw [List.mem_range'_1] at hb
    rw [List.mem_range] at ha
    cases e
    omega
  · rintro ⟨h1, h2⟩
    refine ⟨i, List.mem_range.2 (by omega), List.mem_map.2 ⟨j, ?_, rfl⟩⟩
    rw [List.mem_range'_1]; omega

/-- The pairs of edges for which the visitor is called. -/
def SelfHit (poly : List (P2 K)) (i j : Nat) : Prop :=
  ∃ A B C D, IsEdge poly i A B ∧ IsEdge poly j C D ∧ (∃ X, Common A B C D X) ∧
    (j ≠ i + 1 ∨ (OnLine A B C ∧ OnLine A B D))

theorem selfLoop_spec {poly : List (P2 K)} (hp : ProperEdges poly) (visit : σ → EdgeCall K → σ)
    (pairs : List (Nat × Nat)) (hm : ∀ ij ∈ pairs, ij.1 < ij.2 ∧ ij.2 + 1 < poly.length)
    (hs : pairs.Pairwise fun a b => a.1 < b.1 ∨ (a.1 = b.1 ∧ a.2 < b.2)) :
    ∃ calls : List (EdgeCall K),
      (∀ i j, (∃ c ∈ calls, c.i = i ∧ c.j = j) ↔ (i, j) ∈ pairs ∧ SelfHit poly i j) ∧
      calls.Pairwise (fun a b => a.i < b.i ∨ (a.i = b.i ∧ a.j < b.j)) ∧
      (∀ c ∈ calls, ∃ A B C D, IsEdge poly c.i A B ∧ IsEdge poly c.j C D ∧ CorrectAnswer A B C D c.type c.pts) ∧
      ∀ flag s, selfLoop Cmp.direct poly visit pairs flag s = .ok (flag || !calls.isEmpty, calls.foldl visit s) := by
  induction pairs with
  | nil =>
    exact ⟨[], by simp, List.Pairwise.nil, by simp, fun flag s => by simp [selfLoop]⟩
  | cons ij rest ih =>
    obtain ⟨i, j⟩ := ij
    obtain ⟨hi, hj⟩ := hm (i, j) List.mem_cons_self
    dsimp only at hi hj
    obtain ⟨calls, c1, c2, c3, c4⟩ := ih (fun x hx => hm x (List.mem_cons_of_mem _ hx)) (List.pairwise_cons.1 hs).2
    have eA := List.getElem?_eq_getElem (l := poly) (i := i) (by omega)
    have eB := List.getElem?_eq_getElem (l := poly) (i := i + 1) (by omega)
    have eC := List.getElem?_eq_getElem (l := poly) (i := j) (by omega)
    have eD := List.getElem?_eq_getElem (l := poly) (i := j + 1) (by omega)
    generalize poly[i] = A at eA
    generalize poly[i + 1] = B at eB
    generalize poly[j] = C at eC
    generalize poly[j + 1] = D at eD
    have e1 : IsEdge poly i A B := ⟨eA, eB⟩
    have e2 : IsEdge poly j C D := ⟨eC, eD⟩
    obtain ⟨ty, pts, hr, hc⟩ := C09_segment_segment A B C D (hp _ _ _ e1) (hp _ _ _ e2)
    have hcond : (ty ≠ .nonCrossing ∧ (¬ (i + 1 = j ∨ j + 1 = i) ∨ ty = .overlapping)) ↔ SelfHit poly i j := by
      constructor
      · rintro ⟨h1, h2⟩
        have hex : ∃ X, Common A B C D X := by
          by_contra h; exact h1 (hc.nonCrossing.2 h)
        refine ⟨A, B, C, D, e1, e2, hex, ?_⟩
        rcases h2 with h2 | h2
        · left; omega
        · right; exact ⟨(hc.overlapping.1 h2).1, (hc.overlapping.1 h2).2.1⟩
      · rintro ⟨A', B', C', D', ⟨f1, f2⟩, ⟨f3, f4⟩, hex, h2⟩
        rw [eA] at f1; rw [eB] at f2; rw [eC] at f3; rw [eD] at f4
        cases f1; cases f2; cases f3; cases f4
        refine ⟨fun h => hc.nonCrossing.1 h hex, ?_⟩
        rcases h2 with h2 | h2
        · left; omega
        · right; exact hc.overlapping.2 ⟨h2.1, h2.2, hex⟩
    by_cases hh : SelfHit poly i j
    · refine ⟨⟨ty, i, j, pts⟩ :: calls, ?_, ?_, ?_, ?_⟩
      · intro a b
        simp only [List.mem_cons, Prod.mk.injEq]
        constructor
        · rintro ⟨c, rfl | hcm, rfl, rfl⟩
          · exact ⟨Or.inl ⟨rfl, rfl⟩, hh⟩
          · obtain ⟨h1, h2⟩ := (c1 c.i c.j).1 ⟨c, hcm, rfl, rfl⟩
            exact ⟨Or.inr h1, h2⟩
        · rintro ⟨⟨rfl, rfl⟩ | h1, h2⟩
          · exact ⟨_, Or.inl rfl, rfl, rfl⟩
          · obtain ⟨c, hcm, h3⟩ := (c1 a b).2 ⟨h1, h2⟩
            exact ⟨c, Or.inr hcm, h3⟩
      · refine List.pairwise_cons.2 ⟨fun c hcm => ?_, c2⟩
        exact (List.pairwise_cons.1 hs).1 (c.i, c.j) ((c1 c.i c.j).1 ⟨c, hcm, rfl, rfl⟩).1
      · intro c hcm
        rcases List.mem_cons.1 hcm with rfl | hcm
        · exact ⟨A, B, C, D, e1, e2, hc⟩
        · exact c3 c hcm
      · intro flag s
        rw [selfLoop, eA, eB, eC, eD]
        dsimp only
        rw [hr]
        dsimp only
        rw [if_pos (hcond.2 hh), c4]
        simp
    · refine ⟨calls, ?_, c2, c3, ?_⟩
      · intro a b
        rw [c1]
        simp only [List.mem_cons, Prod.mk.injEq]
        constructor
        · rintro ⟨h1, h2⟩; exact ⟨Or.inr h1, h2⟩
        · rintro ⟨⟨rfl, rfl⟩ | h1, h2⟩
          · exact absurd h2 hh
          · exact ⟨h1, h2⟩
      · intro flag s
        rw [selfLoop, eA, eB, eC, eD]
        dsimp only
        rw [hr]
        dsimp only
        rw [if_neg (fun h => hh (hcond.1 h)), c4]

/-- Where the polyline does not go straight on, a visited pair shares more than the vertex between the edges. -/
theorem selfHit_iff {poly : List (P2 K)} (hp : ProperEdges poly) (hn : NoStraightVertex poly) (i j : Nat)
    (hij : i < j) : SelfHit poly i j ↔ SelfMeet poly i j := by
  constructor
  · rintro ⟨A, B, C, D, e1, e2, ⟨X, hX⟩, h⟩
    by_cases hj : j = i + 1
    · have hcol := h.resolve_left (fun h => h hj)
      subst hj
      have hCB : C = B := by
        have := e2.1; rw [e1.2] at this; exact (Option.some.inj this).symm
      subst hCB
      have hAB := hp _ _ _ e1
      have hBD := hp _ _ _ e2
      obtain ⟨t, ht⟩ := hcol.2
      rcases lt_or_ge t 0 with h0 | h0
      · refine ⟨A, C, C, D, A, hij, e1, e2, ⟨⟨0, le_rfl, zero_le_one, by ext <;> simp⟩, ?_⟩, fun h => hAB h.2⟩
        refine ⟨1 / (1 - t), by apply div_nonneg <;> linarith, ?_, ?_⟩
        · rw [div_le_one (by linarith)]; linarith
        · have h1 : 1 - t ≠ 0 := by linarith
          rw [ht]
          ext
          · simp only [P2.add_x, P2.sub_x, P2.smul_x]; field_simp; ring
          · simp only [P2.add_y, P2.sub_y, P2.smul_y]; field_simp; ring
      · rcases le_or_gt t 1 with h1 | h1
        · exact ⟨A, C, C, D, D, hij, e1, e2, ⟨⟨t, h0, h1, ht⟩, ⟨1, zero_le_one, le_rfl, by ext <;> simp⟩⟩,
            fun h => hBD h.2.symm⟩
        · exfalso
          refine hn i A C D e1 e2 ⟨1 / t, by positivity, ?_, ?_⟩
          · rw [div_le_one (by linarith)]; linarith
          · have h2 : t ≠ 0 := by linarith
            rw [ht]
            ext
            · simp only [P2.add_x, P2.sub_x, P2.smul_x]; field_simp; ring
            · simp only [P2.add_y, P2.sub_y, P2.smul_y]; field_simp; ring
    · exact ⟨A, B, C, D, X, hij, e1, e2, hX, fun h => hj h.1⟩
  · rintro ⟨A, B, C, D, X, -, e1, e2, hX, h⟩
    refine ⟨A, B, C, D, e1, e2, ⟨X, hX⟩, ?_⟩
    by_cases hj : j = i + 1
    · right
      subst hj
      have hCB : C = B := by
        have := e2.1; rw [e1.2] at this; exact (Option.some.inj this).symm
      subst hCB
      have hXB : X ≠ C := fun e => h ⟨rfl, e⟩
      refine ⟨⟨1, by ext <;> simp⟩, ?_⟩
      obtain ⟨⟨s, s0, s1, hs⟩, ⟨t, t0, t1, ht⟩⟩ := hX
      have ht' : t ≠ 0 := by
        rintro rfl
        apply hXB; rw [ht]; ext <;> simp
      refine ⟨(s - 1) / t + 1, ?_⟩
      have hx : A.x + s * (C.x - A.x) = C.x + t * (D.x - C.x) := by
        have := congrArg P2.x (hs.symm.trans ht); simpa using this
      have hy : A.y + s * (C.y - A.y) = C.y + t * (D.y - C.y) := by
        have := congrArg P2.y (hs.symm.trans ht); simpa using this
      ext
      · simp only [P2.add_x, P2.sub_x, P2.smul_x]; field_simp; linear_combination -hx
      · simp only [P2.add_y, P2.sub_y, P2.smul_y]; field_simp; linear_combination -hy
    · exact Or.inl hj

theorem isEdge_lt {poly : List (P2 K)} {i : Nat} {A B : P2 K} (h : IsEdge poly i A B) : i + 1 < poly.length := by
  by_contra hn
  have := h.2
  rw [List.getElem?_eq_none (by omega)] at this
  cases this

end Geometrix
