import Verif.Model.Rotation
import Verif.Lemmas.Vec
import Mathlib.Data.List.Range
import Mathlib.Algebra.Order.Archimedean.Basic

/-!
# Helper lemmas about splitting a segment
-/

set_option linter.unusedSectionVars false

namespace Geometrix

open Spec

variable {K : Type*} [Field K] [LinearOrder K] [IsStrictOrderedRing K]

/-- The segment from `A` to `B` in `2 ^ n` equal pieces. -/
def pieces (n : Nat) (A B : P2 K) : List (P2 K × P2 K) :=
  (List.range (2 ^ n)).map fun k : Nat =>
    (A + ((k : K) / 2 ^ n) • (B - A), A + (((k : K) + 1) / 2 ^ n) • (B - A))

theorem pieces_succ (n : Nat) (A B : P2 K) : pieces (n + 1) A B =
    pieces n A (A + (1 / 2 : K) • (B - A)) ++ pieces n (A + (1 / 2 : K) • (B - A)) B := by
  unfold pieces
  rw [show (2 : Nat) ^ (n + 1) = 2 ^ n + 2 ^ n by ring, List.range_add, List.map_append, List.map_map]
  have h2 : (2 : K) ^ n ≠ 0 := by positivity
  congr 1
  · apply List.map_congr_left
    intro k _
    refine Prod.ext ?_ ?_ <;> ext <;> simp [pow_succ] <;> field_simp
  · apply List.map_congr_left
    intro k _
    refine Prod.ext ?_ ?_ <;> ext <;> simp [pow_succ] <;> field_simp <;> ring

theorem distSq_half_left (A B : P2 K) : distSq A (A + (1 / 2 : K) • (B - A)) = distSq A B / 4 := by
  simp only [distSq, normSq, dot, P2.add_x, P2.add_y, P2.smul_x, P2.smul_y, P2.sub_x, P2.sub_y]; ring

theorem distSq_half_right (A B : P2 K) : distSq (A + (1 / 2 : K) • (B - A)) B = distSq A B / 4 := by
  simp only [distSq, normSq, dot, P2.add_x, P2.add_y, P2.smul_x, P2.smul_y, P2.sub_x, P2.sub_y]; ring

theorem splitRec_spec (maxSq : K) (n : Nat) : ∀ (fuel : Nat) (A B : P2 K), n < fuel →
    distSq A B ≤ 4 ^ n * maxSq → (∀ k < n, 4 ^ k * maxSq < distSq A B) →
    splitSegmentRec maxSq fuel A B = .ok (pieces n A B) := by
  induction n with
  | zero =>
    intro fuel A B hf h1 _
    obtain ⟨f, rfl⟩ : ∃ f, fuel = f + 1 := ⟨fuel - 1, by omega⟩
    unfold splitSegmentRec
    rw [if_neg (by simpa using h1)]
    simp only [pieces, pow_zero, List.range_one, List.map_cons, List.map_nil, Nat.cast_zero,
      Except.ok.injEq, List.cons.injEq, and_true, Prod.mk.injEq]
    constructor <;> ext <;> simp
  | succ n ih =>
    intro fuel A B hf h1 h2
    obtain ⟨f, rfl⟩ : ∃ f, fuel = f + 1 := ⟨fuel - 1, by omega⟩
    have h0 := h2 0 (by omega)
    rw [pow_zero, one_mul] at h0
    have h4 : ∀ k : Nat, (4 : K) ^ (k + 1) = 4 * 4 ^ k := fun k => by ring
    have hb : distSq A B / 4 ≤ 4 ^ n * maxSq := by rw [h4] at h1; linarith
    have hk : ∀ k < n, 4 ^ k * maxSq < distSq A B / 4 := by
      intro k hk
      have := h2 (k + 1) (by omega)
      rw [h4] at this; linarith
    unfold splitSegmentRec
    rw [if_pos h0,
      ih f A (A + (1 / 2 : K) • (B - A)) (by omega) (by rw [distSq_half_left]; exact hb)
        (by rw [distSq_half_left]; exact hk),
      ih f (A + (1 / 2 : K) • (B - A)) B (by omega) (by rw [distSq_half_right]; exact hb)
        (by rw [distSq_half_right]; exact hk), pieces_succ]

end Geometrix
