import Verif.Model.PolylineClip
import Verif.Lemmas.PolylineSplit

/-!
# Clipping the ends of a polyline
-/

set_option linter.unusedSectionVars false

namespace Geometrix

open Spec

/-- Nothing is long enough. -/
theorem cutoffLengths_none (pos : ℝ) (rest : List (P2 ℝ)) (len : ℝ) (p : P2 ℝ)
    (h : len + chainSum Spec.dist (p :: rest) < pos) : ∀ x ∈ cutoffLengths pos len p rest, x < pos := by
  induction rest generalizing len p with
  | nil => simp [cutoffLengths]
  | cons q rest ih =>
    rw [chainSum_cons] at h
    have hn := chainSum_nonneg (q :: rest)
    rw [cutoffLengths, pointDist_fun, if_neg (by linarith)]
    intro x hx
    rcases List.mem_cons.1 hx with rfl | hx
    · linarith
    · exact ih (len + Spec.dist p q) q (by linarith) x hx

/-- The vertex after the first length that is not less than `pos`. -/
theorem cutoffLengths_find (pos : ℝ) (rest : List (P2 ℝ)) (len : ℝ) (p : P2 ℝ) (h0 : len ≤ pos) (hr : rest ≠ [])
    (h1 : pos ≤ len + chainSum Spec.dist (p :: rest)) :
    ∃ l A B r c, p :: rest = l ++ A :: B :: r ∧
      (cutoffLengths pos len p rest).findIdx (fun x => !decide (x < pos)) = l.length ∧
      (cutoffLengths pos len p rest)[l.length]? = some c ∧
      pos ≤ c ∧ c - Spec.dist A B ≤ pos ∧
      c = len + chainSum Spec.dist (l ++ [A]) + Spec.dist A B ∧
      len + chainSum Spec.dist (p :: rest) = c + chainSum Spec.dist (B :: r) := by
  induction rest generalizing len p with
  | nil => exact absurd rfl hr
  | cons q rest ih =>
    rw [chainSum_cons] at h1 ⊢
    by_cases hg : len + Spec.dist p q < pos
    · have hrest : rest ≠ [] := by
        rintro rfl
        rw [chainSum_single] at h1; linarith
      obtain ⟨l, A, B, r, c, k1, k2, k3, k4, k5, k6, k7⟩ :=
        ih (len + Spec.dist p q) q hg.le hrest (by linarith)
      rw [cutoffLengths, pointDist_fun, if_neg (by linarith), List.findIdx_cons,
        show (!decide (len + Spec.dist p q < pos)) = false by simpa using hg, cond_false]
      refine ⟨p :: l, A, B, r, c, by rw [k1]; rfl, ?_, ?_, k4, k5, ?_, by linarith⟩
      · rw [k2]; rfl
      · rw [List.length_cons, List.getElem?_cons_succ]; exact k3
      · have hd : chainSum Spec.dist (p :: (l ++ [A])) =
            Spec.dist p q + chainSum Spec.dist (l ++ [A]) := by
          cases l with
          | nil =>
            rw [List.nil_append] at k1 ⊢
            rw [chainSum_cons, (List.cons.inj k1).1]
          | cons x l =>
            rw [List.cons_append] at k1 ⊢
            rw [chainSum_cons, (List.cons.inj k1).1]
        rw [List.cons_append, hd]; linarith
    · have hf : (!decide (len + Spec.dist p q < pos)) = true := by simpa using hg
      refine ⟨[], p, q, rest, len + Spec.dist p q, rfl, ?_, ?_, not_lt.mp hg, by linarith, by
        rw [List.nil_append, chainSum_single]; ring, by ring⟩
      · rw [cutoffLengths, pointDist_fun]
        split_ifs <;> rw [List.findIdx_cons, hf] <;> rfl
      · rw [cutoffLengths, pointDist_fun]
        split_ifs <;> rfl

theorem seqEquals_iff (A B : P2 ℝ) : seqEquals Cmp.direct A B = true ↔ A = B := by
  simp only [seqEquals, direct_equals, Bool.and_eq_true, decide_eq_true_eq]
  constructor
  · rintro ⟨h1, h2⟩; ext <;> assumption
  · rintro rfl; exact ⟨rfl, rfl⟩

theorem clipFront_spec (poly : List (P2 ℝ)) (l : ℝ) (h0 : 0 ≤ l) (h1 : l < chainSum Spec.dist poly) :
    ∃ a b, clipFront Cmp.direct poly l = .ok b ∧ IsCut poly a b ∧ chainSum Spec.dist a = l ∧
      chainSum Spec.dist b = chainSum Spec.dist poly - l := by
  match poly with
  | [] => rw [chainSum_nil] at h1; linarith
  | [p] => rw [chainSum_single] at h1; linarith
  | p :: q :: rest =>
    obtain ⟨l0, A, B, r, c, k1, k2, k3, k4, k5, k6, k7⟩ :=
      cutoffLengths_find l (q :: rest) 0 p h0 (by simp) (by linarith)
    have hA : (p :: q :: rest)[l0.length]? = some A := by rw [k1]; simp
    have hB : (p :: q :: rest)[l0.length + 1]? = some B := by rw [k1]; simp
    have hd1 : (p :: q :: rest).drop (l0.length + 1) = B :: r := by rw [k1]; simp
    have hd2 : (p :: q :: rest).drop (l0.length + 2) = r := by rw [k1]; simp
    unfold clipFront segmentLengths
    dsimp only
    rw [k2, k3, hA, hB, hd1, hd2]
    dsimp only
    by_cases hc : c - l > 0
    · rw [if_pos (by rw [direct_gt]; exact hc)]
      have hle : c - l ≤ Spec.dist A B := by linarith
      have hjoin : ∀ S, OnSegment A B S → Spec.dist S B = c - l →
          chainSum Spec.dist (l0 ++ [A, S]) = l ∧ chainSum Spec.dist (S :: B :: r) =
            chainSum Spec.dist (p :: q :: rest) - l := by
        intro S hS hSB
        have := dist_split hS
        refine ⟨?_, ?_⟩
        · rw [show l0 ++ [A, S] = (l0 ++ [A]) ++ [S] by simp]
          rw [show l0 ++ [A] ++ [S] = l0 ++ [A, S] by simp, chainSum_concat]
          linarith
        · rw [chainSum_cons, hSB]; linarith
      rcases hle.lt_or_eq with hlt | heq
      · obtain ⟨t, e, t0, t1, t2, t3⟩ := stepBack_spec hc.le hlt
        rw [e]
        dsimp only
        have ht1 := t2 hc
        have hS : OnSegment A B (A + t • (B - A)) := ⟨t, t0.le, t1, rfl⟩
        have hSB : Spec.dist (A + t • (B - A)) B = c - l := by
          rw [dist_along' A B t t1]; linarith
        have hne : seqEquals Cmp.direct (A + t • (B - A)) B = false := by
          rw [Bool.eq_false_iff, ne_eq, seqEquals_iff]
          intro h
          rw [h, dist_self'] at hSB; linarith
        rw [hne]
        obtain ⟨j1, j2⟩ := hjoin _ hS hSB
        refine ⟨l0 ++ [A, A + t • (B - A)], _, rfl, ⟨l0 ++ [A], B :: r, A + t • (B - A), by simp, rfl,
          Or.inr ⟨A, B, by simp, rfl, by rw [k1]; simp, t, t0, ht1, rfl⟩⟩, j1, j2⟩
      · have hpos : 0 < Spec.dist A B := by linarith
        have e : stepBack A B (c - l) = .ok A := by
          unfold stepBack normalize2
          rw [sqrt_normSq_sub, if_neg hpos.ne', heq]
          dsimp only
          congr 1
          ext <;> simp <;> field_simp <;> ring
        rw [e]
        dsimp only
        have hne : seqEquals Cmp.direct A B = false := by
          rw [Bool.eq_false_iff, ne_eq, seqEquals_iff]
          intro h
          rw [h, dist_self'] at hpos; linarith
        rw [hne]
        refine ⟨l0 ++ [A], _, rfl, ⟨l0, B :: r, A, rfl, rfl, Or.inl k1⟩, by linarith, ?_⟩
        show chainSum Spec.dist (A :: B :: r) = _
        rw [chainSum_cons]; linarith
    · have hcl : c = l := by linarith
      rw [if_neg (by rw [direct_gt]; exact hc)]
      have hr : r ≠ [] := by
        rintro rfl
        rw [chainSum_single] at k7; linarith
      have hlen : l0.length + 2 < (p :: q :: rest).length := by
        rw [k1]
        have := List.length_pos_of_ne_nil hr
        simp only [List.length_append, List.length_cons]; omega
      rw [if_pos hlen]
      refine ⟨l0 ++ [A, B], _, rfl, ⟨l0 ++ [A], r, B, by simp, rfl, Or.inl (by rw [k1]; simp)⟩, ?_, by linarith⟩
      rw [chainSum_concat]; linarith

theorem clipFront_long (poly : List (P2 ℝ)) (l : ℝ) (h1 : chainSum Spec.dist poly < l) :
    clipFront Cmp.direct poly l = .ok [] := by
  have hnone : ∀ L : List ℝ, (∀ x ∈ L, x < l) → L[L.findIdx fun x => !decide (x < l)]? = none := by
    intro L hL
    have : L.findIdx (fun x => !decide (x < l)) = L.length := by
      rw [List.findIdx_eq_length]
      intro x hx
      simpa using hL x hx
    rw [this]; simp
  unfold clipFront
  dsimp only
  rw [hnone]
  match poly with
  | [] => simp [segmentLengths]
  | p :: rest => exact cutoffLengths_none l rest 0 p (by linarith)

/-- At the full length only copies of the last vertex are left. -/
theorem clipFront_all (poly : List (P2 ℝ)) (l : ℝ) (h1 : chainSum Spec.dist poly = l) :
    ∃ b, clipFront Cmp.direct poly l = .ok b ∧ b <:+ poly ∧ chainSum Spec.dist b = 0 := by
  have hl : 0 ≤ l := h1 ▸ chainSum_nonneg poly
  match poly with
  | [] => exact ⟨[], rfl, List.suffix_refl _, rfl⟩
  | [p] => exact ⟨[], rfl, List.nil_suffix, rfl⟩
  | p :: q :: rest =>
    obtain ⟨l0, A, B, r, c, k1, k2, k3, k4, k5, k6, k7⟩ :=
      cutoffLengths_find l (q :: rest) 0 p hl (by simp) (by linarith)
    have hA : (p :: q :: rest)[l0.length]? = some A := by rw [k1]; simp
    have hB : (p :: q :: rest)[l0.length + 1]? = some B := by rw [k1]; simp
    have hd2 : (p :: q :: rest).drop (l0.length + 2) = r := by rw [k1]; simp
    have hn := chainSum_nonneg (B :: r)
    have hcl : c = l := by linarith
    unfold clipFront segmentLengths
    dsimp only
    rw [k2, k3, hA, hB, hd2]
    dsimp only
    rw [if_neg (by rw [direct_gt, hcl]; simp)]
    split_ifs with hlen
    · refine ⟨_, rfl, ⟨l0 ++ [A], by rw [k1]; simp⟩, by linarith⟩
    · have hr : r = [] := by
        rw [k1] at hlen
        cases r with
        | nil => rfl
        | cons x r => simp at hlen
      exact ⟨_, rfl, by rw [hr]; exact List.nil_suffix, by rw [hr]; rfl⟩

/-- Cutting the reversed polyline. -/
theorem isCut_reverse {poly a b : List (P2 ℝ)} (h : IsCut poly.reverse a b) : IsCut poly b.reverse a.reverse := by
  obtain ⟨before, after, S, rfl, rfl, h⟩ := h
  refine ⟨after.reverse, before.reverse, S, by simp, by simp, ?_⟩
  rcases h with h | ⟨A, B, hA, hB, h, t, t0, t1, hS⟩
  · left
    rw [← List.reverse_reverse poly, h]; simp
  · right
    refine ⟨B, A, by simpa using hB, by simpa using hA, by rw [← List.reverse_reverse poly, h]; simp,
      1 - t, by linarith, by linarith, ?_⟩
    rw [hS]
    ext <;> simp <;> ring

theorem chainSum_dist_reverse (l : List (P2 ℝ)) : chainSum Spec.dist l.reverse = chainSum Spec.dist l := by
  rw [chainSum_reverse]
  congr 1
  funext a b
  exact dist_comm' _ _

theorem clipBack_spec (poly : List (P2 ℝ)) (l : ℝ) (h0 : 0 ≤ l) (h1 : l < chainSum Spec.dist poly) :
    ∃ a b, clipBack Cmp.direct poly l = .ok a ∧ IsCut poly a b ∧ chainSum Spec.dist b = l ∧
      chainSum Spec.dist a = chainSum Spec.dist poly - l := by
  obtain ⟨a, b, e, hc, ha, hb⟩ := clipFront_spec poly.reverse l h0 (by rwa [chainSum_dist_reverse])
  rw [chainSum_dist_reverse] at hb
  refine ⟨b.reverse, a.reverse, by rw [clipBack, e], isCut_reverse hc, by rw [chainSum_dist_reverse, ha], by
    rw [chainSum_dist_reverse, hb]⟩

end Geometrix
