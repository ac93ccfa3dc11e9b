import Verif.Lemmas.NodeBsp

/-!
# Helpers for trees with the segments at the nodes: the scored selector
-/

set_option linter.unusedSectionVars false

namespace Geometrix
open Spec

variable {K : Type*} [Field K] [LinearOrder K] [IsStrictOrderedRing K]

/-- The line of `e` cuts `s`. -/
def cutBy (s e : P2 K × P2 K) : Bool := decide (area2 e.1 e.2 s.1 * area2 e.1 e.2 s.2 < 0)
/-- `s` is to the left of the line of `e`. -/
def leftOfLine (s e : P2 K × P2 K) : Bool := decide (0 ≤ area2 e.1 e.2 s.1 ∧ 0 ≤ area2 e.1 e.2 s.2)
/-- `s` is to the right of the line of `e`. -/
def rightOfLine (s e : P2 K × P2 K) : Bool := decide (area2 e.1 e.2 s.1 ≤ 0 ∧ area2 e.1 e.2 s.2 ≤ 0 ∧
  (area2 e.1 e.2 s.1 < 0 ∨ area2 e.1 e.2 s.2 < 0))

theorem classify_count (s e : P2 K × P2 K) : ∃ c, classifyEdge Cmp.direct e s = .ok c ∧
    match c with
    | .crosses _ _ => cutBy s e = true ∧ leftOfLine s e = false ∧ rightOfLine s e = false
    | .positive => cutBy s e = false ∧ leftOfLine s e = true ∧ rightOfLine s e = false
    | .negative => cutBy s e = false ∧ leftOfLine s e = false ∧ rightOfLine s e = true
    | .coincident => cutBy s e = false ∧ leftOfLine s e = true ∧ rightOfLine s e = false := by
  obtain ⟨c, h1, h2⟩ := classifyEdge_case e s
  refine ⟨c, h1, ?_⟩
  unfold cutBy leftOfLine rightOfLine
  cases c with
  | crosses P N =>
    obtain ⟨x, -, -, ⟨-, -, a, b⟩ | ⟨-, -, a, b⟩⟩ := h2 <;> rw [linePlane_dist] at a b <;>
      simp only [decide_eq_true_eq, decide_eq_false_iff_not]
    · exact ⟨mul_neg_of_neg_of_pos a b, fun h => by linarith [h.1], fun h => by linarith [h.2.1]⟩
    · exact ⟨mul_neg_of_pos_of_neg a b, fun h => by linarith [h.2], fun h => by linarith [h.1]⟩
  | positive =>
    obtain ⟨a, b, c⟩ := h2
    rw [linePlane_dist] at a b c
    rw [linePlane_dist] at c
    simp only [decide_eq_true_eq, decide_eq_false_iff_not]
    exact ⟨not_lt.2 (mul_nonneg a b), ⟨a, b⟩, fun h => by rcases h.2.2 with h | h <;> linarith⟩
  | negative =>
    obtain ⟨a, b, c⟩ := h2
    rw [linePlane_dist] at a b c
    rw [linePlane_dist] at c
    simp only [decide_eq_true_eq, decide_eq_false_iff_not]
    exact ⟨not_lt.2 (mul_nonneg_of_nonpos_of_nonpos a b), fun h => by rcases c with c | c <;> linarith [h.1, h.2], a, b, c⟩
  | coincident =>
    obtain ⟨a, b⟩ := h2
    rw [linePlane_dist] at a b
    simp only [decide_eq_true_eq, decide_eq_false_iff_not]
    rw [a, b]
    simp

/-- The segments of the list at the positions other than `i`, when the first has position `j`. -/
def othersFrom (i j : Nat) (l : List (P2 K × P2 K)) : List (P2 K × P2 K) := if i < j then l else l.eraseIdx (i - j)

theorem tallyLoop_count (s : P2 K × P2 K) (i : Nat) : ∀ (l : List (P2 K × P2 K)) (j : Nat) (t : Tally),
    tallyLoop Cmp.direct s i j l t = .ok ⟨t.front + (othersFrom i j l).countP (leftOfLine s),
      t.behind + (othersFrom i j l).countP (rightOfLine s), t.straddling + (othersFrom i j l).countP (cutBy s)⟩
  | [], j, t => by simp [tallyLoop, othersFrom]
  | e :: l, j, t => by
    rw [tallyLoop]
    split_ifs with h
    · subst h
      rw [tallyLoop_count s i l]
      simp [othersFrom]
    · have ho : othersFrom i j (e :: l) = e :: othersFrom i (j + 1) l := by
        unfold othersFrom
        by_cases hij : i < j
        · simp [hij, Nat.lt_succ_of_lt hij]
        · rw [if_neg hij, if_neg (by omega), show i - j = (i - (j + 1)) + 1 by omega, List.eraseIdx_cons_succ]
      obtain ⟨c, h1, h2⟩ := classify_count s e
      rw [scoredClassify, h1, ho]
      cases c <;> dsimp only at h2 ⊢ <;> rw [tallyLoop_count s i l] <;> obtain ⟨a, b, c⟩ := h2 <;>
        simp [a, b, c] <;> omega

theorem tally_score (s : P2 K × P2 K) (i : Nat) (l : List (P2 K × P2 K)) :
    ∃ t, tallyLoop Cmp.direct s i 0 l ⟨0, 0, 0⟩ = .ok t ∧ t.score = exchangedScore l i s := by
  refine ⟨_, tallyLoop_count s i l 0 _, ?_⟩
  simp only [Tally.score, exchangedScore, othersFrom, Nat.not_lt_zero, if_false, Nat.sub_zero, zero_add]
  rfl

theorem scoredEdgeLoop_inv (all : List (P2 K × P2 K)) : ∀ (l pre : List (P2 K × P2 K)) (best : Int × (P2 K × P2 K)) (i0 : Nat),
    all = pre ++ l → all[i0]? = some best.2 → best.1 = exchangedScore all i0 best.2 → i0 < pre.length →
    (∀ j e, j < pre.length → all[j]? = some e → best.1 < exchangedScore all j e ∨ (best.1 ≤ exchangedScore all j e ∧ i0 ≤ j)) →
    ∃ i s, scoredEdgeLoop Cmp.direct all pre.length l (some best) = .ok (some (exchangedScore all i s, s)) ∧ all[i]? = some s ∧
      ∀ j e, all[j]? = some e → exchangedScore all i s < exchangedScore all j e ∨ (exchangedScore all i s ≤ exchangedScore all j e ∧ i ≤ j)
  | [], pre, best, i0, hall, h1, h2, h3, h4 => by
    refine ⟨i0, best.2, by rw [scoredEdgeLoop, ← h2], h1, ?_⟩
    intro j e hj
    have : j < pre.length := by
      have := (List.getElem?_eq_some_iff.1 hj).1
      rw [hall, List.append_nil] at this
      exact this
    rw [← h2]
    exact h4 j e this hj
  | s :: l, pre, best, i0, hall, h1, h2, h3, h4 => by
    obtain ⟨t, ht, hsc⟩ := tally_score s pre.length all
    have hs : all[pre.length]? = some s := by rw [hall]; simp
    have hall' : all = (pre ++ [s]) ++ l := by rw [hall]; simp
    have hlen : (pre ++ [s]).length = pre.length + 1 := by simp
    rw [scoredEdgeLoop, ht]
    dsimp only
    split_ifs with hlt
    · rw [← hlen]
      refine scoredEdgeLoop_inv all l (pre ++ [s]) (t.score, s) pre.length hall' hs hsc (by simp) ?_
      intro j e hj he
      dsimp only
      by_cases hjp : j < pre.length
      · left
        rcases h4 j e hjp he with h | h
        · omega
        · omega
      · have : j = pre.length := by rw [hlen] at hj; omega
        subst this
        rw [hs] at he
        cases he
        right
        exact ⟨hsc.le, le_refl _⟩
    · rw [← hlen]
      refine scoredEdgeLoop_inv all l (pre ++ [s]) best i0 hall' h1 h2 (by rw [hlen]; omega) ?_
      intro j e hj he
      by_cases hjp : j < pre.length
      · exact h4 j e hjp he
      · have : j = pre.length := by rw [hlen] at hj; omega
        subst this
        rw [hs] at he
        cases he
        right
        rw [← hsc]
        exact ⟨by omega, h3.le⟩

theorem scoredEdgeLoop_min (l : List (P2 K × P2 K)) (hl : l ≠ []) :
    ∃ i s, scoredEdgeLoop Cmp.direct l 0 l none = .ok (some (exchangedScore l i s, s)) ∧ l[i]? = some s ∧
      ∀ j e, l[j]? = some e → exchangedScore l i s < exchangedScore l j e ∨ (exchangedScore l i s ≤ exchangedScore l j e ∧ i ≤ j) := by
  cases l with
  | nil => simp at hl
  | cons s l =>
    obtain ⟨t, ht, hsc⟩ := tally_score s 0 (s :: l)
    rw [scoredEdgeLoop, ht]
    dsimp only
    refine scoredEdgeLoop_inv (s :: l) l [s] (t.score, s) 0 rfl rfl hsc (by simp) ?_
    intro j e hj he
    have : j = 0 := by simpa using hj
    subst this
    cases he
    exact Or.inr ⟨hsc.le, le_refl _⟩

end Geometrix
