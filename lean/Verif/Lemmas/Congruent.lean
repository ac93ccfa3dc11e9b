import Verif.Model.Congruent
import Verif.Spec.Motion
import Verif.Lemmas.Sphere
import Verif.Lemmas.PointSequence

/-!
# Lemmas on congruence
-/

set_option linter.unusedSectionVars false

namespace Geometrix

open Spec

theorem pointDist_eq_iff (a b c d : P2 ℝ) :
    pointDist a b = pointDist c d ↔ distSq a b = distSq c d := by
  unfold pointDist
  constructor
  · intro h
    have hn : ∀ a b : P2 ℝ, 0 ≤ distSq a b := by
      intro a b
      simp only [distSq, normSq, dot]
      nlinarith [mul_self_nonneg (b - a).x, mul_self_nonneg (b - a).y]
    exact (Real.sqrt_inj (hn a b) (hn c d)).mp h
  · intro h; rw [h]

theorem distSq_move {c s : ℝ} (t : P2 ℝ) (h : c ^ 2 + s ^ 2 = 1) (a b : P2 ℝ) :
    distSq (move c s t a) (move c s t b) = distSq a b := by
  simp only [distSq, normSq, dot, move, P2.sub_x, P2.sub_y]
  linear_combination ((b.x - a.x) * (b.x - a.x) + (b.y - a.y) * (b.y - a.y)) * h

theorem dot_move {c s : ℝ} (t : P2 ℝ) (h : c ^ 2 + s ^ 2 = 1) (o a b : P2 ℝ) :
    dot (move c s t a - move c s t o) (move c s t b - move c s t o) = dot (a - o) (b - o) := by
  simp only [dot, move, P2.sub_x, P2.sub_y]
  linear_combination ((a.x - o.x) * (b.x - o.x) + (a.y - o.y) * (b.y - o.y)) * h

theorem cross_move {c s : ℝ} (t : P2 ℝ) (h : c ^ 2 + s ^ 2 = 1) (o a b : P2 ℝ) :
    cross (move c s t a - move c s t o) (move c s t b - move c s t o) = cross (a - o) (b - o) := by
  simp only [cross, move, P2.sub_x, P2.sub_y]
  linear_combination ((a.x - o.x) * (b.y - o.y) - (a.y - o.y) * (b.x - o.x)) * h

theorem sameCorner_iff (h i j h' i' j' : P2 ℝ) : sameCorner Cmp.direct h i j h' i' j' = true ↔
    dot (h - i) (j - i) = dot (h' - i') (j' - i') ∧
      cross (h - i) (j - i) = cross (h' - i') (j' - i') := by
  simp [sameCorner, direct_equals]

/-- A motion passes the loop. -/
theorem congruentLoop_move {c s : ℝ} (t : P2 ℝ) (hcs : c ^ 2 + s ^ 2 = 1) (l : List (P2 ℝ)) :
    ∀ prev : Option (P2 ℝ),
    congruentLoop Cmp.direct (prev.map fun h => (h, move c s t h)) l (l.map (move c s t)) = true := by
  induction l with
  | nil => intro prev; simp [congruentLoop]
  | cons a l ih =>
    intro prev
    cases l with
    | nil => simp [congruentLoop]
    | cons b l =>
      have hd : pointDist a b = pointDist (move c s t a) (move c s t b) := by
        rw [pointDist_eq_iff, distSq_move t hcs]
      have := ih (some a)
      cases prev with
      | none =>
        simp only [List.map_cons, congruentLoop, Option.map_none, hd] at this ⊢
        simpa using this
      | some h =>
        have hs : sameCorner Cmp.direct h a b (move c s t h) (move c s t a) (move c s t b) = true := by
          rw [sameCorner_iff, dot_move t hcs, cross_move t hcs]
          exact ⟨rfl, rfl⟩
        simp only [List.map_cons, congruentLoop, Option.map_some, hd, hs] at this ⊢
        simpa using this

/-- The third point of a corner is determined. -/
theorem corner_determined {c s : ℝ} {t h i j h' i' j' : P2 ℝ} (hcs : c ^ 2 + s ^ 2 = 1)
    (hne : h ≠ i) (eh : h' = move c s t h) (ei : i' = move c s t i)
    (hd : dot (h - i) (j - i) = dot (h' - i') (j' - i'))
    (hc : cross (h - i) (j - i) = cross (h' - i') (j' - i')) : j' = move c s t j := by
  have hu : (h.x - i.x) ^ 2 + (h.y - i.y) ^ 2 ≠ 0 := by
    intro h0
    apply hne
    ext <;> nlinarith [sq_nonneg (h.x - i.x), sq_nonneg (h.y - i.y)]
  rw [eh, ei] at hd hc
  simp only [dot, cross, move, P2.sub_x, P2.sub_y] at hd hc
  ext
  · apply mul_left_cancel₀ hu
    simp only [move]
    linear_combination -((c * (h.x - i.x) - s * (h.y - i.y)) * hd) +
      (s * (h.x - i.x) + c * (h.y - i.y)) * hc +
      ((h.x - i.x) ^ 2 + (h.y - i.y) ^ 2) * (c * i.x - s * i.y + t.x - j'.x) * hcs
  · apply mul_left_cancel₀ hu
    simp only [move]
    linear_combination -((s * (h.x - i.x) + c * (h.y - i.y)) * hd) -
      (c * (h.x - i.x) - s * (h.y - i.y)) * hc +
      ((h.x - i.x) ^ 2 + (h.y - i.y) ^ 2) * (s * i.x + c * i.y + t.y - j'.y) * hcs

/-- After the first pair the loop determines the other list. -/
theorem congruentLoop_determined {c s : ℝ} {t : P2 ℝ} (hcs : c ^ 2 + s ^ 2 = 1) (l : List (P2 ℝ)) :
    ∀ (l' : List (P2 ℝ)) (h i : P2 ℝ), h ≠ i → (i :: l).dropLast.IsChain (· ≠ ·) →
      l.length = l'.length →
      congruentLoop Cmp.direct (some (h, move c s t h)) (i :: l) (move c s t i :: l') = true →
      l' = l.map (move c s t) := by
  induction l with
  | nil =>
    intro l' h i _ _ hl _
    have : l' = [] := List.length_eq_zero_iff.mp hl.symm
    rw [this]; rfl
  | cons j l ih =>
    intro l' h i hne hch hl hloop
    cases l' with
    | nil => simp at hl
    | cons j' l' =>
      simp only [congruentLoop] at hloop
      have hs : sameCorner Cmp.direct h i j (move c s t h) (move c s t i) j' = true := by
        by_contra hs
        simp [hs] at hloop
      have hrest : congruentLoop Cmp.direct (some (i, move c s t i)) (j :: l) (j' :: l') = true := by
        by_contra hr
        simp [hr] at hloop
      obtain ⟨h1, h2⟩ := (sameCorner_iff ..).mp hs
      have hj := corner_determined hcs hne rfl rfl h1 h2
      subst hj
      rw [List.map_cons]
      congr 1
      cases l with
      | nil =>
        have : l' = [] := List.length_eq_zero_iff.mp (by simpa using hl.symm)
        rw [this]; rfl
      | cons k l =>
        have hch' : i ≠ j ∧ (j :: k :: l).dropLast.IsChain (· ≠ ·) := by
          have e : (i :: j :: k :: l).dropLast = i :: j :: (k :: l).dropLast := rfl
          rw [e, List.isChain_cons_cons] at hch
          exact hch
        exact ih l' i j hch'.1 hch'.2 (by simpa using hl) hrest

/-- Two segments of the same length, not zero, are related by a motion. -/
theorem segment_motion {a b a' b' : P2 ℝ} (hne : a ≠ b) (h : distSq a b = distSq a' b') :
    ∃ (c s : ℝ) (t : P2 ℝ), c ^ 2 + s ^ 2 = 1 ∧ a' = move c s t a ∧ b' = move c s t b := by
  have hu : (b.x - a.x) ^ 2 + (b.y - a.y) ^ 2 ≠ 0 := by
    intro h0
    apply hne
    ext <;> nlinarith [sq_nonneg (b.x - a.x), sq_nonneg (b.y - a.y)]
  simp only [distSq, normSq, dot, P2.sub_x, P2.sub_y] at h
  set n := (b.x - a.x) ^ 2 + (b.y - a.y) ^ 2 with hn
  set c := ((b.x - a.x) * (b'.x - a'.x) + (b.y - a.y) * (b'.y - a'.y)) / n with hc
  set s := ((b.x - a.x) * (b'.y - a'.y) - (b.y - a.y) * (b'.x - a'.x)) / n with hs
  have hcn : c * n = (b.x - a.x) * (b'.x - a'.x) + (b.y - a.y) * (b'.y - a'.y) := by
    rw [hc, div_mul_cancel₀ _ hu]
  have hsn : s * n = (b.x - a.x) * (b'.y - a'.y) - (b.y - a.y) * (b'.x - a'.x) := by
    rw [hs, div_mul_cancel₀ _ hu]
  refine ⟨c, s, ⟨a'.x - (c * a.x - s * a.y), a'.y - (s * a.x + c * a.y)⟩, ?_, ?_, ?_⟩
  · have : (n * n) * (c ^ 2 + s ^ 2) = (n * n) * 1 := by
      have e : (n * n) * (c ^ 2 + s ^ 2) = (c * n) ^ 2 + (s * n) ^ 2 := by ring
      rw [e, hcn, hsn]
      have e2 : n * n = n * ((b'.x - a'.x) * (b'.x - a'.x) + (b'.y - a'.y) * (b'.y - a'.y)) := by
        rw [← h, hn]; ring
      rw [e2, hn]; ring
    exact mul_left_cancel₀ (mul_ne_zero hu hu) this
  · ext <;> simp [move]
  · ext
    · simp only [move]
      apply mul_left_cancel₀ hu
      have : n * (c * b.x - s * b.y + (a'.x - (c * a.x - s * a.y))) =
        (c * n) * (b.x - a.x) - (s * n) * (b.y - a.y) + n * a'.x := by ring
      rw [this, hcn, hsn, hn]; ring
    · simp only [move]
      apply mul_left_cancel₀ hu
      have : n * (s * b.x + c * b.y + (a'.y - (s * a.x + c * a.y))) =
        (s * n) * (b.x - a.x) + (c * n) * (b.y - a.y) + n * a'.y := by ring
      rw [this, hcn, hsn, hn]; ring

/-- The loop decides congruence when no two consecutive points, the last pair excepted, are equal. -/
theorem congruentLoop_iff (l l' : List (P2 ℝ)) (hlen : l.length = l'.length)
    (hch : l.dropLast.IsChain (· ≠ ·)) :
    congruentLoop Cmp.direct none l l' = true ↔ Congruent l l' := by
  constructor
  · intro h
    match l, l' with
    | [], [] => exact ⟨1, 0, 0, by norm_num, rfl⟩
    | [a], [a'] =>
      refine ⟨1, 0, a' - a, by norm_num, ?_⟩
      simp only [List.map_cons, List.map_nil, List.cons.injEq, and_true]
      ext <;> simp [move]
    | a :: b :: r, a' :: b' :: r' =>
      simp only [congruentLoop] at h
      have hd : pointDist a b = pointDist a' b' := by
        by_contra hd
        simp [hd] at h
      have hrest : congruentLoop Cmp.direct (some (a, a')) (b :: r) (b' :: r') = true := by
        by_contra hr
        simp [hr] at h
      rw [pointDist_eq_iff] at hd
      by_cases hab : a = b
      · cases r with
        | nil =>
          have hr' : r' = [] := List.length_eq_zero_iff.mp (by simpa using hlen.symm)
          subst hr'
          subst hab
          refine ⟨1, 0, a' - a, by norm_num, ?_⟩
          have hab' : a' = b' := by
            simp only [distSq, normSq, dot, P2.sub_x, P2.sub_y, sub_self] at hd
            ext <;> nlinarith [mul_self_nonneg (b'.x - a'.x), mul_self_nonneg (b'.y - a'.y)]
          rw [← hab']
          simp only [List.map_cons, List.map_nil, List.cons.injEq, and_true]
          constructor <;> ext <;> simp [move]
        | cons d r =>
          have e : (a :: b :: d :: r).dropLast = a :: b :: (d :: r).dropLast := rfl
          rw [e, List.isChain_cons_cons] at hch
          exact absurd hab hch.1
      · obtain ⟨c, s, t, hcs, ea, eb⟩ := segment_motion hab hd
        refine ⟨c, s, t, hcs, ?_⟩
        rw [List.map_cons, List.map_cons, ea, eb]
        congr 2
        rw [ea, eb] at hrest
        refine congruentLoop_determined hcs r r' a b hab ?_ (by simpa using hlen) hrest
        cases r with
        | nil => simp
        | cons d r =>
          have e : (a :: b :: d :: r).dropLast = a :: b :: (d :: r).dropLast := rfl
          rw [e, List.isChain_cons_cons] at hch
          exact hch.2
  · rintro ⟨c, s, t, hcs, rfl⟩
    exact congruentLoop_move t hcs l none

end Geometrix
