import Verif.Model.Curvature
import Verif.Spec.Curvature
import Verif.Spec.Sphere
import Verif.Lemmas.PolylineSplit
import Mathlib.Algebra.BigOperators.Intervals
import Mathlib.Tactic.LinearCombination
import Mathlib.Tactic.FieldSimp

/-!
# Curvature of polylines
-/

set_option linter.unusedSectionVars false

namespace Geometrix

open Spec

theorem distSq_eq_dist (a b : P2 ℝ) : distSq a b = Spec.dist a b ^ 2 := by
  rw [Spec.dist, Real.sq_sqrt (by positivity)]
  simp only [distSq, normSq, dot, P2.sub_x, P2.sub_y]; ring

theorem sqrt_distSq (a b : P2 ℝ) : Real.sqrt (distSq a b) = Spec.dist a b := by
  rw [distSq_eq_dist, Real.sqrt_sq (dist_nonneg' a b)]

theorem dist_pos_of_ne {a b : P2 ℝ} (h : a ≠ b) : 0 < Spec.dist a b :=
  lt_of_le_of_ne (dist_nonneg' a b) (fun e => h (dist_eq_zero'.1 e.symm))

theorem sqrt_three (a b c : P2 ℝ) : Real.sqrt (distSq b a * distSq b c * distSq a c) =
    Spec.dist a b * Spec.dist b c * Spec.dist a c := by
  rw [distSq_eq_dist, distSq_eq_dist, distSq_eq_dist, dist_comm' b a,
    show Spec.dist a b ^ 2 * Spec.dist b c ^ 2 * Spec.dist a c ^ 2 =
      (Spec.dist a b * Spec.dist b c * Spec.dist a c) ^ 2 by ring]
  exact Real.sqrt_sq (mul_nonneg (mul_nonneg (dist_nonneg' _ _) (dist_nonneg' _ _)) (dist_nonneg' _ _))

theorem cross_edges (a b c : P2 ℝ) : cross (b - a) (c - b) = triangleArea2 a b c := by
  simp only [cross, triangleArea2, P2.sub_x, P2.sub_y]; ring

theorem curvatureQuotient_ok {a b c : P2 ℝ} (h1 : a ≠ b) (h2 : b ≠ c) (h3 : a ≠ c) (x : ℝ) :
    curvatureQuotient x a b c = .ok (2 * x / (Spec.dist a b * Spec.dist b c * Spec.dist a c)) := by
  have := mul_pos (mul_pos (dist_pos_of_ne h1) (dist_pos_of_ne h2)) (dist_pos_of_ne h3)
  rw [curvatureQuotient, sqrt_three, cdiv_ok this.ne']

theorem curvatureQuotient_fold {a b c : P2 ℝ} (h : a = b ∨ b = c ∨ a = c) (x : ℝ) :
    curvatureQuotient x a b c = .error .divByZero := by
  have : Spec.dist a b * Spec.dist b c * Spec.dist a c = 0 := by
    rcases h with rfl | rfl | rfl <;> simp [dist_self']
  rw [curvatureQuotient, sqrt_three, this]
  simp [cdiv]

theorem three_points {poly : List (P2 ℝ)} {j : Nat} (h : j + 2 < poly.length) :
    ∃ a b c, poly[j]? = some a ∧ poly[j + 1]? = some b ∧ poly[j + 2]? = some c :=
  ⟨poly[j], poly[j + 1], poly[j + 2], List.getElem?_eq_getElem _, List.getElem?_eq_getElem _,
    List.getElem?_eq_getElem _⟩

theorem atVertex_out {f : P2 ℝ → P2 ℝ → P2 ℝ → ℝ} {poly : List (P2 ℝ)} {j : Nat}
    (h : ¬ (0 < j ∧ j + 1 < poly.length)) : atVertex f poly j = 0 := by
  cases j with
  | zero => rfl
  | succ j =>
    have : poly[j + 2]? = none := by
      rw [List.getElem?_eq_none_iff]; omega
    simp only [atVertex, this]
    split <;> simp_all

theorem signedCurvature_ok {poly : List (P2 ℝ)} (h : NoFolds poly) (j : Nat) :
    signedCurvature poly j = .ok (atVertex bend poly j) := by
  by_cases hj : 0 < j ∧ j + 1 < poly.length
  · obtain ⟨j, rfl⟩ : ∃ i, j = i + 1 := ⟨j - 1, by omega⟩
    obtain ⟨a, b, c, ha, hb, hc⟩ := three_points (poly := poly) (j := j) (by omega)
    obtain ⟨h1, h2, h3⟩ := h j a b c ha hb hc
    rw [signedCurvature, if_pos hj, Nat.add_sub_cancel, ha, hb, hc]
    dsimp only
    rw [curvatureQuotient_ok h1 h2 h3, cross_edges]
    simp only [atVertex, ha, hb, hc, bend]
  · rw [signedCurvature, if_neg hj, atVertex_out hj]

theorem curvatureOverIndex_ok {poly : List (P2 ℝ)} (h : NoFolds poly) (j : Nat) :
    curvatureOverIndex poly j = .ok (atVertex (fun a b c => halfEdges a b c * |bend a b c|) poly j) := by
  by_cases hj : 0 < j ∧ j + 1 < poly.length
  · obtain ⟨j, rfl⟩ : ∃ i, j = i + 1 := ⟨j - 1, by omega⟩
    obtain ⟨a, b, c, ha, hb, hc⟩ := three_points (poly := poly) (j := j) (by omega)
    obtain ⟨h1, h2, h3⟩ := h j a b c ha hb hc
    have hp := mul_pos (mul_pos (dist_pos_of_ne h1) (dist_pos_of_ne h2)) (dist_pos_of_ne h3)
    rw [curvatureOverIndex, if_pos hj, Nat.add_sub_cancel, ha, hb, hc]
    dsimp only
    rw [curvatureQuotient_ok h1 h2 h3, cross_edges]
    simp only [atVertex, ha, hb, hc, bend, halfEdges, sqrt_distSq, abs_div, abs_mul, dist_comm' b a]
    rw [abs_of_nonneg (dist_nonneg' a b), abs_of_nonneg (dist_nonneg' b c), abs_of_nonneg (dist_nonneg' a c),
      abs_two]
    congr 1
    ring
  · rw [curvatureOverIndex, if_neg hj, atVertex_out hj]

/-- The circle through three points. -/
theorem bend_circle {a b c O : P2 ℝ} {R : ℝ} (h1 : a ≠ b) (h2 : b ≠ c) (h3 : a ≠ c) (hR : 0 < R)
    (ha : OnCircle O R a) (hb : OnCircle O R b) (hc : OnCircle O R c) : |bend a b c| = 1 / R := by
  have d1 := dist_pos_of_ne h1
  have d2 := dist_pos_of_ne h2
  have d3 := dist_pos_of_ne h3
  have e : ∀ p q : P2 ℝ, Spec.dist p q ^ 2 = (q.x - p.x) ^ 2 + (q.y - p.y) ^ 2 := fun p q => by
    rw [Spec.dist, Real.sq_sqrt (by positivity)]
  unfold OnCircle at ha hb hc
  have key : (2 * triangleArea2 a b c * R) ^ 2 = (Spec.dist a b * Spec.dist b c * Spec.dist a c) ^ 2 := by
    rw [mul_pow _ R, ← ha, mul_pow (Spec.dist a b * _), mul_pow (Spec.dist a b), e, e, e]
    have k1 : (b.x - O.x) ^ 2 + (b.y - O.y) ^ 2 - ((a.x - O.x) ^ 2 + (a.y - O.y) ^ 2) = 0 := by linarith
    have k2 : (c.x - O.x) ^ 2 + (c.y - O.y) ^ 2 - ((a.x - O.x) ^ 2 + (a.y - O.y) ^ 2) = 0 := by linarith
    simp only [triangleArea2]
    generalize hux : b.x - a.x = ux
    generalize huy : b.y - a.y = uy
    generalize hvx : c.x - a.x = vx
    generalize hvy : c.y - a.y = vy
    rw [show c.x - b.x = vx - ux by rw [← hvx, ← hux]; ring, show c.y - b.y = vy - uy by rw [← hvy, ← huy]; ring]
    have hw1 : ux ^ 2 + uy ^ 2 = 2 * (ux * (O.x - a.x) + uy * (O.y - a.y)) := by
      rw [← hux, ← huy]; linear_combination k1
    have hw2 : vx ^ 2 + vy ^ 2 = 2 * (vx * (O.x - a.x) + vy * (O.y - a.y)) := by
      rw [← hvx, ← hvy]; linear_combination k2
    rw [show a.x - O.x = -(O.x - a.x) by ring, show a.y - O.y = -(O.y - a.y) by ring]
    generalize O.x - a.x = wx at *
    generalize O.y - a.y = wy at *
    have hx : 2 * (ux * vy - vx * uy) * wx = (ux ^ 2 + uy ^ 2) * vy - (vx ^ 2 + vy ^ 2) * uy := by
      rw [hw1, hw2]; ring
    have hy : 2 * (ux * vy - vx * uy) * wy = ux * (vx ^ 2 + vy ^ 2) - vx * (ux ^ 2 + uy ^ 2) := by
      rw [hw1, hw2]; ring
    calc (2 * (ux * vy - vx * uy)) ^ 2 * ((-wx) ^ 2 + (-wy) ^ 2)
        = (2 * (ux * vy - vx * uy) * wx) ^ 2 + (2 * (ux * vy - vx * uy) * wy) ^ 2 := by ring
      _ = _ := by rw [hx, hy]; ring
  have hpos : 0 < Spec.dist a b * Spec.dist b c * Spec.dist a c := by positivity
  have hab : |2 * triangleArea2 a b c| * R = Spec.dist a b * Spec.dist b c * Spec.dist a c := by
    have := abs_eq_abs.2 (sq_eq_sq_iff_eq_or_eq_neg.1 key)
    rwa [abs_mul, abs_of_pos hR, abs_of_pos hpos] at this
  rw [bend, abs_div, abs_of_pos hpos, div_eq_div_iff hpos.ne' hR.ne', one_mul, hab]

theorem totalCurvatureLoop_ok (f : ℝ → ℝ) (rest : List (P2 ℝ)) (sum : ℝ) (a b : P2 ℝ)
    (h : NoFolds (a :: b :: rest)) :
    totalCurvatureLoop f sum (distSq b a) (a :: b :: rest) = .ok (sum + ∑ j ∈ Finset.range rest.length,
      atVertex (fun a b c => halfEdges a b c * (2 * f (triangleArea2 a b c) /
        (Spec.dist a b * Spec.dist b c * Spec.dist a c))) (a :: b :: rest) (j + 1)) := by
  induction rest generalizing sum a b with
  | nil => simp [totalCurvatureLoop]
  | cons c rest ih =>
    obtain ⟨h1, h2, h3⟩ := h 0 a b c rfl rfl rfl
    have hc := curvatureQuotient_ok h1 h2 h3 (f (cross (b - a) (c - b)))
    unfold curvatureQuotient at hc
    rw [totalCurvatureLoop, hc]
    dsimp only
    have hsw : distSq b c = distSq c b := by rw [distSq_eq_dist, distSq_eq_dist, dist_comm']
    rw [hsw, ih _ b c (fun j x y z hx hy hz => h (j + 1) x y z (by simpa using hx) (by simpa using hy)
      (by simpa using hz))]
    rw [List.length_cons, Finset.sum_range_succ']
    congr 1
    rw [← hsw, sqrt_distSq, sqrt_distSq, dist_comm' b a, cross_edges]
    have : ∀ (g : P2 ℝ → P2 ℝ → P2 ℝ → ℝ) (j : Nat),
        atVertex g (a :: b :: c :: rest) (j + 1 + 1) = atVertex g (b :: c :: rest) (j + 1) := fun g j => rfl
    simp only [this]
    have h0 : ∀ (g : P2 ℝ → P2 ℝ → P2 ℝ → ℝ), atVertex g (a :: b :: c :: rest) (0 + 1) = g a b c := fun g => rfl
    rw [h0]
    simp only [halfEdges]
    ring

theorem atVertex_sum (f : P2 ℝ → P2 ℝ → P2 ℝ → ℝ) (a b : P2 ℝ) (rest : List (P2 ℝ)) :
    ∑ j ∈ Finset.range (a :: b :: rest).length, atVertex f (a :: b :: rest) j =
      ∑ j ∈ Finset.range rest.length, atVertex f (a :: b :: rest) (j + 1) := by
  rw [show (a :: b :: rest).length = rest.length + 1 + 1 from rfl, Finset.sum_range_succ', Finset.sum_range_succ,
    atVertex_out (j := rest.length + 1) (by simp), atVertex_out (j := 0) (by simp)]
  ring

theorem mem_pieces_length {α : Type*} {poly : List α} {pieces : List (List α)} (h : IsVertexSplit poly pieces)
    {pre : List (List α)} {p : List α} {post : List (List α)} (e : pieces = pre ++ p :: post) :
    2 ≤ p.length ∧ startIndex pre + p.length ≤ poly.length := by
  obtain ⟨h1, -, h3⟩ := h
  refine ⟨h1 p (by rw [e]; simp), ?_⟩
  have hsum : ∀ l : List (List α), ((l.map List.tail).flatten).length = startIndex l := by
    intro l
    induction l with
    | nil => rfl
    | cons x l ih => simp [startIndex, ih]
  have hst : ∀ l m : List (List α), startIndex (l ++ m) = startIndex l + startIndex m := by
    intro l m; simp [startIndex]
  have hl := congrArg List.length h3
  rw [List.length_append, hsum] at hl
  cases pre with
  | nil =>
    rw [List.nil_append] at e
    rw [e] at hl
    simp only [List.headD_cons, List.tail_cons] at hl
    simp only [startIndex, List.map_nil, List.sum_nil]
    omega
  | cons q pre =>
    rw [e] at hl
    simp only [List.cons_append, List.headD_cons, List.tail_cons] at hl
    rw [hst] at hl
    have hq := h1 q (by rw [e]; simp)
    have hp := h1 p (by rw [e]; simp)
    simp only [startIndex, List.map_cons, List.sum_cons] at hl ⊢
    omega

/-- Cutting at the indices where `cut` holds. -/
def cutPieces {α : Type*} (cut : Nat → Bool) : List α → Nat → List α → List (List α)
  | [], _, cur => if cur.length > 1 then [cur] else []
  | p :: rest, i, cur =>
    if cut i then (cur ++ [p]) :: cutPieces cut rest (i + 1) [p] else cutPieces cut rest (i + 1) (cur ++ [p])

theorem cutPieces_nil {α : Type*} (cut : Nat → Bool) (rest : List α) (i : Nat) (cur : List α) (hc : cur ≠ []) :
    cutPieces cut rest i cur = [] ↔ rest = [] ∧ cur.length = 1 := by
  have hpos := List.length_pos_of_ne_nil hc
  induction rest generalizing i cur with
  | nil =>
    rw [cutPieces]
    split_ifs with h
    · simp; omega
    · simp; omega
  | cons p rest ih =>
    rw [cutPieces]
    split_ifs
    · simp
    · have hi := ih (i + 1) (cur ++ [p]) (by simp) (by simp)
      refine hi.trans ?_
      simp only [List.length_append, List.length_singleton]
      constructor
      · rintro ⟨-, h⟩; omega
      · rintro ⟨h, -⟩; cases h

theorem cutPieces_split {α : Type*} (cut : Nat → Bool) (rest : List α) (i : Nat) (cur : List α) (hc : cur ≠ [])
    (h : ¬ (rest = [] ∧ cur.length = 1)) :
    IsVertexSplit (cur ++ rest) (cutPieces cut rest i cur) ∧
      ∃ p ps, cutPieces cut rest i cur = p :: ps ∧ p.head? = cur.head? := by
  have hpos := List.length_pos_of_ne_nil hc
  induction rest generalizing i cur with
  | nil =>
    have : cur.length > 1 := by
      simp only [true_and] at h; omega
    rw [cutPieces, if_pos this]
    refine ⟨⟨fun x hx => by rw [List.mem_singleton.1 hx]; omega, by simp, by simp⟩, cur, [], rfl, rfl⟩
  | cons p rest ih =>
    rw [cutPieces]
    split_ifs with hi
    · have hh : (cur ++ [p]).head? = cur.head? := by
        cases cur with
        | nil => exact absurd rfl hc
        | cons x l => rfl
      by_cases hr : rest = []
      · subst hr
        rw [cutPieces, if_neg (by simp)]
        refine ⟨⟨fun x hx => by rw [List.mem_singleton.1 hx]; simp; omega, by simp, by simp⟩, _, _, rfl, hh⟩
      · obtain ⟨⟨s1, s2, s3⟩, q, qs, e, hq⟩ := ih (i + 1) [p] (by simp) (by simp [hr]) (by simp)
        refine ⟨⟨?_, ?_, ?_⟩, _, _, rfl, hh⟩
        · intro x hx
          rcases List.mem_cons.1 hx with rfl | hx
          · simp; omega
          · exact s1 x hx
        · rw [e] at s2 ⊢
          rw [List.isChain_cons_cons]
          refine ⟨?_, s2⟩
          rw [hq]; simp
        · rw [e] at s3 ⊢
          simp only [List.headD_cons, List.tail_cons, List.map_cons, List.flatten_cons] at s3 ⊢
          have hq' : q = p :: q.tail := by
            cases q with
            | nil => simp at hq
            | cons y ys => simp at hq; simp [hq]
          rw [hq'] at s3
          simp only [List.cons_append, List.nil_append, List.cons.injEq, true_and] at s3
          rw [s3]; simp
    · obtain ⟨s, q, qs, e, hq⟩ := ih (i + 1) (cur ++ [p]) (by simp) (by
        simp only [List.length_append, List.length_singleton]; omega) (by simp)
      refine ⟨?_, q, qs, e, ?_⟩
      · rwa [show cur ++ [p] ++ rest = cur ++ p :: rest by simp] at s
      · rw [hq]
        cases cur with
        | nil => exact absurd rfl hc
        | cons x l => rfl

/-- Where the pieces end. -/
theorem cutPieces_cuts {α : Type*} (cut : Nat → Bool) (rest : List α) (i : Nat) (cur : List α) (hc : cur ≠ [])
    (s0 : Nat) (hs : s0 + cur.length = i) (pre : List (List α)) (p : List α) (post : List (List α))
    (h : cutPieces cut rest i cur = pre ++ p :: post) :
    (∀ j, s0 + startIndex pre < j → i ≤ j → j + 1 < s0 + startIndex pre + p.length → cut j = false) ∧
    (post ≠ [] → cut (s0 + startIndex pre + (p.length - 1)) = true) ∧
    (pre ≠ [] → i ≤ s0 + startIndex pre ∧ cut (s0 + startIndex pre) = true) := by
  have hpos := List.length_pos_of_ne_nil hc
  induction rest generalizing i cur s0 pre with
  | nil =>
    rw [cutPieces] at h
    split_ifs at h
    · cases pre with
      | nil =>
        simp only [List.nil_append, List.cons.injEq] at h
        obtain ⟨rfl, rfl⟩ := h
        refine ⟨fun j _ h1 h2 => ?_, by simp, by simp⟩
        simp [startIndex] at h2; omega
      | cons x l => simp at h
    · cases pre <;> simp at h
  | cons y rest ih =>
    rw [cutPieces] at h
    split_ifs at h with hi
    · cases pre with
      | nil =>
        simp only [List.nil_append, List.cons.injEq] at h
        obtain ⟨rfl, rfl⟩ := h
        refine ⟨fun j _ h1 h2 => ?_, fun _ => ?_, by simp⟩
        · simp [startIndex] at h2; omega
        · have : s0 + startIndex ([] : List (List α)) + ((cur ++ [y]).length - 1) = i := by
            simp [startIndex]; omega
          rw [this, hi]
      | cons x l =>
        simp only [List.cons_append, List.cons.injEq] at h
        obtain ⟨rfl, h⟩ := h
        have hst : s0 + startIndex ((cur ++ [y]) :: l) = i + startIndex l := by
          simp [startIndex]; omega
        obtain ⟨k1, k2, k3⟩ := ih (i + 1) [y] (by simp) i (by simp) l h (by simp)
        rw [hst]
        refine ⟨fun j h1 _ h3 => k1 j h1 (by omega) h3, k2, fun _ => ⟨by omega, ?_⟩⟩
        cases l with
        | nil => simpa [startIndex] using hi
        | cons z l => exact (k3 (by simp)).2
    · obtain ⟨k1, k2, k3⟩ := ih (i + 1) (cur ++ [y]) (by simp) s0 (by simp; omega) pre h (by simp)
      refine ⟨fun j h1 h2 h3 => ?_, k2, fun hp => ⟨by have := (k3 hp).1; omega, (k3 hp).2⟩⟩
      rcases Nat.lt_or_ge j (i + 1) with hj | hj
      · have : j = i := by omega
        rw [this]; simpa using hi
      · exact k1 j h1 hj h3

theorem curvatureSign_eq (x y : ℝ) : curvatureSign x = curvatureSign y ↔ (0 ≤ x ↔ 0 ≤ y) := by
  unfold curvatureSign
  by_cases hx : x ≥ 0 <;> by_cases hy : y ≥ 0
  · rw [if_pos hx, if_pos hy]; exact ⟨fun _ => ⟨fun _ => hy, fun _ => hx⟩, fun _ => rfl⟩
  · rw [if_pos hx, if_neg hy]; exact ⟨fun h => by simp at h, fun h => absurd (h.1 hx) hy⟩
  · rw [if_neg hx, if_pos hy]; exact ⟨fun h => by simp at h, fun h => absurd (h.2 hy) hx⟩
  · rw [if_neg hx, if_neg hy]; exact ⟨fun _ => ⟨fun h => absurd h hx, fun h => absurd h hy⟩, fun _ => rfl⟩

theorem inflectionLoop_ok {poly : List (P2 ℝ)} (h : NoFolds poly) (n i : Nat) :
    inflectionLoop poly n (i + 1) (curvatureSign (atVertex bend poly i)) =
      .ok ((List.range' (i + 1) n).filter fun j =>
        decide (curvatureSign (atVertex bend poly j) ≠ curvatureSign (atVertex bend poly (j - 1)))) := by
  induction n generalizing i with
  | zero => rfl
  | succ n ih =>
    rw [inflectionLoop, signedCurvature_ok h]
    dsimp only
    rw [ih (i + 1)]
    dsimp only
    rw [List.range'_succ, List.filter_cons]
    simp only [Nat.add_sub_cancel, decide_eq_true_eq]

theorem splitInflectionLoop_ok {poly : List (P2 ℝ)} (h : NoFolds poly) (rest : List (P2 ℝ)) (i : Nat)
    (cur : List (P2 ℝ)) (hc : cur ≠ []) (res : List (List (P2 ℝ))) :
    splitInflectionLoop poly rest (i + 1) (curvatureSign (atVertex bend poly i)) cur res =
      .ok (res ++ cutPieces (fun j => decide (curvatureSign (atVertex bend poly j) ≠
        curvatureSign (atVertex bend poly (j - 1)))) rest (i + 1) cur) := by
  induction rest generalizing i cur res with
  | nil =>
    rw [splitInflectionLoop, cutPieces]
    split_ifs <;> simp
  | cons p rest ih =>
    have hpos := List.length_pos_of_ne_nil hc
    rw [splitInflectionLoop, signedCurvature_ok h]
    dsimp only
    rw [cutPieces]
    simp only [Nat.add_sub_cancel, decide_eq_true_eq]
    by_cases hs : curvatureSign (atVertex bend poly (i + 1)) ≠ curvatureSign (atVertex bend poly i)
    · rw [if_pos hs, if_pos hs, if_pos (by simpa using hpos), ih (i + 1) [p] (by simp)]
      simp
    · rw [if_neg hs, if_neg hs]
      rw [← not_not.1 hs]
      exact ih (i + 1) (cur ++ [p]) (by simp) res

/-- The value of `ktot` before the vertex `j + 1`. -/
noncomputable def ktotBefore (k : Nat → ℝ) (ksplit : ℝ) : Nat → ℝ
  | 0 => 0
  | j + 1 => if ktotBefore k ksplit j + k (j + 1) > ksplit then 0 else ktotBefore k ksplit j + k (j + 1)

/-- The cuts made by `split_by_total_curvature`. -/
noncomputable def totalCut (k : Nat → ℝ) (ksplit : ℝ) (j : Nat) : Bool :=
  decide (ktotBefore k ksplit (j - 1) + k j > ksplit)

theorem splitTotalLoop_ok {poly : List (P2 ℝ)} (k : Nat → ℝ) (h : ∀ j, curvatureOverIndex poly j = .ok (k j))
    (ksplit : ℝ) (rest : List (P2 ℝ)) (i : Nat) (cur : List (P2 ℝ)) (hc : cur ≠ []) (res : List (List (P2 ℝ))) :
    splitTotalLoop poly ksplit rest (i + 1) (ktotBefore k ksplit i) cur res =
      .ok (res ++ cutPieces (totalCut k ksplit) rest (i + 1) cur) := by
  induction rest generalizing i cur res with
  | nil =>
    rw [splitTotalLoop, cutPieces]
    split_ifs <;> simp
  | cons p rest ih =>
    have hpos := List.length_pos_of_ne_nil hc
    rw [splitTotalLoop, h]
    dsimp only
    rw [cutPieces]
    simp only [totalCut, Nat.add_sub_cancel, decide_eq_true_eq]
    by_cases hs : ktotBefore k ksplit i + k (i + 1) > ksplit
    · have e : ktotBefore k ksplit (i + 1) = 0 := by rw [ktotBefore, if_pos hs]
      rw [if_pos hs, if_pos hs, if_pos (by simpa using hpos), ← e, ih (i + 1) [p] (by simp)]
      simp [totalCut]
    · have e : ktotBefore k ksplit (i + 1) = ktotBefore k ksplit i + k (i + 1) := by rw [ktotBefore, if_neg hs]
      rw [if_neg hs, if_neg hs, ← e]
      exact ih (i + 1) (cur ++ [p]) (by simp) res

/-- The sum since the last cut. -/
theorem ktotBefore_sum (k : Nat → ℝ) (ksplit : ℝ) (s n : Nat) (hs : ktotBefore k ksplit s = 0)
    (h : ∀ j, s < j → j ≤ s + n → totalCut k ksplit j = false) :
    ktotBefore k ksplit (s + n) = ∑ j ∈ Finset.Ioc s (s + n), k j := by
  induction n with
  | zero => simp [hs]
  | succ n ih =>
    have hn := h (s + n + 1) (by omega) (by omega)
    simp only [totalCut, Nat.add_sub_cancel, decide_eq_false_iff_not] at hn
    rw [show s + (n + 1) = s + n + 1 by omega, ktotBefore, if_neg hn, ih (fun j h1 h2 => h j h1 (by omega)),
      Finset.sum_Ioc_succ_top (by omega)]

theorem ktotBefore_cut (k : Nat → ℝ) (ksplit : ℝ) (s : Nat) (hs : s = 0 ∨ 0 < s ∧ totalCut k ksplit s = true) :
    ktotBefore k ksplit s = 0 := by
  rcases hs with rfl | ⟨h0, hs⟩
  · rfl
  · obtain ⟨m, rfl⟩ : ∃ m, s = m + 1 := ⟨s - 1, by omega⟩
    simp only [totalCut, Nat.add_sub_cancel, decide_eq_true_eq] at hs
    rw [ktotBefore, if_pos hs]

end Geometrix
