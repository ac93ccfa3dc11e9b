import Verif.Lemmas.GrahamLowest
import Verif.Lemmas.GrahamLines
import Mathlib.Data.List.Pairwise
import Mathlib.Data.List.Permutation
import Mathlib.Tactic.NormNum

/-!
# C41: the convex hull by Graham's scan
-/

set_option linter.unusedSectionVars false

namespace Geometrix

open Spec

variable {K : Type*} [Field K] [LinearOrder K] [IsStrictOrderedRing K]

/-- With the lowest point first, and the first and the last ray from it through other points holding one point
each, the hull read backwards is a counterclockwise strictly convex polygon of input points which contains all
input points. -/
theorem C41_hull_partial (sort : (P2 K → P2 K → Bool) → List (P2 K) → List (P2 K)) (hs : Sorts sort)
    (o : P2 K) (t : List (P2 K)) (ht : t ≠ []) (hl : LowestOf o t) (hf : OneOnFirstRay o t)
    (hn : OneOnLastRay o t) :
    ∃ hull, grahamHull Cmp.direct sort (o :: t) = .ok hull ∧ StrictlyConvex hull.reverse ∧
      (∀ v ∈ hull, v ∈ o :: t) ∧ ∀ p ∈ o :: t, InsideAllSides hull.reverse p := by
  obtain ⟨hull, core, e, hr, hc, hm, hQ⟩ := grahamHull_lines sort hs o t ht hl hf
  have : hull = core := by
    rcases hr with h | ⟨near, far, x, u', rfl, -, hnt, h0, h1, h2, hft, hy⟩
    · exact h
    exfalso
    have hne : far ≠ near := by
      rintro rfl
      have : area2 x far far = 0 := by unfold area2; ring
      rw [this] at h1; exact lt_irrefl _ h1
    have hsym : Std.Symm fun a b : P2 K => area2 o a b = 0 → ∃ d ∈ t, 0 < area2 o a d ∧ 0 < area2 o b d :=
      ⟨by
        intro a b h h'
        obtain ⟨d, hd, q1, q2⟩ := h (by rw [area2_swap_about, h', neg_zero])
        exact ⟨d, hd, q2, q1⟩⟩
    obtain ⟨d, hd, q1, -⟩ := List.Pairwise.forall hn hft hnt hne h0
    have := hQ d (List.mem_cons_of_mem _ hd) far o (by
      intro y hym
      have e1 : ∀ y, area2 far o y = area2 o y far := by intro y; unfold area2; ring
      have z1 : area2 o far far = 0 := by unfold area2; ring
      have z2 : area2 o o far = 0 := by unfold area2; ring
      rw [e1]
      simp only [List.cons_append, List.mem_cons, List.mem_append, List.not_mem_nil, or_false] at hym
      rcases hym with rfl | rfl | h | rfl
      · exact z1.ge
      · exact (hy _ (by simp)).le
      · exact (hy _ (by simp [h])).le
      · exact z2.ge)
    have e2 : area2 far o d = - area2 o far d := by unfold area2; ring
    linarith
  subst this
  exact ⟨hull, e, hc.strict, hm, fun p hp e' he' =>
    hQ p hp e'.1 e'.2 fun x hx => convex_vertex hc.strict he' (List.mem_reverse.2 hx)⟩

/-- The points of a square with a point inside, and with two points on its diagonal through the lowest point. -/
example : Sorts (α := P2 ℚ) insSort ∧ LowestOf (⟨2, 0⟩ : P2 ℚ) [⟨0, 0⟩, ⟨1, 1⟩, ⟨0, 2⟩, ⟨1, 1/2⟩, ⟨2, 2⟩] ∧
    OneOnFirstRay (⟨2, 0⟩ : P2 ℚ) [⟨0, 0⟩, ⟨1, 1⟩, ⟨0, 2⟩, ⟨1, 1/2⟩, ⟨2, 2⟩] ∧
    OneOnLastRay (⟨2, 0⟩ : P2 ℚ) [⟨0, 0⟩, ⟨1, 1⟩, ⟨0, 2⟩, ⟨1, 1/2⟩, ⟨2, 2⟩] ∧
    grahamHull Cmp.direct insSort
      [(⟨2, 0⟩ : P2 ℚ), ⟨0, 0⟩, ⟨1, 1⟩, ⟨0, 2⟩, ⟨1, 1/2⟩, ⟨2, 2⟩] =
      .ok [⟨0, 0⟩, ⟨0, 2⟩, ⟨2, 2⟩, ⟨2, 0⟩] := by
  refine ⟨insSort_sorts, ?_, ?_, ?_, by decide +kernel⟩
  · intro p hp
    simp only [List.mem_cons, List.not_mem_nil, or_false] at hp
    rcases hp with rfl | rfl | rfl | rfl | rfl <;> norm_num
  · unfold OneOnFirstRay area2
    norm_num [List.pairwise_cons]
  · unfold OneOnLastRay area2
    norm_num [List.pairwise_cons]

/-- When only the first ray need hold one point, the list is such a hull, or has one more entry in front, a point
of the input inside of the side from the last vertex to the lowest point. -/
theorem C41_last_ray_partial (sort : (P2 K → P2 K → Bool) → List (P2 K) → List (P2 K)) (hs : Sorts sort)
    (o : P2 K) (t : List (P2 K)) (ht : t ≠ []) (hl : LowestOf o t) (hf : OneOnFirstRay o t) :
    ∃ hull core, grahamHull Cmp.direct sort (o :: t) = .ok hull ∧
      (hull = core ∨ ∃ near far, hull = near :: core ∧ core.head? = some far ∧ core.getLast? = some o ∧
        InsideOf near o far) ∧
      StrictlyConvex core.reverse ∧ (∀ v ∈ hull, v ∈ o :: t) ∧ ∀ p ∈ o :: t, InsideAllSides core.reverse p := by
  obtain ⟨hull, core, e, hr, hc, hm, hQ⟩ := grahamHull_lines sort hs o t ht hl hf
  refine ⟨hull, core, e, ?_, hc.strict, hm, fun p hp e' he' =>
    hQ p hp e'.1 e'.2 fun x hx => convex_vertex hc.strict he' (List.mem_reverse.2 hx)⟩
  rcases hr with h | ⟨near, far, x, u', rfl, rfl, -, h0, h1, h2, -, hy⟩
  · exact Or.inl h
  · exact Or.inr ⟨near, far, rfl, rfl, List.getLast?_concat, near_segment h0 h1 h2 (hy x (by simp))⟩

/-- Two points are on the last ray, the lower side of a triangle. -/
example : LowestOf (⟨2, 0⟩ : P2 ℚ) [⟨2, 2⟩, ⟨0, 0⟩, ⟨1, 0⟩] ∧ OneOnFirstRay (⟨2, 0⟩ : P2 ℚ) [⟨2, 2⟩, ⟨0, 0⟩, ⟨1, 0⟩] ∧
    ¬ OneOnLastRay (⟨2, 0⟩ : P2 ℚ) [⟨2, 2⟩, ⟨0, 0⟩, ⟨1, 0⟩] := by
  refine ⟨?_, ?_, ?_⟩
  · intro p hp
    simp only [List.mem_cons, List.not_mem_nil, or_false] at hp
    rcases hp with rfl | rfl | rfl <;> norm_num
  · unfold OneOnFirstRay area2
    norm_num [List.pairwise_cons]
  · unfold OneOnLastRay area2
    norm_num [List.pairwise_cons]

/-- With two points on the last ray, which the comparison takes for equivalent, a sort may put the farther one
first, and then a point that is no corner stays in the list. -/
theorem C41_last_ray_refuted : ∃ (o : P2 ℚ) (t : List (P2 ℚ)), LowestOf o t ∧ OneOnFirstRay o t ∧
    ∃ sort, Sorts sort ∧ ∃ hull, grahamHull Cmp.direct sort (o :: t) = .ok hull ∧
      ¬ StrictlyConvex hull.reverse := by
  refine ⟨⟨2, 0⟩, [⟨2, 2⟩, ⟨0, 0⟩, ⟨1, 0⟩], ?_, ?_, insSort, insSort_sorts,
    [⟨1, 0⟩, ⟨0, 0⟩, ⟨2, 2⟩, ⟨2, 0⟩], by decide +kernel, ?_⟩
  · intro p hp
    simp only [List.mem_cons, List.not_mem_nil, or_false] at hp
    rcases hp with rfl | rfl | rfl <;> norm_num
  · unfold OneOnFirstRay area2
    norm_num [List.pairwise_cons]
  · intro hc
    have := hc 0 2 3 ⟨2, 0⟩ ⟨0, 0⟩ ⟨1, 0⟩ (by decide) (by decide) rfl rfl rfl
    norm_num [area2] at this

/-- Whatever the input, the vertices of a hull are input points. -/
theorem C41_vertices (sort : (P2 K → P2 K → Bool) → List (P2 K) → List (P2 K)) (hs : Sorts sort)
    (pts hull : List (P2 K)) (h : grahamHull Cmp.direct sort pts = .ok hull) : ∀ v ∈ hull, v ∈ pts := by
  unfold grahamHull at h
  have hp := findLowest_perm pts
  revert h
  cases hf : findLowest Cmp.direct pts with
  | nil => intro h; simp at h
  | cons o t =>
    rw [hf] at hp
    simp only
    have hq := (hs (grahamLess Cmp.direct o) t).1
    cases hsrt : sort (grahamLess Cmp.direct o) t with
    | nil => intro h; simp at h
    | cons a rest =>
      rw [hsrt] at hq
      intro h v hv
      simp only at h
      refine hp.subset ?_
      rcases grahamLoop_mem _ _ _ _ h v hv with h | h
      · exact List.mem_cons_of_mem _ (hq.subset (List.mem_cons_of_mem _ h))
      · simp only [List.mem_cons, List.not_mem_nil, or_false] at h
        rcases h with rfl | rfl
        · exact List.mem_cons_of_mem _ (hq.subset (by simp))
        · simp

example : grahamHull Cmp.direct insSort
    [(⟨1, 0⟩ : P2 ℚ), ⟨1, 1⟩, ⟨0, 0⟩] = .ok [⟨0, 0⟩, ⟨1, 1⟩, ⟨1, 0⟩] := by decide +kernel

/-- The scan always ends. -/
theorem C41_terminates (sort : (P2 K → P2 K → Bool) → List (P2 K) → List (P2 K)) (pts : List (P2 K)) :
    grahamHull Cmp.direct sort pts ≠ .error .diverges := by
  unfold grahamHull
  split
  · simp
  · split
    · simp
    · exact grahamLoop_terminates _ _ _ (by simp) (by simp)

/-- With less than two points an element that does not exist is read. -/
theorem C41_short (sort : (P2 K → P2 K → Bool) → List (P2 K) → List (P2 K)) (hs : Sorts sort)
    (pts : List (P2 K)) (h : pts.length < 2) : grahamHull Cmp.direct sort pts = .error .outOfRange := by
  unfold grahamHull
  have hp := (findLowest_perm pts).length_eq
  cases hf : findLowest Cmp.direct pts with
  | nil => rfl
  | cons o t =>
    rw [hf] at hp
    have : t = [] := by
      rw [← List.length_eq_zero_iff]
      simp at hp; omega
    subst this
    have := (hs (grahamLess Cmp.direct o) []).1.eq_nil
    simp only [this]

/-- The list that is returned is in clockwise order. -/
theorem C41_clockwise_refuted : ∃ (o : P2 ℚ) (t : List (P2 ℚ)), LowestOf o t ∧ NoLineThrough o t ∧
    ∀ sort, Sorts sort → ∃ hull, grahamHull Cmp.direct sort (o :: t) = .ok hull ∧ hull.length = 3 ∧
      ¬ StrictlyConvex hull := by
  have hl : LowestOf (⟨1, 0⟩ : P2 ℚ) [⟨1, 1⟩, ⟨0, 0⟩] := by
    intro p hp
    simp only [List.mem_cons, List.not_mem_nil, or_false] at hp
    rcases hp with rfl | rfl <;> norm_num
  have hn : NoLineThrough (⟨1, 0⟩ : P2 ℚ) [⟨1, 1⟩, ⟨0, 0⟩] := by
    unfold NoLineThrough area2
    norm_num [List.pairwise_cons]
  refine ⟨⟨1, 0⟩, [⟨1, 1⟩, ⟨0, 0⟩], hl, hn, ?_⟩
  intro sort hs
  obtain ⟨hull, e, -⟩ := C41_hull_partial sort hs _ _ (by simp) hl (oneOnFirst_of_noLine hn)
    (oneOnLast_of_noLine hn)
  have hm : sort (grahamLess Cmp.direct (⟨1, 0⟩ : P2 ℚ)) [⟨1, 1⟩, ⟨0, 0⟩] ∈
      List.permutations' [(⟨1, 1⟩ : P2 ℚ), ⟨0, 0⟩] := List.mem_permutations'.2 (hs _ _).1
  have key : ∀ l ∈ List.permutations' [(⟨1, 1⟩ : P2 ℚ), ⟨0, 0⟩],
      (match l with
        | [] => true
        | a :: rest => match grahamLoop Cmp.direct (2 * rest.length) rest [a, (⟨1, 0⟩ : P2 ℚ)] with
          | .ok h => decide (h = [⟨0, 0⟩, ⟨1, 1⟩, ⟨1, 0⟩])
          | .error _ => true) = true := by decide +kernel
  have k := key _ hm
  have e0 := e
  unfold grahamHull at e
  rw [findLowest_id hl] at e
  simp only at e
  cases hsrt : sort (grahamLess Cmp.direct (⟨1, 0⟩ : P2 ℚ)) [⟨1, 1⟩, ⟨0, 0⟩] with
  | nil => rw [hsrt] at e; simp at e
  | cons a rest =>
    rw [hsrt] at e k
    simp only at e k
    rw [e] at k
    simp only [decide_eq_true_eq] at k
    subst k
    refine ⟨_, e0, rfl, ?_⟩
    intro hc
    have := hc 0 1 2 _ _ _ (by decide) (by decide) rfl rfl rfl
    norm_num [area2] at this

/-- What `find_lowest` does: when the lowest point `l` is not the first one, the lowest of the points before it is brought to the
front. -/
theorem C41_front (A B : List (P2 K)) (f l : P2 K) (hf : f ∈ A) (hfA : ∀ p ∈ A, p = f ∨ LowestOf f [p])
    (hA : LowestOf l A) (hB : ∀ p ∈ B, ¬ LowestOf p [l]) :
    (findLowest Cmp.direct (A ++ l :: B)).head? = some f := by
  refine findLowest_front hf (fun p hp => (hfA p hp).imp_right fun h => h p (by simp)) hA fun p hp h => hB p hp ?_
  intro q hq
  rw [List.mem_singleton] at hq
  rw [hq]; exact h

example : ∃ (A B : List (P2 ℚ)) (f l : P2 ℚ), f ∈ A ∧ A.head? ≠ some f ∧ B ≠ [] ∧ (∀ p ∈ A, p = f ∨ LowestOf f [p]) ∧
    LowestOf l A ∧ ∀ p ∈ B, ¬ LowestOf p [l] := by
  refine ⟨[⟨0, 3⟩, ⟨1, 1⟩, ⟨0, 2⟩], [⟨5, 5⟩], ⟨1, 1⟩, ⟨2, 0⟩, by simp, by decide +kernel, by simp, ?_, ?_, ?_⟩ <;>
    unfold LowestOf <;> decide +kernel

/-- When the lowest point is not the first one, it is not brought to the front, and the scan starts from
a point inside of the hull: whatever the sort does, there is no convex hull. -/
theorem C41_lowest_refuted : ∃ pts : List (P2 ℚ), (∀ sort, Sorts sort →
    (∃ e, grahamHull Cmp.direct sort pts = .error e) ∨ ∃ hull, grahamHull Cmp.direct sort pts = .ok hull ∧
      ¬ StrictlyConvex hull.reverse ∧ ¬ StrictlyConvex hull) ∧
    (findLowest Cmp.direct pts).head? = some ⟨0, 0⟩ ∧ (⟨0, -2⟩ : P2 ℚ) ∈ pts := by
  refine ⟨[⟨0, 0⟩, ⟨0, -2⟩, ⟨2, 1⟩, ⟨-2, 1⟩], ?_, by decide +kernel, by simp⟩
  intro sort hs
  have hf : findLowest Cmp.direct [(⟨0, 0⟩ : P2 ℚ), ⟨0, -2⟩, ⟨2, 1⟩, ⟨-2, 1⟩] =
      [⟨0, 0⟩, ⟨0, -2⟩, ⟨2, 1⟩, ⟨-2, 1⟩] := by decide +kernel
  have hm : sort (grahamLess Cmp.direct (⟨0, 0⟩ : P2 ℚ)) [⟨0, -2⟩, ⟨2, 1⟩, ⟨-2, 1⟩] ∈
      List.permutations' [(⟨0, -2⟩ : P2 ℚ), ⟨2, 1⟩, ⟨-2, 1⟩] := List.mem_permutations'.2 (hs _ _).1
  have key : ∀ l ∈ List.permutations' [(⟨0, -2⟩ : P2 ℚ), ⟨2, 1⟩, ⟨-2, 1⟩],
      (match l with
        | [] => true
        | a :: rest => match grahamLoop Cmp.direct (2 * rest.length) rest [a, (⟨0, 0⟩ : P2 ℚ)] with
          | .ok [z, y, x, o] => decide ((o.x - x.x) * (z.y - x.y) - (o.y - x.y) * (z.x - x.x) > 0 ∧
              (y.x - z.x) * (x.y - z.y) - (y.y - z.y) * (x.x - z.x) < 0)
          | .ok _ => false
          | .error _ => true) = true := by decide +kernel
  have k := key _ hm
  unfold grahamHull
  rw [hf]
  simp only
  cases hsrt : sort (grahamLess Cmp.direct (⟨0, 0⟩ : P2 ℚ)) [⟨0, -2⟩, ⟨2, 1⟩, ⟨-2, 1⟩] with
  | nil => exact Or.inl ⟨_, rfl⟩
  | cons a rest =>
    rw [hsrt] at k
    simp only at k ⊢
    cases hg : grahamLoop Cmp.direct (2 * rest.length) rest [a, (⟨0, 0⟩ : P2 ℚ)] with
    | error e => exact Or.inl ⟨_, rfl⟩
    | ok hull =>
      rw [hg] at k
      right
      refine ⟨hull, rfl, ?_⟩
      match hull, k with
      | [z, y, x, o], k =>
        simp only [decide_eq_true_eq] at k
        constructor
        · intro hc
          have := hc 0 1 3 o x z (by decide) (by decide) rfl rfl rfl
          unfold area2 at this
          linarith [k.1]
        · intro hc
          have := hc 0 1 2 z y x (by decide) (by decide) rfl rfl rfl
          unfold area2 at this
          linarith [k.2]
      | [], k => simp at k
      | [_], k => simp at k
      | [_, _], k => simp at k
      | [_, _, _], k => simp at k
      | _ :: _ :: _ :: _ :: _ :: _, k => simp at k

/-- When two points are on the first ray, the stack runs empty and the assertion fails, also for a proper
point set with the lowest point first. -/
theorem C41_collinear_refuted : ∃ (o : P2 ℚ) (t : List (P2 ℚ)), LowestOf o t ∧
    (∃ a ∈ t, ∃ b ∈ t, 0 < area2 o a b) ∧
    ∀ sort, Sorts sort → grahamHull Cmp.direct sort (o :: t) = .error .assertFailed := by
  have hl : LowestOf (⟨1, 0⟩ : P2 ℚ) [⟨1, 1⟩, ⟨1, 2⟩, ⟨0, 0⟩] := by
    intro p hp
    simp only [List.mem_cons, List.not_mem_nil, or_false] at hp
    rcases hp with rfl | rfl | rfl <;> norm_num
  refine ⟨⟨1, 0⟩, [⟨1, 1⟩, ⟨1, 2⟩, ⟨0, 0⟩], hl, ?_, ?_⟩
  · refine ⟨⟨1, 1⟩, by simp, ⟨0, 0⟩, by simp, by norm_num [area2]⟩
  intro sort hs
  have hm : sort (grahamLess Cmp.direct (⟨1, 0⟩ : P2 ℚ)) [⟨1, 1⟩, ⟨1, 2⟩, ⟨0, 0⟩] ∈
      List.permutations' [(⟨1, 1⟩ : P2 ℚ), ⟨1, 2⟩, ⟨0, 0⟩] := List.mem_permutations'.2 (hs _ _).1
  have hw : StrictWeakOn (grahamLess Cmp.direct (⟨1, 0⟩ : P2 ℚ)) [⟨1, 1⟩, ⟨1, 2⟩, ⟨0, 0⟩] := by
    unfold StrictWeakOn
    decide +kernel
  have hpw := (hs _ _).2 hw
  have key : ∀ l ∈ List.permutations' [(⟨1, 1⟩ : P2 ℚ), ⟨1, 2⟩, ⟨0, 0⟩],
      l.Pairwise (fun a b => grahamLess Cmp.direct (⟨1, 0⟩ : P2 ℚ) b a = false) →
      (match l with
        | [] => Except.error Fault.outOfRange
        | a :: rest => grahamLoop Cmp.direct (2 * rest.length) rest [a, (⟨1, 0⟩ : P2 ℚ)]) =
        .error .assertFailed := by decide +kernel
  have k := key _ hm hpw
  unfold grahamHull
  rw [findLowest_id hl]
  simp only
  revert k
  cases sort (grahamLess Cmp.direct (⟨1, 0⟩ : P2 ℚ)) [⟨1, 1⟩, ⟨1, 2⟩, ⟨0, 0⟩] with
  | nil => intro k; simp at k
  | cons a rest => intro k; exact k

end Geometrix
