import Verif.Lemmas.PolylineSplit

/-!
# C28, C56 and C57: positions along a polyline
-/

set_option linter.unusedSectionVars false

namespace Geometrix

open Spec

/-- Splitting at a position from 0 to less than the total length cuts the polyline in two: the parts
share the split point, make up the input, and their lengths are the position and the remainder.
Full claim: also at the total length; there it fails (`C28_split_end_refuted`). -/
theorem C28_split_partial (poly : List (P2 ℝ)) (pos : ℝ) (h0 : 0 ≤ pos)
    (h1 : pos < chainSum Spec.dist poly) :
    ∃ a b, polylineSplit poly pos = .ok (a, b) ∧ IsCut poly a b ∧
      chainSum Spec.dist a = pos ∧ chainSum Spec.dist b = chainSum Spec.dist poly - pos := by
  match poly with
  | [] => rw [chainSum_nil] at h1; linarith
  | p :: rest =>
    obtain ⟨before, after, S, k1, -, k3, k4, k5⟩ := splitLoop_spec pos rest 0 p h0 (by linarith)
    refine ⟨before ++ [S], S :: after, ?_, ⟨before, after, S, rfl, rfl, k5⟩, by rw [k3]; ring, by
      rw [k4]; ring⟩
    simp [polylineSplit, k1]

/-- The hypotheses hold in the middle of an L shape. -/
example : (0 : ℝ) ≤ 1 ∧ (1 : ℝ) < chainSum Spec.dist [(⟨0, 0⟩ : P2 ℝ), ⟨2, 0⟩, ⟨2, 1⟩] := by
  refine ⟨zero_le_one, ?_⟩
  rw [chainSum_cons, chainSum_cons, chainSum_single]
  have h : Spec.dist (⟨0, 0⟩ : P2 ℝ) ⟨2, 0⟩ = 2 := by
    rw [Spec.dist, show ((2 : ℝ) - 0) ^ 2 + (0 - 0) ^ 2 = 2 ^ 2 by norm_num, Real.sqrt_sq (by norm_num)]
  have := dist_nonneg' (⟨2, 0⟩ : P2 ℝ) ⟨2, 1⟩
  linarith

/-- At or beyond the total length the last edge is in neither part: the first part ends at the last
vertex but one, and that vertex is all of the second part. -/
theorem C28_split_end (poly : List (P2 ℝ)) (pos : ℝ) (h2 : 2 ≤ poly.length)
    (h1 : chainSum Spec.dist poly ≤ pos) :
    ∃ z, poly.dropLast.getLast? = some z ∧ polylineSplit poly pos = .ok (poly.dropLast, [z]) := by
  match poly, h2 with
  | p :: q :: rest, _ =>
    have k := splitLoop_past pos (q :: rest) 0 p (by linarith)
    have hne : (p :: q :: rest).dropLast ≠ [] := by simp
    refine ⟨_, List.getLast?_eq_getLast_of_ne_nil hne, ?_⟩
    simp only [polylineSplit, k, List.getLast?_eq_getLast_of_ne_nil hne]

/-- Splitting the segment from `(0,0)` to `(1,0)` at its full length 1 gives two single points. -/
theorem C28_split_end_refuted :
    polylineSplit [(⟨0, 0⟩ : P2 ℝ), ⟨1, 0⟩] 1 = .ok ([⟨0, 0⟩], [⟨0, 0⟩]) ∧
    chainSum Spec.dist [(⟨0, 0⟩ : P2 ℝ), ⟨1, 0⟩] = 1 ∧
    ¬ IsCut [(⟨0, 0⟩ : P2 ℝ), ⟨1, 0⟩] [⟨0, 0⟩] [⟨0, 0⟩] := by
  have hd : chainSum Spec.dist [(⟨0, 0⟩ : P2 ℝ), ⟨1, 0⟩] = 1 := by
    rw [chainSum_cons, chainSum_single, Spec.dist,
      show ((1 : ℝ) - 0) ^ 2 + (0 - 0) ^ 2 = 1 by norm_num, Real.sqrt_one, add_zero]
  refine ⟨?_, hd, ?_⟩
  · obtain ⟨z, h1, h2⟩ := C28_split_end [(⟨0, 0⟩ : P2 ℝ), ⟨1, 0⟩] 1 (by simp) hd.le
    simp only [List.dropLast, List.getLast?_singleton, Option.some.injEq] at h1
    subst h1
    exact h2
  · rintro ⟨before, after, S, h1, h2, h3⟩
    have l1 := congrArg List.length h1
    have l2 := congrArg List.length h2
    simp only [List.length_append, List.length_cons, List.length_nil] at l1 l2
    rcases h3 with h3 | ⟨A, B, -, -, h3, -⟩
    · have l3 := congrArg List.length h3
      simp only [List.length_append, List.length_cons, List.length_nil] at l3
      omega
    · have l3 := congrArg List.length h3
      simp only [List.length_append, List.length_cons, List.length_nil] at l3
      omega

/-- Fewer than two points: the routine reads the last element of an empty polyline. -/
theorem C28_split_short (poly : List (P2 ℝ)) (pos : ℝ) (h : poly.length < 2) :
    polylineSplit poly pos = .error .outOfRange := by
  match poly, h with
  | [], _ => rfl
  | [_], _ => rfl

/-- `polyline_point_at_position` for a position from 0 to less than the total length: the returned edge
contains the point at that length, and either a point inside the edge is returned and is the one, or
none is returned and the start of the edge is the one. -/
theorem C28_point_at_partial (poly : List (P2 ℝ)) (pos : ℝ) (h0 : 0 ≤ pos)
    (h1 : pos < chainSum Spec.dist poly) :
    ∃ i o l A B r, pointAtPosition poly pos = .ok (i, o) ∧ poly = l ++ A :: B :: r ∧ l.length = i ∧
      ((o = none ∧ chainSum Spec.dist (l ++ [A]) = pos) ∨
        ∃ S, o = some S ∧ InsideSegment A B S ∧ chainSum Spec.dist (l ++ [A, S]) = pos) := by
  match poly with
  | [] => rw [chainSum_nil] at h1; linarith
  | p :: rest =>
    obtain ⟨j, o, l, A, B, r, k1, k2, k3, k4⟩ := pointAtLoop_spec pos rest 0 0 0 p h0 (by linarith)
    rw [zero_add] at k1
    rw [sub_zero] at k4
    exact ⟨j, o, l, A, B, r, k1, k2, k3, k4⟩

/-- At the total length the start of the last edge is reported instead of its end. -/
theorem C28_point_at_end_refuted :
    pointAtPosition [(⟨0, 0⟩ : P2 ℝ), ⟨1, 0⟩] 1 = .ok (0, none) ∧
    chainSum Spec.dist [(⟨0, 0⟩ : P2 ℝ)] = 0 ∧
    chainSum Spec.dist [(⟨0, 0⟩ : P2 ℝ), ⟨1, 0⟩] = 1 := by
  have hd : Spec.dist (⟨0, 0⟩ : P2 ℝ) ⟨1, 0⟩ = 1 := by
    rw [Spec.dist, show ((1 : ℝ) - 0) ^ 2 + (0 - 0) ^ 2 = 1 by norm_num, Real.sqrt_one]
  refine ⟨?_, rfl, by rw [chainSum_cons, chainSum_single, hd, add_zero]⟩
  simp [pointAtPosition, pointAtLoop, pointDist_fun, hd]

/-- The mid point of a polyline of positive length is the point at half the length, from the start and
from the end. -/
theorem C56_mid_point (poly : List (P2 ℝ)) (h : 0 < chainSum Spec.dist poly) :
    ∃ i M, polylineMidPoint poly = .ok M ∧
      AtLength poly i M (chainSum Spec.dist poly / 2) (chainSum Spec.dist poly / 2) := by
  match poly with
  | [] => exact absurd h (lt_irrefl _)
  | [_] => exact absurd h (lt_irrefl _)
  | p :: q :: rest =>
    have hlast := midLengths_last (q :: rest) 0 p 0 (by simp)
    rw [zero_add] at hlast
    set T := chainSum Spec.dist (p :: q :: rest) with hT
    obtain ⟨l, A, B, r, c, k1, k2, k3, k4, k5, k6, k7⟩ :=
      midLengths_find (T * (1 / 2)) (q :: rest) 0 p (by linarith) (by linarith)
    obtain ⟨t, ht, t0, t1, -, t3⟩ := stepBack_spec (p := A) (q := B) (l := c - T * (1 / 2))
      (by linarith) (by linarith)
    have eA : (p :: q :: rest)[l.length]? = some A := by rw [k1]; simp
    have eB : (p :: q :: rest)[l.length + 1]? = some B := by rw [k1]; simp
    refine ⟨l.length, A + t • (B - A), ?_, l, A, B, r, k1, rfl, ⟨t, t0.le, t1, rfl⟩, ?_, ?_⟩
    · simp only [polylineMidPoint, hlast, k2, k3, eA, eB, ht]
    · rw [chainSum_concat, dist_along A B t t0.le, t3]; linarith
    · rw [chainSum_cons, dist_along' A B t t1]; linarith

/-- A polyline of two or more equal points fails an assertion, and fewer than two points are read beyond
the end. -/
theorem C56_mid_point_faults (p : P2 ℝ) (n : Nat) :
    polylineMidPoint (List.replicate (n + 2) p) = .error .assertFailed ∧
    polylineMidPoint [p] = .error .outOfRange ∧
    polylineMidPoint [] = .error .outOfRange := by
  refine ⟨?_, by simp [polylineMidPoint, midLengths], rfl⟩
  have hpd : pointDist p p = 0 := by rw [pointDist_fun]; exact dist_self' p
  have hm : ∀ k, midLengths 0 p (List.replicate k p) = List.replicate k 0 := by
    intro k
    induction k with
    | zero => rfl
    | succ k ih => rw [List.replicate_succ, midLengths, hpd, add_zero, ih, List.replicate_succ]
  have e : List.replicate (n + 2) p = p :: p :: List.replicate n p := rfl
  have hm' : midLengths 0 p (p :: List.replicate n p) = List.replicate (n + 1) 0 := hm (n + 1)
  have hl : (List.replicate (n + 1) (0 : ℝ)).getLast?.getD 0 = 0 := by
    rw [List.getLast?_replicate]; simp
  rw [e]
  simp only [polylineMidPoint, hm', hl, zero_mul, sub_zero]
  rw [List.replicate_succ, List.findIdx_cons]
  simp [stepBack_zero]

/-- For a polyline without repeated consecutive points and a point on it, the reported edge is the first
that contains the point, and the two lengths are those from the start and to the end. -/
theorem C57_characteristics (poly : List (P2 ℝ)) (p : P2 ℝ) (hc : poly.IsChain (· ≠ ·))
    (h : OnPolyline poly p) :
    ∃ i before after, lengthCharacteristics Cmp.direct poly p = (before, after, some i) ∧
      AtLength poly i p before after ∧ ¬ OnPolyline (poly.take (i + 1)) p ∧
      before + after = chainSum Spec.dist poly := by
  match poly with
  | [] => simp [onPolyline_iff, openEdges] at h
  | a :: rest =>
    obtain ⟨l, A, B, r, k1, k2, k3, k4⟩ := characteristics_some p rest 0 0 a hc h
    rw [zero_add, zero_add] at k4
    refine ⟨l.length, _, _, k4, ⟨l, A, B, r, k1, rfl, k2, rfl, rfl⟩, ?_, ?_⟩
    · have : (a :: rest).take (l.length + 1) = l ++ [A] := by
        rw [k1, List.take_append]; simp
      rw [this]; exact k3
    · rw [k1, chainSum_concat, chainSum_cons]
      have key : ∀ (l : List (P2 ℝ)) (A : P2 ℝ) (m : List (P2 ℝ)),
          chainSum Spec.dist (l ++ A :: m) =
            chainSum Spec.dist (l ++ [A]) + chainSum Spec.dist (A :: m) := by
        intro l
        induction l with
        | nil => intro A m; simp [chainSum_single]
        | cons x l ih =>
          intro A m
          cases l with
          | nil => simp [chainSum_cons, chainSum_single]
          | cons y l =>
            have := ih A m
            simp only [List.cons_append] at this ⊢
            rw [chainSum_cons, chainSum_cons, this, add_assoc]
      rw [key l A (B :: r), chainSum_cons, ← dist_split k2]; ring

/-- For a point that is not on the polyline, the whole length comes before it and no edge is reported. -/
theorem C57_characteristics_off (poly : List (P2 ℝ)) (p : P2 ℝ) (hc : poly.IsChain (· ≠ ·))
    (h : ¬ OnPolyline poly p) :
    lengthCharacteristics Cmp.direct poly p = (chainSum Spec.dist poly, 0, none) := by
  match poly with
  | [] => rfl
  | a :: rest =>
    rw [lengthCharacteristics, characteristics_none p rest 0 0 0 a hc h, zero_add]

/-- The hypotheses hold for the corner of an L shape. -/
example : [(⟨0, 0⟩ : P2 ℝ), ⟨2, 0⟩, ⟨2, 1⟩].IsChain (· ≠ ·) ∧
    OnPolyline [(⟨0, 0⟩ : P2 ℝ), ⟨2, 0⟩, ⟨2, 1⟩] ⟨1, 0⟩ := by
  refine ⟨by simp [List.isChain_cons_cons, P2.ext_iff], ?_⟩
  rw [onPolyline_cons]
  exact Or.inl ⟨1 / 2, by norm_num, by norm_num, by ext <;> norm_num⟩

/-- With a repeated point the claim is false: `(5,0)` is not on the polyline but is reported on its
first edge, which is a single point. -/
theorem C57_repeated_points_refuted :
    (∃ x y, lengthCharacteristics Cmp.direct [(⟨0, 0⟩ : P2 ℝ), ⟨0, 0⟩, ⟨0, 1⟩] ⟨5, 0⟩ =
      (x, y, some 0)) ∧
    ¬ OnPolyline [(⟨0, 0⟩ : P2 ℝ), ⟨0, 0⟩, ⟨0, 1⟩] ⟨5, 0⟩ := by
  constructor
  · have : isBetween Cmp.direct (⟨0, 0⟩ : P2 ℝ) ⟨0, 0⟩ ⟨5, 0⟩ true = true := by
      simp [isBetween, isCollinear, betweenCore, cross]
    rw [lengthCharacteristics, characteristicsLoop, if_neg (by simp [this]), characteristics_after]
    exact ⟨_, _, rfl⟩
  · rw [onPolyline_cons, onPolyline_cons]
    rintro (⟨t, _, _, h⟩ | ⟨t, _, _, h⟩ | h)
    · have := congrArg P2.x h; norm_num at this
    · have := congrArg P2.x h; norm_num at this
    · exact onPolyline_single _ _ h

end Geometrix
