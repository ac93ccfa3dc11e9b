import Verif.Lemmas.Curvature

/-!
# C72 and C73: curvature of polylines, splitting by curvature
-/

set_option linter.unusedSectionVars false

namespace Geometrix

open Spec

/-- C72: the curvature at an inner vertex is the reciprocal of the radius of the circle through the vertex and its
neighbours, positive for a left turn and negative for a right turn. -/
theorem C72_circle (poly : List (P2 ℝ)) (j : Nat) (a b c O : P2 ℝ) (R : ℝ) (ha : poly[j]? = some a)
    (hb : poly[j + 1]? = some b) (hc : poly[j + 2]? = some c) (h1 : a ≠ b) (h2 : b ≠ c) (h3 : a ≠ c) (hR : 0 < R)
    (oa : OnCircle O R a) (ob : OnCircle O R b) (oc : OnCircle O R c) :
    signedCurvature poly (j + 1) = .ok (if 0 < triangleArea2 a b c then 1 / R else -(1 / R)) := by
  have hk := bend_circle h1 h2 h3 hR oa ob oc
  have hpos := mul_pos (mul_pos (dist_pos_of_ne h1) (dist_pos_of_ne h2)) (dist_pos_of_ne h3)
  have hlen : j + 2 < poly.length := by
    by_contra h
    rw [List.getElem?_eq_none_iff.2 (by omega)] at hc; cases hc
  rw [signedCurvature, if_pos ⟨by omega, by omega⟩, Nat.add_sub_cancel, ha, hb, hc]
  dsimp only
  rw [curvatureQuotient_ok h1 h2 h3, cross_edges]
  change Except.ok (bend a b c) = _
  congr 1
  split_ifs with h
  · rw [← hk, abs_of_pos]
    exact div_pos (by linarith) hpos
  · rw [← hk, abs_of_nonpos, neg_neg]
    exact div_nonpos_of_nonpos_of_nonneg (by linarith) hpos.le

/-- A quarter turn on the unit circle. -/
example : OnCircle ⟨0, 0⟩ 1 (⟨1, 0⟩ : P2 ℝ) ∧ OnCircle ⟨0, 0⟩ 1 (⟨0, 1⟩ : P2 ℝ) ∧ OnCircle ⟨0, 0⟩ 1 (⟨-1, 0⟩ : P2 ℝ) ∧
    0 < triangleArea2 (⟨1, 0⟩ : P2 ℝ) ⟨0, 1⟩ ⟨-1, 0⟩ := by
  norm_num [OnCircle, triangleArea2]

/-- C72: for every vertex of a polyline of which three consecutive vertices are always distinct: the formula, zero at the
ends and at vertices where the polyline goes straight on. -/
theorem C72_signed (poly : List (P2 ℝ)) (h : NoFolds poly) (j : Nat) :
    signedCurvature poly j = .ok (atVertex bend poly j) :=
  signedCurvature_ok h j

/-- C72: two equal points among the vertex and its neighbours lead to a division by zero; a polyline that goes back on
itself is an instance. -/
theorem C72_fold (poly : List (P2 ℝ)) (j : Nat) (a b c : P2 ℝ) (ha : poly[j]? = some a)
    (hb : poly[j + 1]? = some b) (hc : poly[j + 2]? = some c) (h : a = b ∨ b = c ∨ a = c) :
    signedCurvature poly (j + 1) = .error .divByZero := by
  have hlen : j + 2 < poly.length := by
    by_contra h
    rw [List.getElem?_eq_none_iff.2 (by omega)] at hc; cases hc
  rw [signedCurvature, if_pos ⟨by omega, by omega⟩, Nat.add_sub_cancel, ha, hb, hc]
  exact curvatureQuotient_fold h _

/-- C72: the curvature over a vertex is the unsigned curvature times half of the length of its edges. -/
theorem C72_over_index (poly : List (P2 ℝ)) (h : NoFolds poly) (j : Nat) :
    curvatureOverIndex poly j = .ok (atVertex (fun a b c => halfEdges a b c * |bend a b c|) poly j) :=
  curvatureOverIndex_ok h j

/-- C72: the total curvature is the sum over the vertices of the curvature times half of the length of the edges. -/
theorem C72_total (poly : List (P2 ℝ)) (h : NoFolds poly) :
    totalCurvature (fun x => x) poly =
      .ok (∑ j ∈ Finset.range poly.length, atVertex (fun a b c => halfEdges a b c * bend a b c) poly j) := by
  match poly with
  | [] => rfl
  | [a] => simp [totalCurvature, atVertex]
  | [a, b] => simp [totalCurvature, atVertex, Finset.sum_range_succ]
  | a :: b :: c :: rest =>
    rw [totalCurvature, totalCurvatureLoop_ok _ _ _ _ _ h, zero_add]
    congr 1
    rw [atVertex_sum]
    rfl

/-- C72: the total absolute curvature is the sum of the curvatures over the vertices. -/
theorem C72_total_absolute (poly : List (P2 ℝ)) (h : NoFolds poly) :
    totalCurvature (fun x => |x|) poly =
      .ok (∑ j ∈ Finset.range poly.length, atVertex (fun a b c => halfEdges a b c * |bend a b c|) poly j) := by
  match poly with
  | [] => rfl
  | [a] => simp [totalCurvature, atVertex]
  | [a, b] => simp [totalCurvature, atVertex, Finset.sum_range_succ]
  | a :: b :: c :: rest =>
    rw [totalCurvature, totalCurvatureLoop_ok _ _ _ _ _ h, zero_add]
    congr 1
    rw [atVertex_sum]
    have habs : ∀ a b c : P2 ℝ, 2 * |triangleArea2 a b c| / (Spec.dist a b * Spec.dist b c * Spec.dist a c) =
        |bend a b c| := by
      intro a b c
      simp only [bend, abs_div, abs_mul]
      rw [abs_of_nonneg (dist_nonneg' a b), abs_of_nonneg (dist_nonneg' b c), abs_of_nonneg (dist_nonneg' a c),
        abs_two]
    simp only [habs]

/-- The polyline `(0,0) (1,0) (1,1) (2,1)`. -/
example : NoFolds [(⟨0, 0⟩ : P2 ℝ), ⟨1, 0⟩, ⟨1, 1⟩, ⟨2, 1⟩] := by
  intro j a b c ha hb hc
  match j with
  | 0 =>
    simp only [List.getElem?_cons_zero, List.getElem?_cons_succ, Nat.zero_add, Option.some.injEq] at ha hb hc
    subst ha hb hc
    refine ⟨fun h => ?_, fun h => ?_, fun h => ?_⟩
    · have := congrArg P2.x h; norm_num at this
    · have := congrArg P2.y h; norm_num at this
    · have := congrArg P2.x h; norm_num at this
  | 1 =>
    simp only [List.getElem?_cons_zero, List.getElem?_cons_succ, Option.some.injEq] at ha hb hc
    subst ha hb hc
    refine ⟨fun h => ?_, fun h => ?_, fun h => ?_⟩
    · have := congrArg P2.y h; norm_num at this
    · have := congrArg P2.x h; norm_num at this
    · have := congrArg P2.x h; norm_num at this
  | n + 2 => simp at hc

/-- C73: the inflection points are, in ascending order, the indices where the curvature changes between negative and not
negative. -/
theorem C73_inflection (poly : List (P2 ℝ)) (h : NoFolds poly) : ∃ r, inflectionPoints poly = .ok r ∧
    r.Pairwise (· < ·) ∧
    ∀ i, i ∈ r ↔ 0 < i ∧ i < poly.length ∧ ¬ (0 ≤ atVertex bend poly i ↔ 0 ≤ atVertex bend poly (i - 1)) := by
  refine ⟨(List.range' 1 (poly.length - 1)).filter fun j =>
    decide (curvatureSign (atVertex bend poly j) ≠ curvatureSign (atVertex bend poly (j - 1))), ?_, ?_, ?_⟩
  · rw [inflectionPoints, signedCurvature_ok h]
    exact inflectionLoop_ok h _ 0
  · exact List.Pairwise.filter _ List.pairwise_lt_range'
  · intro i
    rw [List.mem_filter, List.mem_range'_1, decide_eq_true_eq, ne_eq, curvatureSign_eq]
    constructor
    · rintro ⟨⟨h1, h2⟩, h3⟩; exact ⟨by omega, by omega, h3⟩
    · rintro ⟨h1, h2, h3⟩; exact ⟨⟨by omega, by omega⟩, h3⟩

/-- C73: splitting a polyline with at least two points by its inflection points: the pieces make up the polyline, no
inner vertex of a piece is an inflection point, and the pieces meet at inflection points. -/
theorem C73_split (poly : List (P2 ℝ)) (h : NoFolds poly) (h2 : 2 ≤ poly.length) : ∃ pieces r,
    splitInflection poly = .ok pieces ∧ inflectionPoints poly = .ok r ∧ IsVertexSplit poly pieces ∧
    ∀ pre p post, pieces = pre ++ p :: post →
      (∀ j, startIndex pre < j → j + 1 < startIndex pre + p.length → j ∉ r) ∧
      (post ≠ [] → startIndex pre + (p.length - 1) ∈ r) := by
  obtain ⟨r, hr, -, hmem⟩ := C73_inflection poly h
  match poly, h2 with
  | p0 :: p1 :: rest, _ =>
    generalize hcut : (fun j => decide (curvatureSign (atVertex bend (p0 :: p1 :: rest) j) ≠
      curvatureSign (atVertex bend (p0 :: p1 :: rest) (j - 1)))) = cut
    have hrun : splitInflection (p0 :: p1 :: rest) = .ok (cutPieces cut (p1 :: rest) 1 [p0]) := by
      rw [splitInflection, signedCurvature_ok h]
      dsimp only
      rw [splitInflectionLoop_ok h _ 0 [p0] (by simp) [], hcut, List.nil_append]
    obtain ⟨hs, -⟩ := cutPieces_split cut (p1 :: rest) 1 [p0] (by simp) (by simp)
    refine ⟨_, r, hrun, hr, hs, fun pre p post e => ?_⟩
    obtain ⟨k1, k2, -⟩ := cutPieces_cuts cut (p1 :: rest) 1 [p0] (by simp) 0 (by simp) pre p post e
    rw [zero_add] at k1 k2
    obtain ⟨hp2, hlen⟩ := mem_pieces_length hs e
    rw [List.singleton_append] at hlen
    refine ⟨fun j h1 h3 hj => ?_, fun hp => ?_⟩
    · have := k1 j h1 (by omega) h3
      rw [← hcut, decide_eq_false_iff_not, not_not, curvatureSign_eq] at this
      exact ((hmem j).1 hj).2.2 this
    · have := k2 hp
      rw [← hcut, decide_eq_true_eq, ne_eq, curvatureSign_eq] at this
      exact (hmem _).2 ⟨by omega, by omega, this⟩

/-- C73: splitting a polyline with at least two points by the total curvature `ksplit`: the pieces make up the polyline,
within a piece the curvature over the vertices after its first adds up to no more than `ksplit`, and with the vertex
where a piece ends to more than that, unless the polyline ends there. -/
theorem C73_total (poly : List (P2 ℝ)) (ksplit : ℝ) (h : NoFolds poly) (h2 : 2 ≤ poly.length) : ∃ pieces,
    splitTotal poly ksplit = .ok pieces ∧ IsVertexSplit poly pieces ∧
    ∀ pre p post, pieces = pre ++ p :: post →
      (∀ n, 0 < n → n + 1 < p.length → ∑ j ∈ Finset.Ioc (startIndex pre) (startIndex pre + n),
        atVertex (fun a b c => halfEdges a b c * |bend a b c|) poly j ≤ ksplit) ∧
      (post ≠ [] → ksplit < ∑ j ∈ Finset.Ioc (startIndex pre) (startIndex pre + (p.length - 1)),
        atVertex (fun a b c => halfEdges a b c * |bend a b c|) poly j) := by
  match poly, h2 with
  | p0 :: p1 :: rest, _ =>
    generalize hk : atVertex (fun a b c => halfEdges a b c * |bend a b c|) (p0 :: p1 :: rest) = k
    have hrun : splitTotal (p0 :: p1 :: rest) ksplit = .ok (cutPieces (totalCut k ksplit) (p1 :: rest) 1 [p0]) := by
      rw [splitTotal]
      have := splitTotalLoop_ok k (fun j => by rw [curvatureOverIndex_ok h, hk]) ksplit (p1 :: rest) 0 [p0] (by simp) []
      rw [List.nil_append] at this
      exact this
    obtain ⟨hs, -⟩ := cutPieces_split (totalCut k ksplit) (p1 :: rest) 1 [p0] (by simp) (by simp)
    refine ⟨_, hrun, hs, fun pre p post e => ?_⟩
    obtain ⟨k1, k2, k3⟩ := cutPieces_cuts _ (p1 :: rest) 1 [p0] (by simp) 0 (by simp) pre p post e
    rw [zero_add] at k1 k2 k3
    obtain ⟨hp2, hlen⟩ := mem_pieces_length hs e
    have h0 : ktotBefore k ksplit (startIndex pre) = 0 := by
      refine ktotBefore_cut k ksplit _ ?_
      by_cases hp : pre = []
      · left; rw [hp]; rfl
      · right; exact ⟨by have := (k3 hp).1; omega, (k3 hp).2⟩
    refine ⟨fun n hn1 hn => ?_, fun hp => ?_⟩
    · have hb := ktotBefore_sum k ksplit (startIndex pre) n h0 (fun j h1 h3 => k1 j h1 (by omega) (by omega))
      obtain ⟨m, rfl⟩ : ∃ m, n = m + 1 := ⟨n - 1, by omega⟩
      have hm := ktotBefore_sum k ksplit (startIndex pre) m h0 (fun j h1 h3 => k1 j h1 (by omega) (by omega))
      have := k1 (startIndex pre + m + 1) (by omega) (by omega) (by omega)
      simp only [totalCut, Nat.add_sub_cancel, decide_eq_false_iff_not, not_lt, gt_iff_lt] at this
      rw [← add_assoc, Finset.sum_Ioc_succ_top (by omega), ← hm]
      exact this
    · obtain ⟨m, hm⟩ : ∃ m, p.length = m + 2 := ⟨p.length - 2, by omega⟩
      have := k2 hp
      rw [hm, show m + 2 - 1 = m + 1 by omega] at this ⊢
      have hb := ktotBefore_sum k ksplit (startIndex pre) m h0 (fun j h1 h3 => k1 j h1 (by omega) (by omega))
      rw [← add_assoc] at this ⊢
      simp only [totalCut, Nat.add_sub_cancel, decide_eq_true_eq] at this
      rw [Finset.sum_Ioc_succ_top (by omega), ← hb]
      exact this

/-- C73: a polyline with one point has no pieces, and the empty polyline is read beyond its end. -/
theorem C73_short (p : P2 ℝ) (ksplit : ℝ) : splitInflection [p] = .ok [] ∧ splitTotal [p] ksplit = .ok [] ∧
    splitInflection [] = .error .outOfRange ∧ splitTotal [] ksplit = .error .outOfRange := by
  refine ⟨?_, ?_, rfl, rfl⟩
  · simp [splitInflection, signedCurvature, splitInflectionLoop]
  · simp [splitTotal, splitTotalLoop]

end Geometrix
