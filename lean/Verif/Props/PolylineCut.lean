import Verif.Lemmas.PolylinePieces

/-!
# C98: cutting a polyline where it meets itself, and the trimmed parallel polyline
-/

set_option linter.unusedSectionVars false

namespace Geometrix

open Spec

section Field

variable {K : Type*} [Field K] [LinearOrder K] [IsStrictOrderedRing K]

/-- `self_intersection_set`: the items are in order along the polyline; each is an end of the common part of two edges, with
the number of one of them; and for any two edges that meet, other than at the vertex between them, or that follow each other
on one line, both ends of the common part are there with both numbers. -/
theorem C98_set {poly : List (P2 K)} (hp : ProperEdges poly) :
    ∃ S, selfIntersectionSet Cmp.direct poly = .ok S ∧ S.Pairwise (CutBefore poly) ∧
      (∀ c ∈ S, ∃ i j A B C D P Q, SelfCut poly i j A B C D P Q ∧ (c.1 = i ∨ c.1 = j) ∧ (c.2 = P ∨ c.2 = Q)) ∧
      ∀ i j A B C D, i < j → IsEdge poly i A B → IsEdge poly j C D → (∃ X, Common A B C D X) →
        (j ≠ i + 1 ∨ (OnLine A B C ∧ OnLine A B D)) →
        ∃ P Q, (∀ X, Common A B C D X ↔ OnSegment P Q X) ∧ (i, P) ∈ S ∧ (j, P) ∈ S ∧ (i, Q) ∈ S ∧ (j, Q) ∈ S := by
  obtain ⟨S, h1, h2, h3, h4, -⟩ := selfIntersectionSet_spec hp
  exact ⟨S, h1, h2, h3, h4⟩

/-- A polyline that crosses itself once. -/
example : selfIntersectionSet Cmp.direct [⟨0, 0⟩, ⟨4, 0⟩, ⟨4, 2⟩, (⟨2, -2⟩ : P2 ℚ)] = .ok [(0, ⟨3, 0⟩), (2, ⟨3, 0⟩)] := by
  decide +kernel

example : ProperEdges [⟨0, 0⟩, ⟨4, 0⟩, ⟨4, 2⟩, (⟨2, -2⟩ : P2 ℚ)] := by
  rintro (_ | _ | _ | i) A B ⟨h1, h2⟩ <;> simp at h1 h2
  all_goals subst h1; subst h2; decide +kernel

/-- `split`: the pieces are those between the cuts in the list of the vertices with the cuts put in, without repeated points;
pieces of a single point are left out. -/
theorem C98_split [DecidableEq (P2 K)] {pline : List (P2 K)} {cuts : List (Nat × P2 K)} (hn : cuts ≠ [])
    (hs : cuts.Pairwise fun a b => a.1 ≤ b.1) (hc : ∀ c ∈ cuts, c.1 < pline.length) :
    splitPolyline Cmp.direct cuts pline =
      .ok (((piecesOf (withCuts cuts 0 pline)).map noRepeats).filter fun p => 1 < p.length) :=
  splitPolyline_spec hn hs hc

/-- The same polyline cut at its crossing. -/
example : splitPolyline Cmp.direct [(0, ⟨3, 0⟩), (2, ⟨3, 0⟩)] [⟨0, 0⟩, ⟨4, 0⟩, ⟨4, 2⟩, (⟨2, -2⟩ : P2 ℚ)] =
    .ok [[⟨0, 0⟩, ⟨3, 0⟩], [⟨3, 0⟩, ⟨4, 0⟩, ⟨4, 2⟩, ⟨3, 0⟩], [⟨3, 0⟩, ⟨2, -2⟩]] := by
  rw [C98_split (by simp) (by simp) (by simp)]
  decide +kernel

/-- Without cuts the assertion fails, … -/
theorem C98_split_empty (pline : List (P2 K)) : splitPolyline Cmp.direct [] pline = .error .assertFailed := rfl

/-- … and together the pieces have the points of the polyline, if the cuts are on their edges and in order along them. -/
theorem C98_cover [DecidableEq (P2 K)] {pline : List (P2 K)} {cuts : List (Nat × P2 K)} (hn : cuts ≠ [])
    (h1 : ∀ c ∈ cuts, ∃ A B, IsEdge pline c.1 A B ∧ OnSegment A B c.2) (h2 : cuts.Pairwise (CutBefore pline))
    (h3 : ∃ A ∈ pline, ∃ B ∈ pline, A ≠ B) : ∃ pieces, splitPolyline Cmp.direct cuts pline = .ok pieces ∧
      ∀ X, OnPolyline pline X ↔ ∃ q ∈ pieces, OnPolyline q X := by
  refine ⟨_, splitPolyline_spec hn ?_ ?_, pieces_cover h1 h2 h3⟩
  · refine h2.imp ?_
    rintro a b (h | ⟨h, -⟩)
    · exact h.le
    · exact h.le
  · intro c hc
    obtain ⟨A, B, he, -⟩ := h1 c hc
    have := isEdge_lt he
    omega

example : ∃ pieces, splitPolyline Cmp.direct [(0, (⟨1, 0⟩ : P2 ℚ)), (0, ⟨3, 0⟩)] [⟨0, 0⟩, ⟨4, 0⟩] = .ok pieces ∧
    ∀ X, OnPolyline [⟨0, 0⟩, ⟨4, 0⟩] X ↔ ∃ q ∈ pieces, OnPolyline q X := by
  refine C98_cover (by simp) ?_ ?_ ⟨⟨0, 0⟩, by simp, ⟨4, 0⟩, by simp, by decide +kernel⟩
  · intro c hc
    simp at hc
    rcases hc with rfl | rfl
    · exact ⟨⟨0, 0⟩, ⟨4, 0⟩, ⟨rfl, rfl⟩, 1 / 4, by norm_num, by norm_num, by ext <;> norm_num⟩
    · exact ⟨⟨0, 0⟩, ⟨4, 0⟩, ⟨rfl, rfl⟩, 3 / 4, by norm_num, by norm_num, by ext <;> norm_num⟩
  · simp only [List.pairwise_cons, List.mem_singleton, forall_eq, List.not_mem_nil, false_imp_iff, implies_true,
      List.Pairwise.nil, and_true]
    exact Or.inr ⟨rfl, ⟨0, 0⟩, rfl, by norm_num [sqDist]⟩

end Field

/-- `liu_polyline_offset`: if the untrimmed parallel polyline does not meet itself it is the result; otherwise it is cut where
it meets itself, and exactly the pieces that do not meet the polyline are in the result. Wanted: the result has the points at
the distance from the polyline. Missing: that; see `C98_liu_close_refuted`. This is for an untrimmed polyline without edges of
length zero. -/
theorem C98_liu_partial (poly u : List (P2 ℝ)) (side : Orient) (d : ℝ)
    (hu : untrimmedOffset Cmp.direct (decide (side = .left)) d poly = .ok u) (hp : ProperEdges poly) (hq : ProperEdges u)
    (h3 : 2 ≤ u.length) :
    ∃ r, liuOffset Cmp.direct poly side d = .ok r ∧
      ((¬ ∃ i j A B C D P Q, SelfCut u i j A B C D P Q) → r = [u]) ∧
      ((∃ i j A B C D P Q, SelfCut u i j A B C D P Q) → ∃ pieces : List (List (P2 ℝ)),
        (∃ cuts, selfIntersectionSet Cmp.direct u = .ok cuts ∧ splitPolyline Cmp.direct cuts u = .ok pieces) ∧
        (∀ X, OnPolyline u X ↔ ∃ q ∈ pieces, OnPolyline q X) ∧
        ∀ q, q ∈ r ↔ q ∈ pieces ∧ ¬ ∃ i j, EdgesMeet q poly i j) := by
  classical
  have hi : liuOffset Cmp.direct poly side d = liuOffsetImpl Cmp.direct (decide (side = .left)) d poly := by
    unfold liuOffset
    by_cases hs : side = .left <;> simp [hs]
  rw [hi]
  obtain ⟨S, e, hS, hm, hall, hon⟩ := selfIntersectionSet_spec hq
  cases S with
  | nil =>
    refine ⟨[u], by simp only [liuOffsetImpl, hu, e], fun _ => rfl, ?_⟩
    rintro ⟨i, j, A, B, C, D, P, Q, h1, h2, h3, h4, h5⟩
    obtain ⟨P', Q', -, h6, -⟩ := hall i j A B C D h1 h2 h3 ⟨P, (h4 P).2 (onSegment_left P Q)⟩ h5
    simp at h6
  | cons c S =>
    have hsp := splitPolyline_spec (pline := u) (cuts := c :: S) (by simp)
      (hS.imp (by rintro a b (h | ⟨h, -⟩) <;> exact h.le))
      (fun c hc => by
        obtain ⟨A, B, he, -⟩ := hon c hc
        have := isEdge_lt he
        omega)
    obtain ⟨r, er, hr⟩ := liuKeep_spec hp _ (fun q (h : q ∈ kept (piecesOf (withCuts (c :: S) 0 u))) => kept_proper h)
    refine ⟨r, by simp only [liuOffsetImpl, hu, e, hsp, er], ?_, ?_⟩
    · intro hno
      obtain ⟨i, j, A, B, C, D, P, Q, h, -⟩ := hm c List.mem_cons_self
      exact absurd ⟨i, j, A, B, C, D, P, Q, h⟩ hno
    · intro _
      refine ⟨_, ⟨_, e, hsp⟩, ?_, hr⟩
      refine pieces_cover hon hS ?_
      match u, h3 with
      | a :: b :: l, _ => exact ⟨a, by simp, b, by simp, hq 0 a b ⟨rfl, rfl⟩⟩

/-- The result is not tested against the polyline when the untrimmed one does not meet itself: the ends of the parallel at
distance 3 inside a wide bracket are at distance 1 from the bracket. -/
theorem C98_liu_close_refuted :
    liuOffset Cmp.direct [⟨0, 0⟩, ⟨10, 0⟩, ⟨10, 4⟩, ⟨0, 4⟩] .left 3 = .ok [[⟨0, 3⟩, ⟨7, 3⟩, ⟨7, 1⟩, ⟨0, 1⟩]] ∧
      sqDist (⟨0, 0⟩ : P2 ℝ) ⟨0, 1⟩ = 1 := by
  refine ⟨?_, by norm_num [sqDist]⟩
  have s10 : Real.sqrt 100 = 10 := by rw [show (100 : ℝ) = 10 ^ 2 by norm_num, Real.sqrt_sq (by norm_num)]
  have s4 : Real.sqrt 16 = 4 := by rw [show (16 : ℝ) = 4 ^ 2 by norm_num, Real.sqrt_sq (by norm_num)]
  have e1 : offsetEdge true 3 (⟨0, 0⟩ : P2 ℝ) ⟨10, 0⟩ = .ok (⟨0, 3⟩, ⟨10, 3⟩) := by
    norm_num [offsetEdge, normalize2, normSq, dot, offsetNormal, leftNormal, P2.ext_iff, s10]
  have e2 : offsetEdge true 3 (⟨10, 0⟩ : P2 ℝ) ⟨10, 4⟩ = .ok (⟨7, 0⟩, ⟨7, 4⟩) := by
    norm_num [offsetEdge, normalize2, normSq, dot, offsetNormal, leftNormal, P2.ext_iff, s4]
  have e3 : offsetEdge true 3 (⟨10, 4⟩ : P2 ℝ) ⟨0, 4⟩ = .ok (⟨10, 1⟩, ⟨0, 1⟩) := by
    norm_num [offsetEdge, normalize2, normSq, dot, offsetNormal, leftNormal, P2.ext_iff, s10]
  have p1 : untrimmedPush Cmp.direct (⟨0, 3⟩ : P2 ℝ) ⟨10, 3⟩ ⟨7, 0⟩ ⟨7, 4⟩ = .ok [⟨7, 3⟩] := by
    norm_num [untrimmedPush, lineLineIntersectST, xDenom, xNumS, xNumT, classifyXPoint, cdiv, Cmp.direct, cross, P2.ext_iff]
  have p2 : untrimmedPush Cmp.direct (⟨7, 0⟩ : P2 ℝ) ⟨7, 4⟩ ⟨10, 1⟩ ⟨0, 1⟩ = .ok [⟨7, 1⟩] := by
    norm_num [untrimmedPush, lineLineIntersectST, xDenom, xNumS, xNumT, classifyXPoint, cdiv, Cmp.direct, cross, P2.ext_iff]
  have hu : untrimmedOffset Cmp.direct (decide (Orient.left = .left)) 3 [⟨0, 0⟩, ⟨10, 0⟩, ⟨10, 4⟩, ⟨0, 4⟩] =
      .ok [⟨0, 3⟩, ⟨7, 3⟩, ⟨7, 1⟩, ⟨0, 1⟩] := by
    simp [untrimmedOffset, untrimmedLoop, e1, e2, e3, p1, p2]
  obtain ⟨r, h1, h2, -⟩ := C98_liu_partial _ _ .left 3 hu
    (by rintro (_ | _ | _ | i) A B ⟨h1, h2⟩ <;> simp at h1 h2 <;> subst h1 h2 <;> norm_num [P2.ext_iff])
    (by rintro (_ | _ | _ | i) A B ⟨h1, h2⟩ <;> simp at h1 h2 <;> subst h1 h2 <;> norm_num [P2.ext_iff]) (by simp)
  rw [h1, h2]
  rintro ⟨i, j, A, B, C, D, P, Q, hij, ⟨a1, a2⟩, ⟨a3, a4⟩, hX, ho⟩
  have hP := (hX P).2 (onSegment_left P Q)
  rcases i with _ | _ | _ | i <;> rcases j with _ | _ | _ | j <;> simp at a1 a2 a3 a4 hij ho
  · subst a1 a2 a3 a4
    obtain ⟨-, ⟨t, ht⟩⟩ := ho
    have := congrArg P2.y ht
    norm_num at this
  · subst a1 a2 a3 a4
    obtain ⟨⟨s, -, -, hs⟩, ⟨t, -, -, ht⟩⟩ := hP
    have := congrArg P2.y (hs.symm.trans ht)
    norm_num at this
  · subst a1 a2 a3 a4
    obtain ⟨-, ⟨t, ht⟩⟩ := ho
    have := congrArg P2.x ht
    norm_num at this

end Geometrix
