import Verif.Model.PolylineCut
import Verif.Spec.PolylineCut
import Verif.Lemmas.PolylineOffset
import Verif.Lemmas.PolygonContainment
import Verif.Props.SelfIntersection

set_option linter.unusedSectionVars false

namespace Geometrix

open Spec

variable {K : Type*} [Field K] [LinearOrder K] [IsStrictOrderedRing K]

/-! ## The set of cuts -/

theorem distSq_eq (A B : P2 K) : distSq A B = sqDist A B := by
  simp [distSq, normSq, dot, sqDist]; ring

/-- The point is on the edge with its number. -/
def OnItsEdge (poly : List (P2 K)) (c : Nat × P2 K) : Prop := ∃ A B, IsEdge poly c.1 A B ∧ OnSegment A B c.2

theorem cutLess_iff {poly : List (P2 K)} {a b : Nat × P2 K} : cutLess poly a b = true ↔ CutBefore poly a b := by
  unfold cutLess CutBefore
  by_cases h : a.1 = b.1
  · cases hp : poly[a.1]? with
    | none => simp [h]
    | some p => simp [h, distSq_eq]
  · simp [h]

theorem sqDist_param (A B : P2 K) (s : K) : sqDist A (A + s • (B - A)) = s ^ 2 * sqDist A B := by
  simp [sqDist]; ring

/-- Two points of a segment at the same distance from its start. -/
theorem same_of_dist {A B X Y : P2 K} (hX : OnSegment A B X) (hY : OnSegment A B Y) (h : sqDist A X = sqDist A Y) :
    X = Y := by
  obtain ⟨s, s0, -, rfl⟩ := hX
  obtain ⟨t, t0, -, rfl⟩ := hY
  rw [sqDist_param, sqDist_param] at h
  by_cases hz : sqDist A B = 0
  · have hAB : B - A = 0 := by
      have h1 : (A.x - B.x) ^ 2 + (A.y - B.y) ^ 2 = 0 := by rw [← hz]; simp [sqDist]
      have h2 : A.x - B.x = 0 := by nlinarith [sq_nonneg (A.x - B.x), sq_nonneg (A.y - B.y)]
      have h3 : A.y - B.y = 0 := by nlinarith [sq_nonneg (A.x - B.x), sq_nonneg (A.y - B.y)]
      ext <;> simp <;> linarith
    rw [hAB]
    ext <;> simp
  · have h2 := mul_right_cancel₀ hz h
    have : s = t := (pow_left_inj₀ s0 t0 two_ne_zero).1 h2
    rw [this]

theorem cut_same {poly : List (P2 K)} {a b : Nat × P2 K} (ha : OnItsEdge poly a) (hb : OnItsEdge poly b)
    (h1 : ¬ CutBefore poly a b) (h2 : ¬ CutBefore poly b a) : a = b := by
  obtain ⟨A, B, ⟨e1, e2⟩, hA⟩ := ha
  obtain ⟨C, D, ⟨e3, e4⟩, hC⟩ := hb
  unfold CutBefore at h1 h2
  push Not at h1 h2
  have he : a.1 = b.1 := le_antisymm h2.1 h1.1
  rw [← he] at e3 e4
  rw [e1] at e3
  rw [e2] at e4
  cases e3
  cases e4
  have k1 := h1.2 he A e1
  have k2 := h2.2 he.symm A (by rw [← he]; exact e1)
  exact Prod.ext he (same_of_dist hA hC (le_antisymm k2 k1))

theorem cutBefore_trans {poly : List (P2 K)} {a b c : Nat × P2 K} (h1 : CutBefore poly a b) (h2 : CutBefore poly b c) :
    CutBefore poly a c := by
  rcases h1 with h1 | ⟨h1, A, e1, l1⟩ <;> rcases h2 with h2 | ⟨h2, B, e2, l2⟩
  · exact Or.inl (lt_trans h1 h2)
  · exact Or.inl (h2 ▸ h1)
  · exact Or.inl (h1 ▸ h2)
  · rw [← h1, e1] at e2
    cases e2
    exact Or.inr ⟨h1.trans h2, A, e1, l1.trans l2⟩

theorem mem_insertCut {poly : List (P2 K)} {c : Nat × P2 K} (hc : OnItsEdge poly c) {l : List (Nat × P2 K)}
    (hl : ∀ d ∈ l, OnItsEdge poly d) (e : Nat × P2 K) : e ∈ insertCut poly c l ↔ e = c ∨ e ∈ l := by
  induction l with
  | nil => simp [insertCut]
  | cons d l ih =>
    have ih' := ih fun x hx => hl x (List.mem_cons_of_mem _ hx)
    unfold insertCut
    by_cases h1 : cutLess poly c d = true
    · rw [if_pos h1]; simp
    · rw [if_neg h1]
      by_cases h2 : cutLess poly d c = true
      · rw [if_pos h2, List.mem_cons, ih', List.mem_cons]
        tauto
      · rw [if_neg h2]
        have := cut_same hc (hl d List.mem_cons_self) (fun h => h1 (cutLess_iff.2 h)) (fun h => h2 (cutLess_iff.2 h))
        rw [this]
        simp

theorem insertCut_sorted {poly : List (P2 K)} {c : Nat × P2 K} (hc : OnItsEdge poly c) {l : List (Nat × P2 K)}
    (hl : ∀ d ∈ l, OnItsEdge poly d) (hs : l.Pairwise (CutBefore poly)) :
    (insertCut poly c l).Pairwise (CutBefore poly) := by
  induction l with
  | nil => simp [insertCut]
  | cons d l ih =>
    rw [List.pairwise_cons] at hs
    have hl' : ∀ d ∈ l, OnItsEdge poly d := fun x hx => hl x (List.mem_cons_of_mem _ hx)
    unfold insertCut
    by_cases h1 : cutLess poly c d = true
    · rw [if_pos h1, List.pairwise_cons, List.pairwise_cons]
      refine ⟨?_, hs⟩
      intro e he
      rcases List.mem_cons.1 he with rfl | he
      · exact cutLess_iff.1 h1
      · exact cutBefore_trans (cutLess_iff.1 h1) (hs.1 e he)
    · rw [if_neg h1]
      by_cases h2 : cutLess poly d c = true
      · rw [if_pos h2, List.pairwise_cons]
        refine ⟨?_, ih hl' hs.2⟩
        intro e he
        rcases (mem_insertCut hc hl' e).1 he with rfl | he
        · exact cutLess_iff.1 h2
        · exact hs.1 e he
      · rw [if_neg h2, List.pairwise_cons]
        exact hs

/-- One insertion keeps the set in order. -/
theorem insertCut_step {poly : List (P2 K)} {c : Nat × P2 K} {l : List (Nat × P2 K)} (hc : OnItsEdge poly c)
    (hl : (∀ d ∈ l, OnItsEdge poly d) ∧ l.Pairwise (CutBefore poly)) :
    (∀ d ∈ insertCut poly c l, OnItsEdge poly d) ∧ (insertCut poly c l).Pairwise (CutBefore poly) := by
  refine ⟨?_, insertCut_sorted hc hl.1 hl.2⟩
  intro d hd
  rcases (mem_insertCut hc hl.1 d).1 hd with rfl | hd
  · exact hc
  · exact hl.1 d hd

theorem onSegment_point (P X : P2 K) : OnSegment P P X ↔ X = P := by
  constructor
  · rintro ⟨t, -, -, rfl⟩
    ext <;> simp
  · rintro rfl
    exact ⟨0, le_rfl, zero_le_one, by ext <;> simp⟩

/-- Segments with a common point: one of three answers. -/
theorem answer_type {A B C D : P2 K} {ty : IType} {pts : List (P2 K)} (h : CorrectAnswer A B C D ty pts) (hAB : A ≠ B)
    (hc : ∃ X, Common A B C D X) : ty = .crossing ∨ ty = .endpoint ∨ ty = .overlapping := by
  have hv : B - A ≠ 0 := sub_ne_zero_P2 hAB
  obtain ⟨X, hX⟩ := hc
  by_cases hcr : cross (B - A) (D - C) = 0
  · right; right
    obtain ⟨k, hk⟩ := (cross_eq_zero_iff hv).1 hcr
    obtain ⟨⟨s, s0, s1, hs⟩, ⟨t, t0, t1, ht⟩⟩ := id hX
    have hC : C = A + (s - t * k) • (B - A) := by
      have hx := congrArg P2.x (hs.symm.trans ht); have hy := congrArg P2.y (hs.symm.trans ht)
      rw [hk] at hx hy
      simp only [P2.add_x, P2.smul_x, P2.add_y, P2.smul_y] at hx hy
      ext <;> simp only [P2.add_x, P2.smul_x, P2.add_y, P2.smul_y] <;> linarith
    have hD : D = A + (s - t * k + k) • (B - A) := by
      have : D = C + (D - C) := by ext <;> simp
      rw [this, hk]
      nth_rewrite 1 [hC]
      ext <;> simp <;> ring
    exact h.overlapping.2 ⟨⟨_, hC⟩, ⟨_, hD⟩, X, hX⟩
  · have hnp : ¬ Parallel (B - A) (D - C) := by rwa [parallel_iff_cross hv]
    by_cases he : X = A ∨ X = B ∨ X = C ∨ X = D
    · exact Or.inr (Or.inl (h.endpoint.2 ⟨hnp, X, hX, he⟩))
    · push Not at he
      left
      refine h.crossing.2 ⟨X, ?_, ?_, fun Q hQ => common_unique hcr hQ hX⟩
      · obtain ⟨s, s0, s1, hs⟩ := hX.1
        refine ⟨s, lt_of_le_of_ne s0 ?_, lt_of_le_of_ne s1 ?_, hs⟩
        · rintro rfl; apply he.1; rw [hs]; ext <;> simp
        · rintro rfl; apply he.2.1; rw [hs]; ext <;> simp
      · obtain ⟨s, s0, s1, hs⟩ := hX.2
        refine ⟨s, lt_of_le_of_ne s0 ?_, lt_of_le_of_ne s1 ?_, hs⟩
        · rintro rfl; apply he.2.2.1; rw [hs]; ext <;> simp
        · rintro rfl; apply he.2.2.2; rw [hs]; ext <;> simp

theorem correct_points {A B C D : P2 K} {ty : IType} {pts : List (P2 K)} (h : CorrectAnswer A B C D ty pts)
    (hAB : A ≠ B) (hc : ∃ X, Common A B C D X) :
    ∃ P Q, (∀ X, Common A B C D X ↔ OnSegment P Q X) ∧
      ((ty ≠ .overlapping ∧ P = Q ∧ pts = [P]) ∨ (ty = .overlapping ∧ pts = [P, Q])) := by
  have ht := answer_type h hAB hc
  by_cases ho : ty = .overlapping
  · obtain ⟨P, Q, e, hX⟩ := h.part ho
    exact ⟨P, Q, hX, Or.inr ⟨ho, e⟩⟩
  · obtain ⟨P, e, hX⟩ := h.point (by tauto)
    exact ⟨P, P, fun X => (hX X).trans (onSegment_point P X).symm, Or.inl ⟨ho, rfl, e⟩⟩

/-- A set in order, of points on their edges. -/
def GoodCuts (poly : List (P2 K)) (l : List (Nat × P2 K)) : Prop :=
  (∀ d ∈ l, OnItsEdge poly d) ∧ l.Pairwise (CutBefore poly)

/-- One call of the visitor. -/
theorem cutVisitor_spec {poly : List (P2 K)} {c : EdgeCall K} {A B C D P Q : P2 K}
    (h : SelfCut poly c.i c.j A B C D P Q)
    (hp : (c.type ≠ .overlapping ∧ P = Q ∧ c.pts = [P]) ∨ (c.type = .overlapping ∧ c.pts = [P, Q]))
    {l : List (Nat × P2 K)} (hl : GoodCuts poly l) :
    ∃ l', cutVisitor poly (.ok l) c = .ok l' ∧ GoodCuts poly l' ∧
      ∀ e, e ∈ l' ↔ e ∈ l ∨ ((e.1 = c.i ∨ e.1 = c.j) ∧ (e.2 = P ∨ e.2 = Q)) := by
  obtain ⟨hij, e1, e2, hX, -⟩ := h
  have cP := (hX P).2 (onSegment_left P Q)
  have cQ := (hX Q).2 (onSegment_right P Q)
  have iP : OnItsEdge poly (c.i, P) := ⟨A, B, e1, cP.1⟩
  have jP : OnItsEdge poly (c.j, P) := ⟨C, D, e2, cP.2⟩
  have iQ : OnItsEdge poly (c.i, Q) := ⟨A, B, e1, cQ.1⟩
  have jQ : OnItsEdge poly (c.j, Q) := ⟨C, D, e2, cQ.2⟩
  have g1 := insertCut_step iP hl
  have g2 := insertCut_step jP g1
  have g3 := insertCut_step iQ g2
  have g4 := insertCut_step jQ g3
  rcases hp with ⟨ht, rfl, hpts⟩ | ⟨ht, hpts⟩
  · refine ⟨_, ?_, g2, ?_⟩
    · simp only [cutVisitor, hpts]
      rw [if_neg hij.ne, if_neg ht]
    · intro e
      rw [mem_insertCut jP g1.1, mem_insertCut iP hl.1]
      simp only [Prod.ext_iff]
      tauto
  · refine ⟨_, ?_, g4, ?_⟩
    · simp only [cutVisitor, hpts]
      rw [if_neg hij.ne, if_pos ht]
    · intro e
      rw [mem_insertCut jQ g3.1, mem_insertCut iQ g2.1, mem_insertCut jP g1.1, mem_insertCut iP hl.1]
      simp only [Prod.ext_iff]
      tauto

/-- All calls. -/
theorem cutVisitor_fold {poly : List (P2 K)} (calls : List (EdgeCall K))
    (h : ∀ c ∈ calls, ∃ A B C D P Q, SelfCut poly c.i c.j A B C D P Q ∧
      ((c.type ≠ .overlapping ∧ P = Q ∧ c.pts = [P]) ∨ (c.type = .overlapping ∧ c.pts = [P, Q]))) :
    ∀ l, GoodCuts poly l → ∃ l', calls.foldl (cutVisitor poly) (.ok l) = .ok l' ∧ GoodCuts poly l' ∧
      (∀ e ∈ l', e ∈ l ∨ ∃ c ∈ calls, ∃ A B C D P Q, SelfCut poly c.i c.j A B C D P Q ∧
        (e.1 = c.i ∨ e.1 = c.j) ∧ (e.2 = P ∨ e.2 = Q)) ∧
      (∀ e ∈ l, e ∈ l') ∧
      ∀ c ∈ calls, ∃ A B C D P Q, SelfCut poly c.i c.j A B C D P Q ∧ (c.i, P) ∈ l' ∧ (c.j, P) ∈ l' ∧ (c.i, Q) ∈ l' ∧
        (c.j, Q) ∈ l' := by
  induction calls with
  | nil => exact fun l hl => ⟨l, rfl, hl, fun e he => Or.inl he, fun e he => he, by simp⟩
  | cons c calls ih =>
    intro l hl
    obtain ⟨A, B, C, D, P, Q, h1, h2⟩ := h c List.mem_cons_self
    obtain ⟨l1, e1, g1, m1⟩ := cutVisitor_spec h1 h2 hl
    obtain ⟨l2, e2, g2, m2, m3, m4⟩ := ih (fun c hc => h c (List.mem_cons_of_mem _ hc)) l1 g1
    refine ⟨l2, by rw [List.foldl_cons, e1, e2], g2, ?_, fun e he => m3 e ((m1 e).2 (Or.inl he)), ?_⟩
    · intro e he
      rcases m2 e he with h | ⟨d, hd, h⟩
      · rcases (m1 e).1 h with h | h
        · exact Or.inl h
        · exact Or.inr ⟨c, List.mem_cons_self, A, B, C, D, P, Q, h1, h⟩
      · exact Or.inr ⟨d, List.mem_cons_of_mem _ hd, h⟩
    · intro d hd
      rcases List.mem_cons.1 hd with rfl | hd
      · refine ⟨A, B, C, D, P, Q, h1, ?_, ?_, ?_, ?_⟩ <;> exact m3 _ ((m1 _).2 (Or.inr ⟨by simp, by simp⟩))
      · exact m4 d hd

/-- The set. -/
theorem selfIntersectionSet_spec {poly : List (P2 K)} (hp : ProperEdges poly) :
    ∃ S, selfIntersectionSet Cmp.direct poly = .ok S ∧ S.Pairwise (CutBefore poly) ∧
      (∀ c ∈ S, ∃ i j A B C D P Q, SelfCut poly i j A B C D P Q ∧ (c.1 = i ∨ c.1 = j) ∧ (c.2 = P ∨ c.2 = Q)) ∧
      (∀ i j A B C D, i < j → IsEdge poly i A B → IsEdge poly j C D → (∃ X, Common A B C D X) →
        (j ≠ i + 1 ∨ (OnLine A B C ∧ OnLine A B D)) →
        ∃ P Q, (∀ X, Common A B C D X ↔ OnSegment P Q X) ∧ (i, P) ∈ S ∧ (j, P) ∈ S ∧ (i, Q) ∈ S ∧ (j, Q) ∈ S) ∧
      ∀ c ∈ S, OnItsEdge poly c := by
  by_cases hl : poly.length < 3
  · refine ⟨[], by simp [selfIntersectionSet, selfIntersection, hl], List.Pairwise.nil, by simp, ?_, by simp⟩
    intro i j A B C D hij h1 h2
    have := isEdge_lt h2
    omega
  · obtain ⟨calls, c1, c2, c3, c4⟩ := selfLoop_spec hp (cutVisitor poly) (selfPairs poly.length)
      (fun ij h => mem_selfPairs.1 h) (selfPairs_sorted _)
    have hcalls : ∀ c ∈ calls, ∃ A B C D P Q, SelfCut poly c.i c.j A B C D P Q ∧
        ((c.type ≠ .overlapping ∧ P = Q ∧ c.pts = [P]) ∨ (c.type = .overlapping ∧ c.pts = [P, Q])) := by
      intro c hc
      obtain ⟨A, B, C, D, e1, e2, ha⟩ := c3 c hc
      obtain ⟨hm, A', B', C', D', f1, f2, hX, ho⟩ := (c1 c.i c.j).1 ⟨c, hc, rfl, rfl⟩
      have q1 := Option.some.inj (f1.1.symm.trans e1.1)
      have q2 := Option.some.inj (f1.2.symm.trans e1.2)
      have q3 := Option.some.inj (f2.1.symm.trans e2.1)
      have q4 := Option.some.inj (f2.2.symm.trans e2.2)
      subst q1 q2 q3 q4
      obtain ⟨P, Q, h1, h2⟩ := correct_points ha (hp _ _ _ e1) hX
      exact ⟨_, _, _, _, P, Q, ⟨(mem_selfPairs.1 hm).1, e1, e2, h1, ho⟩, h2⟩
    obtain ⟨S, s1, s2, s3, -, s5⟩ := cutVisitor_fold calls hcalls [] ⟨by simp, List.Pairwise.nil⟩
    refine ⟨S, ?_, s2.2, ?_, ?_, s2.1⟩
    · simp only [selfIntersectionSet, selfIntersection, if_neg hl, c4, s1]
    · intro c hc
      rcases s3 c hc with h | ⟨d, -, A, B, C, D, P, Q, h⟩
      · simp at h
      · exact ⟨d.i, d.j, A, B, C, D, P, Q, h⟩
    · intro i j A B C D hij e1 e2 hX ho
      obtain ⟨c, hc, rfl, rfl⟩ := (c1 i j).2 ⟨mem_selfPairs.2 ⟨hij, isEdge_lt e2⟩, A, B, C, D, e1, e2, hX, ho⟩
      obtain ⟨A', B', C', D', P, Q, ⟨-, f1, f2, f3, -⟩, h⟩ := s5 c hc
      have q1 := Option.some.inj (f1.1.symm.trans e1.1)
      have q2 := Option.some.inj (f1.2.symm.trans e1.2)
      have q3 := Option.some.inj (f2.1.symm.trans e2.1)
      have q4 := Option.some.inj (f2.2.symm.trans e2.2)
      subst q1 q2 q3 q4
      exact ⟨P, Q, f3, h⟩

end Geometrix
