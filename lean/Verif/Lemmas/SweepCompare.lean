import Verif.Lemmas.SweepOrder
import Verif.Lemmas.Between

/-!
# Helper lemmas: the comparison of segments on the sweep line, and insertion
-/

set_option linter.unusedSectionVars false

namespace Geometrix

open Spec

variable {K : Type*} [Field K] [LinearOrder K] [IsStrictOrderedRing K]

theorem direct_eq (a b : K) : Cmp.direct.equals a b = decide (a = b) := rfl

theorem direct_lt_eq (a b : K) : Cmp.direct.lt a b = decide (a < b) := rfl

theorem direct_gt_eq (a b : K) : Cmp.direct.gt a b = decide (b < a) := rfl

theorem isBetween_through {s : Seg K} (h : Rising s) (q : P2 K) :
    isBetween Cmp.direct s.s s.e q true = true ↔ Through s q := isBetween_iff_onSegment (rising_ne h)

theorem yOfX_slope {s : Seg K} (h : s.s.x < s.e.x) (x : K) :
    yOfX s.s s.e x = .ok ((x - s.s.x) * slopeOf s + s.s.y, slopeOf s) := by
  have h0 : s.e.x - s.s.x ≠ 0 := by have := sub_pos.mpr h; exact this.ne'
  simp [yOfX, cdiv, h0, slopeOf]

/-- Two segments through the event are compared by direction. -/
theorem sweepLess_inside {q : P2 K} {x y : SweepItem K} (hx : Rising x.seg) (hy : Rising y.seg)
    (tx : Through x.seg q) (ty : Through y.seg q) (hne : x.idx ≠ y.idx) :
    ∃ b, sweepLess Cmp.direct q x y = .ok b ∧ (b = true → 0 ≤ spread x.seg y.seg) ∧
      (b = false → 0 ≤ spread y.seg x.seg) := by
  have bx := (isBetween_through hx q).mpr tx
  have by' := (isBetween_through hy q).mpr ty
  unfold sweepLess
  rw [if_neg hne]
  split_ifs with h1
  · simp only [Bool.and_eq_true, seqEquals_direct] at h1
    refine ⟨_, rfl, by simp, fun _ => ?_⟩
    unfold spread
    rw [h1.1, h1.2, cross_self]
  · simp only [direct_eq, bx, by', Bool.and_true]
    rcases rising_cases hx with ⟨vx, yx⟩ | ⟨nx, xx⟩ <;> rcases rising_cases hy with ⟨vy, yy⟩ | ⟨ny, xy⟩
    · simp only [vx, vy, decide_true, Bool.and_true, if_true]
      have e1 : spread x.seg y.seg = 0 := by unfold spread cross; simp only [P2.sub_x, P2.sub_y]; rw [vx, vy]; ring
      have e2 : spread y.seg x.seg = 0 := by rw [spread_swap, e1, neg_zero]
      exact ⟨_, rfl, fun _ => e1.ge, fun _ => e2.ge⟩
    · simp only [vx, ny, decide_true, decide_false, Bool.and_false, if_true, Bool.false_eq_true, if_false]
      refine ⟨_, rfl, by simp, fun _ => ?_⟩
      unfold spread cross; simp only [P2.sub_x, P2.sub_y]
      have := mul_pos (sub_pos.mpr xy) (sub_pos.mpr yx)
      rw [vx]; nlinarith
    · simp only [nx, vy, decide_true, decide_false, Bool.false_and, if_true, Bool.false_eq_true, if_false]
      refine ⟨_, rfl, fun _ => ?_, by simp⟩
      unfold spread cross; simp only [P2.sub_x, P2.sub_y]
      have := mul_pos (sub_pos.mpr xx) (sub_pos.mpr yy)
      rw [vy]; nlinarith
    · have e1 := ((through_iff hx q).mp tx).2.2
      have e2 := ((through_iff hy q).mp ty).2.2
      simp only [yAt, if_neg nx, if_neg ny] at e1 e2
      simp only [nx, ny, decide_false, Bool.false_and, Bool.false_eq_true, if_false, sweepOrdinate, yOfX_slope xx,
        yOfX_slope xy, direct_lt_eq, direct_gt_eq, e1, e2, lt_irrefl, decide_true, if_true, Bool.or_self, decide_eq_true_eq,
        gt_iff_lt]
      have l1 := slope_le_of_spread xx xy
      have l2 := slope_le_of_spread xy xx
      split_ifs with h3 h4
      · exact ⟨_, rfl, fun _ => l1.mp h3.le, by simp⟩
      · exact ⟨_, rfl, by simp, fun _ => l2.mp h4.le⟩
      · exact ⟨_, rfl, fun _ => l1.mp (not_lt.mp h4), fun _ => l2.mp (not_lt.mp h3)⟩

/-- A segment through the event and one that is not: the ordinates decide. -/
theorem sweepLess_outside {q : P2 K} {x y : SweepItem K} (hx : Rising x.seg) (hy : Rising y.seg)
    (tx : Through x.seg q) (y1 : lk y.seg.s ≤ lk q) (y2 : lk q ≤ lk y.seg.e) (ty : ¬ Through y.seg q)
    (hne : x.idx ≠ y.idx) :
    sweepLess Cmp.direct q x y = .ok (decide (q.y < yAt y.seg q)) ∧
    sweepLess Cmp.direct q y x = .ok (decide (yAt y.seg q < q.y)) := by
  have by' : isBetween Cmp.direct y.seg.s y.seg.e q true = false := by
    rw [Bool.eq_false_iff]; exact fun h => ty ((isBetween_through hy q).mp h)
  have hey : yAt y.seg q ≠ q.y := fun h => ty ((through_iff hy q).mpr ⟨y1, y2, h⟩)
  have ny : y.seg.s.x ≠ y.seg.e.x := fun h => hey (by simp only [yAt, if_pos h])
  have xy : y.seg.s.x < y.seg.e.x := by
    rcases rising_cases hy with h | h
    · exact absurd h.1 ny
    · exact h.2
  have e1 : (seqEquals Cmp.direct x.seg.s y.seg.s && seqEquals Cmp.direct x.seg.e y.seg.e) = false := by
    rw [Bool.eq_false_iff]
    intro h
    simp only [Bool.and_eq_true, seqEquals_direct] at h
    apply ty; unfold Through; rw [← h.1, ← h.2]; exact tx
  have e2 : (seqEquals Cmp.direct y.seg.s x.seg.s && seqEquals Cmp.direct y.seg.e x.seg.e) = false := by
    rw [Bool.eq_false_iff]
    intro h
    simp only [Bool.and_eq_true, seqEquals_direct] at h
    apply ty; unfold Through; rw [h.1, h.2]; exact tx
  have ey : (q.x - y.seg.s.x) * slopeOf y.seg + y.seg.s.y = yAt y.seg q := by simp only [yAt, if_neg ny]
  unfold sweepLess
  rw [if_neg hne, if_neg (Ne.symm hne), e1, e2]
  simp only [direct_eq, by', ny, decide_false, Bool.and_false, Bool.false_and, Bool.false_eq_true, if_false]
  have key : sweepOrdinate (decide (x.seg.s.x = x.seg.e.x)) x.seg q =
      .ok (q.y, if x.seg.s.x = x.seg.e.x then 0 else slopeOf x.seg) := by
    rcases rising_cases hx with ⟨vx, yx⟩ | ⟨nx, xx⟩
    · simp [sweepOrdinate, vx]
    · have e1 := ((through_iff hx q).mp tx).2.2
      simp only [yAt, if_neg nx] at e1
      simp [sweepOrdinate, nx, yOfX_slope xx, e1]
  rw [key]
  simp only [sweepOrdinate, Bool.false_eq_true, if_false, yOfX_slope xy, ey, direct_lt_eq, direct_gt_eq, decide_eq_true_eq]
  rcases lt_or_gt_of_ne hey with h | h
  · simp [h, not_lt_of_gt h]
  · simp [h, not_lt_of_gt h]

/-- Insertion among the segments through the event. -/
theorem sweepInsert_spec {q : P2 K} {x : SweepItem K} (T1 M T2 : List (SweepItem K))
    (h1 : ∀ y ∈ T1, sweepLess Cmp.direct q x y = .ok false) (h2 : ∀ y ∈ T2, sweepLess Cmp.direct q x y = .ok true)
    (hx : Rising x.seg) (hM : ∀ y ∈ M, Rising y.seg)
    (hM' : ∀ y ∈ M, ∃ b, sweepLess Cmp.direct q x y = .ok b ∧ (b = true → 0 ≤ spread x.seg y.seg) ∧
      (b = false → 0 ≤ spread y.seg x.seg))
    (hs : M.Pairwise fun a b => 0 ≤ spread a.seg b.seg) :
    ∃ M', sweepInsert Cmp.direct q x (T1 ++ (M ++ T2)) = .ok (T1 ++ (M' ++ T2)) ∧ M'.Perm (x :: M) ∧
      M'.Pairwise fun a b => 0 ≤ spread a.seg b.seg := by
  induction T1 with
  | nil =>
    simp only [List.nil_append]
    induction M with
    | nil =>
      refine ⟨[x], ?_, List.Perm.refl _, by simp⟩
      cases T2 with
      | nil => rfl
      | cons y T2 => simp [sweepInsert, h2 y (by simp)]
    | cons y M ih =>
      obtain ⟨b, hb, hb1, hb2⟩ := hM' y (by simp)
      rw [List.pairwise_cons] at hs
      cases b with
      | true =>
        refine ⟨x :: y :: M, ?_, List.Perm.refl _, ?_⟩
        · simp [sweepInsert, hb]
        · rw [List.pairwise_cons]
          refine ⟨fun z hz => ?_, by rw [List.pairwise_cons]; exact hs⟩
          rcases List.mem_cons.mp hz with rfl | hz
          · exact hb1 rfl
          · exact spread_nonneg_trans hx (hM y (by simp)) (hM z (by simp [hz])) (hb1 rfl) (hs.1 z hz)
      | false =>
        obtain ⟨M', e, hp, hs'⟩ := ih (fun z hz => hM z (by simp [hz])) (fun z hz => hM' z (by simp [hz])) hs.2
        refine ⟨y :: M', ?_, (List.Perm.cons y hp).trans (List.Perm.swap x y M), ?_⟩
        · simp [sweepInsert, hb, e]
        · rw [List.pairwise_cons]
          refine ⟨fun z hz => ?_, hs'⟩
          rcases List.mem_cons.mp (hp.mem_iff.mp hz) with rfl | hz
          · exact hb2 rfl
          · exact hs.1 z hz
  | cons y T1 ih =>
    obtain ⟨M', e, hp⟩ := ih fun z hz => h1 z (by simp [hz])
    exact ⟨M', by simp [sweepInsert, h1 y (by simp), e], hp⟩

/-- Insertion of all segments that begin in the event or go through it. -/
theorem sweepInsertAll_spec {q : P2 K} (T1 T2 : List (SweepItem K)) (U M : List (SweepItem K))
    (hU : ∀ x ∈ U, Rising x.seg ∧ Through x.seg q) (hM : ∀ x ∈ M, Rising x.seg ∧ Through x.seg q)
    (h1 : ∀ x ∈ U, ∀ y ∈ T1, sweepLess Cmp.direct q x y = .ok false)
    (h2 : ∀ x ∈ U, ∀ y ∈ T2, sweepLess Cmp.direct q x y = .ok true)
    (hd : (U ++ M).Pairwise fun a b => a.idx ≠ b.idx)
    (hs : M.Pairwise fun a b => 0 ≤ spread a.seg b.seg) :
    ∃ M', sweepInsertAll Cmp.direct q U (T1 ++ (M ++ T2)) = .ok (T1 ++ (M' ++ T2)) ∧ M'.Perm (U ++ M) ∧
      M'.Pairwise fun a b => 0 ≤ spread a.seg b.seg := by
  induction U generalizing M with
  | nil => exact ⟨M, rfl, List.Perm.refl _, hs⟩
  | cons x U ih =>
    rw [List.cons_append, List.pairwise_cons] at hd
    obtain ⟨M1, e1, p1, s1⟩ := sweepInsert_spec (q := q) (x := x) T1 M T2 (fun y hy => h1 x (by simp) y hy)
      (fun y hy => h2 x (by simp) y hy) (hU x (by simp)).1 (fun y hy => (hM y hy).1)
      (fun y hy => sweepLess_inside (hU x (by simp)).1 (hM y hy).1 (hU x (by simp)).2 (hM y hy).2
        (hd.1 y (by simp [hy]))) hs
    obtain ⟨M2, e2, p2, s2⟩ := ih M1 (fun y hy => hU y (by simp [hy])) (fun y hy => by
        rcases List.mem_cons.mp (p1.mem_iff.mp hy) with rfl | hy
        · exact hU _ (by simp)
        · exact hM y hy) (fun y hy => h1 y (by simp [hy])) (fun y hy => h2 y (by simp [hy])) (by
        have p3 : (x :: (U ++ M)).Perm (U ++ M1) :=
          (List.perm_middle.symm).trans ((List.Perm.refl U).append p1.symm)
        refine p3.pairwise ?_ (fun h => Ne.symm h)
        rw [List.pairwise_cons]; exact hd) s1
    refine ⟨M2, by simp [sweepInsertAll, e1, e2], p2.trans ?_, s2⟩
    exact ((List.Perm.refl U).append p1).trans List.perm_middle

/-- The position of the event among the segments, none of which goes through it. -/
theorem sweepLowerBound_spec {q : P2 K} {x : SweepItem K} (T1 T2 : List (SweepItem K))
    (h1 : ∀ y ∈ T1, sweepLess Cmp.direct q y x = .ok true) (h2 : ∀ y ∈ T2, sweepLess Cmp.direct q y x = .ok false) :
    sweepLowerBound Cmp.direct q x (T1 ++ T2) = .ok (T1, T2) := by
  induction T1 with
  | nil =>
    cases T2 with
    | nil => rfl
    | cons y T2 => simp [sweepLowerBound, h2 y (by simp)]
  | cons y T1 ih =>
    simp [sweepLowerBound, h1 y (by simp), ih fun z hz => h1 z (by simp [hz])]

end Geometrix
