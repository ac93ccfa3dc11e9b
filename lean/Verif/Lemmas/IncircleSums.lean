import Verif.Lemmas.Orient3dSums
import Verif.Model.PredicatesCircle
import Verif.Spec.ExactPredicates

/-!
The sums of the last stage of the adaptive test for circles.
-/

set_option linter.unusedSectionVars false

namespace Geometrix

open Spec

variable {K : Type*} [Field K] [LinearOrder K] [IsStrictOrderedRing K] [FloorRing K]

/-- `Two_One_Sum`. -/
theorem twoOneSum_eq {p : Nat} (hp : 3 ≤ p) {a1 a0 b : K} (h1 : IsFloat p a1) (h0 : IsFloat p a0) (hb : IsFloat p b) :
    [(twoOneSum (roundBits p) a1 a0 b).2.2, (twoOneSum (roundBits p) a1 a0 b).2.1, (twoOneSum (roundBits p) a1 a0 b).1] =
      sumErr p b [a0, a1] := by
  unfold twoOneSum
  simp only [twoSum_eq hp h0 hb, twoSum_eq hp h1 (roundBits_isFloat (by omega) _), sumErr]
  rw [add_comm a0 b, add_comm (roundBits p (b + a0)) a1]

/-- `Two_Two_Sum` is exact, and for parts that do not touch its result is nonadjacent. -/
theorem twoTwoSum_spec {p : Nat} (hp : 3 ≤ p) {a b : K × K} (a1 : IsFloat p a.1) (a2 : IsFloat p a.2) (b1 : IsFloat p b.1)
    (b2 : IsFloat p b.2) : (twoTwoSum (roundBits p) a b).sum = (a.1 + a.2) + (b.1 + b.2) ∧
    (∀ x ∈ twoTwoSum (roundBits p) a b, IsFloat p x) ∧ (twoTwoSum (roundBits p) a b).length = 4 ∧
    (WellBelow a.2 a.1 → WellBelow b.2 b.1 → Nonadjacent (twoTwoSum (roundBits p) a b)) := by
  have hp1 : 1 ≤ p := by omega
  have he : ∀ x ∈ [a.2, a.1], IsFloat p x := by simp [a1, a2]
  have e1 := twoOneSum_eq hp a1 a2 b2
  have f1 := sumErr_isFloat hp1 [a.2, a.1] b.2 b2 he
  have e2 := twoOneSum_eq hp (f1 (twoOneSum (roundBits p) a.1 a.2 b.2).1 (by rw [← e1]; simp))
    (f1 (twoOneSum (roundBits p) a.1 a.2 b.2).2.1 (by rw [← e1]; simp)) b1
  have key : twoTwoSum (roundBits p) a b = expansionSumLoop (roundBits p) 1 [b.1] (growLoop (roundBits p) b.2 [a.2, a.1]) := by
    rw [growLoop_eq hp _ _ b2 he, ← e1]
    simp only [expansionSumLoop, List.take_succ_cons, List.take_zero, List.drop_succ_cons, List.drop_zero]
    rw [growLoop_eq hp _ _ b1 (by
      intro x hx
      refine f1 x ?_
      rw [← e1]
      simp at hx ⊢
      tauto), ← e2]
    rfl
  have hes : expansionSum (roundBits p) [a.2, a.1] [b.2, b.1] = .ok (twoTwoSum (roundBits p) a b) := by
    rw [key]; rfl
  obtain ⟨h, j1, j2, j3, j4, j5⟩ := expansionSum_spec (k := 1) hp le_rfl (e := [a.2, a.1]) (f := [b.2, b.1]) (by simp) he
    (by simp [b1, b2])
  rw [hes, Except.ok.injEq] at j1
  rw [← j1] at j2 j3 j4 j5
  refine ⟨?_, j3, by simpa using j4, fun ha hb => (nonadjacent_iff j3).2 (j5 ?_ ?_)⟩
  · rw [j2]
    simp only [List.sum_cons, List.sum_nil]
    ring
  · simpa using wellBelow_iff.1 ha
  · simpa using wellBelow_iff.1 hb

theorem Holds.twoTwoSum {p : Nat} (hp : 6 ≤ p) {x y u v : K} (h1 : IsFloat p (x - roundBits p x))
    (h2 : IsFloat p (y - roundBits p y)) (hu : u = roundBits p x) (hv : v = roundBits p y) :
    Holds p 4 (x + y) (.ok (twoTwoSum (roundBits p) (u, x - u) (v, y - v))) := by
  have hp1 : 1 ≤ p := by omega
  rw [hu, hv]
  obtain ⟨k1, k2, k3, k4⟩ := twoTwoSum_spec (p := p) (by omega) (a := (roundBits p x, x - roundBits p x))
    (b := (roundBits p y, y - roundBits p y)) (roundBits_isFloat hp1 _) h1 (roundBits_isFloat hp1 _) h2
  refine ⟨_, rfl, ?_, k3.le, k2, (k4 (roundBits_wellBelow hp1 _) (roundBits_wellBelow hp1 _)).nearly, by rw [k1]; simp⟩
  intro h
  rw [h] at k3
  simp at k3

theorem Holds.prodSum {p : Nat} (hp : 6 ≤ p) {a b c d : K} (ha : IsFloat p a) (hb : IsFloat p b) (hc : IsFloat p c)
    (hd : IsFloat p d) : Holds p 4 (a * b + c * d) (prodSum (roundBits p) (exactConsts K p).splitter a b c d) := by
  have hp1 : 1 ≤ p := by omega
  unfold Geometrix.prodSum
  simp only [exactConsts]
  rw [twoProduct_eq (splitBits_half hp) ha hb, twoProduct_eq (splitBits_half hp) hc hd]
  exact Holds.twoTwoSum hp (prod_err_isFloat hp1 ha hb) (prod_err_isFloat hp1 hc hd) rfl rfl

theorem Holds.liftArray {p : Nat} (hp : 6 ≤ p) {a s t : P2 K} (ha : FloatPoint p a)
    (h : s.x ≠ 0 ∨ s.y ≠ 0 ∨ t.x ≠ 0 ∨ t.y ≠ 0) :
    Holds p 4 (a.x * a.x + a.y * a.y) (liftArray (roundBits p) (exactConsts K p).splitter a s t) := by
  have hp1 : 1 ≤ p := by omega
  unfold Geometrix.liftArray
  rw [if_pos h]
  simp only [exactConsts]
  rw [squareTail_eq (splitBits_half hp) ha.1, squareTail_eq (splitBits_half hp) ha.2]
  exact Holds.twoTwoSum hp (prod_err_isFloat hp1 ha.1 ha.1) (prod_err_isFloat hp1 ha.2 ha.2) rfl rfl

theorem double_float {p : Nat} (hp : 1 ≤ p) {d : K} (hd : IsFloat p d) : roundBits p (2 * d) = 2 * d ∧ IsFloat p (2 * d) := by
  have : IsFloat p (2 * d) := by
    rw [mul_comm]
    simpa using isFloat_shift hd 1
  exact ⟨this.round hp, this⟩

theorem HoldsL.circTail {p m : Nat} (hp : 6 ≤ p) {v tail d b' c' x y z : K} {bc cc bb fin : Res (List K)}
    (hf : HoldsL p m v fin) (h0 : IsFloat p tail) (h1 : IsFloat p d) (h2 : IsFloat p b') (h3 : IsFloat p c')
    (hbc : Holds p 4 x bc) (hcc : tail ≠ 0 → Holds p 4 y cc) (hbb : tail ≠ 0 → Holds p 4 z bb) (hk : m + 48 ≤ 1152) :
    HoldsL p (m + 48) (v + tail * (2 * d * x + y * b' - z * c'))
      (circTail (roundBits p) true (exactConsts K p).splitter tail d b' c' bc cc bb fin) := by
  unfold Geometrix.circTail
  by_cases h : tail = 0
  · rw [if_neg (by simpa using h)]
    exact (hf.mono (by omega)).val (by rw [h]; ring)
  · rw [if_pos h]
    obtain ⟨e1, e2⟩ := double_float (p := p) (by omega) h1
    rw [e1]
    have a1 := (hbc.scale hp h0 (k := 8) le_rfl).scale hp e2 (k := 16) le_rfl
    have a2 := ((hcc h).scale hp h0 (k := 8) le_rfl).scale hp h2 (k := 16) le_rfl
    have a3 := ((hbb h).scale hp h0 (k := 8) le_rfl).scale hp h3.neg (k := 16) le_rfl
    exact (HoldsL.sum hp hf.toHolds (HoldsL.sum hp a3 (HoldsL.sum hp a1 a2 (k := 32) le_rfl).toHolds (k := 48) le_rfl).toHolds
      (k := 1152) hk).val (by ring)

theorem circMinors_spec {p : Nat} (hp : 6 ≤ p) {b c bt ct : P2 K} (hb : FloatPoint p b) (hc : FloatPoint p c)
    (tb : FloatPoint p bt) (tc : FloatPoint p ct) :
    Holds p 8 (bt.x * c.y + b.x * ct.y - ct.x * b.y - c.x * bt.y)
      (circMinors (roundBits p) true (exactConsts K p).splitter b c bt ct).1 ∧
    Holds p 4 (bt.x * ct.y - ct.x * bt.y) (circMinors (roundBits p) true (exactConsts K p).splitter b c bt ct).2 := by
  unfold circMinors
  split_ifs with h
  · refine ⟨?_, Holds.prodDiff hp tb.1 tc.2 tc.1 tb.2⟩
    exact (HoldsL.sum hp (Holds.prodSum hp tb.1 hc.2 hb.1 tc.2) (Holds.prodSum hp tc.1 hb.2.neg hc.1 tb.2.neg)
      (k := 8) le_rfl).toHolds.val (by ring)
  · push Not at h
    obtain ⟨h1, h2, h3, h4⟩ := h
    rw [h1, h2, h3, h4]
    exact ⟨((Holds.zero p).mono (by norm_num)).val (by ring), ((Holds.zero p).mono (by norm_num)).val (by ring)⟩

theorem HoldsL.circTwice {p m : Nat} (hp : 6 ≤ p) {v tail d x y : K} {bc bct fin : Res (List K)}
    (hf : HoldsL p m v fin) (h0 : IsFloat p tail) (h1 : IsFloat p d) (hbc : Holds p 4 x bc) (hbct : Holds p 8 y bct)
    (hk : m + 48 ≤ 1152) :
    HoldsL p (m + 48) (v + tail * (tail * x + 2 * d * y))
      (circTwice (roundBits p) true (exactConsts K p).splitter tail d bc bct fin) := by
  unfold Geometrix.circTwice
  obtain ⟨e1, e2⟩ := double_float (p := p) (by omega) h1
  simp only [e1]
  have a1 := (hbc.scale hp h0 (k := 8) le_rfl).scale hp h0 (k := 16) le_rfl
  have a2 := (hbct.scale hp h0 (k := 16) le_rfl).scale hp e2 (k := 32) le_rfl
  exact (HoldsL.sum hp hf.toHolds (HoldsL.sum hp a1 a2 (k := 48) le_rfl).toHolds (k := 1152) hk).val (by ring)

theorem HoldsL.circThird {p m : Nat} (hp : 6 ≤ p) {v tail d x y : K} {bctt bct fin : Res (List K)}
    (hf : HoldsL p m v fin) (h0 : IsFloat p tail) (h1 : IsFloat p d) (hbctt : Holds p 4 x bctt) (hbct : Holds p 8 y bct)
    (hk : m + 64 ≤ 1152) :
    HoldsL p (m + 64) (v + tail * (tail * y + 2 * d * x + tail * x))
      (circThird (roundBits p) true (exactConsts K p).splitter tail d bct bctt fin) := by
  unfold Geometrix.circThird
  obtain ⟨e1, e2⟩ := double_float (p := p) (by omega) h1
  simp only [e1]
  have a1 := (hbct.scale hp h0 (k := 16) le_rfl).scale hp h0 (k := 32) le_rfl
  have a2 := (hbctt.scale hp h0 (k := 8) le_rfl).scale hp e2 (k := 16) le_rfl
  have a3 := (hbctt.scale hp h0 (k := 8) le_rfl).scale hp h0 (k := 16) le_rfl
  exact (HoldsL.sum hp hf.toHolds (HoldsL.sum hp a1 (HoldsL.sum hp a2 a3 (k := 32) le_rfl).toHolds (k := 64) le_rfl).toHolds
    (k := 1152) hk).val (by ring)

theorem HoldsL.addIf {p m n k : Nat} (hp : 6 ≤ p) {v w t : K} {e f : Res (List K)} (he : HoldsL p m v e)
    (hf : t ≠ 0 → Holds p n w f) (ht : t = 0 → w = 0) (hk : m + n ≤ k) :
    HoldsL p (m + n) (v + w) (Geometrix.addUnless (roundBits p) true k t e f) := by
  unfold Geometrix.addUnless
  by_cases h : t = 0
  · rw [if_neg (by simpa using h)]
    exact (he.mono (by omega)).val (by rw [ht h, add_zero])
  · rw [if_pos h]
    exact HoldsL.sum hp he.toHolds (hf h) hk

theorem HoldsL.circTails {p m : Nat} (hp : 6 ≤ p) {v x y z : K} {a b c at' bt ct : P2 K} {bc cc bb fin : Res (List K)}
    (hf : HoldsL p m v fin) (ha : FloatPoint p a) (hb : FloatPoint p b) (hc : FloatPoint p c)
    (ta : FloatPoint p at') (tb : FloatPoint p bt) (tc : FloatPoint p ct)
    (hbc : Holds p 4 x bc) (hcc : at'.x ≠ 0 → Holds p 4 y cc) (hbb : at'.x ≠ 0 → Holds p 4 z bb) (hk : m + 256 ≤ 1152) :
    HoldsL p (m + 256) (v + (at'.x ^ 2 + at'.y ^ 2) * x +
        (2 * at'.x * a.x + at'.x ^ 2 + 2 * at'.y * a.y + at'.y ^ 2) *
          ((bt.x * c.y + b.x * ct.y - ct.x * b.y - c.x * bt.y) + (bt.x * ct.y - ct.x * bt.y)) +
        at'.x * (y * bt.y - z * ct.y))
      (circTails (roundBits p) true (exactConsts K p).splitter a b c at' bt ct bc cc bb fin) := by
  obtain ⟨m1, m2⟩ := circMinors_spec hp hb hc tb tc
  unfold Geometrix.circTails
  simp only
  generalize circMinors (roundBits p) true (exactConsts K p).splitter b c bt ct = M at *
  generalize bt.x * c.y + b.x * ct.y - ct.x * b.y - c.x * bt.y = X1 at *
  generalize bt.x * ct.y - ct.x * bt.y = X2 at *
  by_cases h : at'.x ≠ 0 ∨ at'.y ≠ 0
  · rw [if_pos h]
    have hX : HoldsL p (m + 144) (v + at'.x ^ 2 * x + (2 * at'.x * a.x + at'.x ^ 2) * (X1 + X2) + at'.x * (y * bt.y - z * ct.y))
        (if at'.x ≠ 0 then
          Geometrix.circThird (roundBits p) true (exactConsts K p).splitter at'.x a.x M.1 M.2
            (Geometrix.addUnless (roundBits p) true 1152 ct.y
              (Geometrix.addUnless (roundBits p) true 1152 bt.y
                (Geometrix.circTwice (roundBits p) true (exactConsts K p).splitter at'.x a.x bc M.1 fin)
                (Geometrix.scaleInto (roundBits p) (exactConsts K p).splitter 16
                  (Geometrix.scaleInto (roundBits p) (exactConsts K p).splitter 8 cc at'.x) bt.y))
              (Geometrix.scaleInto (roundBits p) (exactConsts K p).splitter 16
                (Geometrix.scaleInto (roundBits p) (exactConsts K p).splitter 8 bb (-at'.x)) ct.y))
        else fin) := by
      by_cases hx : at'.x = 0
      · rw [if_neg (by simpa using hx)]
        exact (hf.mono (by omega)).val (by rw [hx]; ring)
      · rw [if_pos hx]
        have s1 := hf.circTwice hp ta.1 ha.1 hbc m1 (by omega)
        have s2 := s1.addIf hp (t := bt.y) (fun _ => ((hcc hx).scale hp ta.1 (k := 8) le_rfl).scale hp tb.2 (k := 16) le_rfl)
          (fun h => by rw [h, mul_zero]) (k := 1152) (by omega)
        have s3 := s2.addIf hp (t := ct.y) (fun _ => ((hbb hx).scale hp ta.1.neg (k := 8) le_rfl).scale hp tc.2 (k := 16) le_rfl)
          (fun h => by rw [h, mul_zero]) (k := 1152) (by omega)
        exact (s3.circThird hp ta.1 ha.1 m2 m1 (by omega)).val (by ring)
    by_cases hy : at'.y = 0
    · rw [if_neg (by simpa using hy)]
      exact (hX.mono (by omega)).val (by rw [hy]; ring)
    · rw [if_pos hy]
      exact ((hX.circTwice hp ta.2 ha.2 hbc m1 (by omega)).circThird hp ta.2 ha.2 m2 m1 (by omega)).val (by ring)
  · rw [if_neg h]
    push Not at h
    exact (hf.mono (by omega)).val (by rw [h.1, h.2]; ring)

/-- The determinant for points relative to the last one. -/
def circleForm (a b c : P2 K) : K :=
  (a.x * a.x + a.y * a.y) * (b.x * c.y - c.x * b.y) + (b.x * b.x + b.y * b.y) * (c.x * a.y - a.x * c.y) +
    (c.x * c.x + c.y * c.y) * (a.x * b.y - b.x * a.y)

theorem incircleAdaptD_sign {p : Nat} (hp : 6 ≤ p) {fin bc ca ab : Res (List K)} {ad bd cd at' bt ct : P2 K}
    (ha : FloatPoint p ad) (hb : FloatPoint p bd) (hc : FloatPoint p cd) (ta : FloatPoint p at')
    (tb : FloatPoint p bt) (tc : FloatPoint p ct) (hfin : HoldsL p 96 (circleForm ad bd cd) fin)
    (hbc : Holds p 4 (bd.x * cd.y - cd.x * bd.y) bc) (hca : Holds p 4 (cd.x * ad.y - ad.x * cd.y) ca)
    (hab : Holds p 4 (ad.x * bd.y - bd.x * ad.y) ab) :
    ∃ d, incircleAdaptD (roundBits p) true (exactConsts K p).splitter fin bc ca ab ad bd cd at' bt ct = .ok d ∧
      |circleForm (ad + at') (bd + bt) (cd + ct) - d| ≤ 3 / 4 * |d| ∧
      SignType.sign d = SignType.sign (circleForm (ad + at') (bd + bt) (cd + ct)) := by
  have aa (h : bt.x ≠ 0 ∨ bt.y ≠ 0 ∨ ct.x ≠ 0 ∨ ct.y ≠ 0) := Holds.liftArray hp ha h
  have bb (h : ct.x ≠ 0 ∨ ct.y ≠ 0 ∨ at'.x ≠ 0 ∨ at'.y ≠ 0) := Holds.liftArray hp hb h
  have cc (h : at'.x ≠ 0 ∨ at'.y ≠ 0 ∨ bt.x ≠ 0 ∨ bt.y ≠ 0) := Holds.liftArray hp hc h
  unfold incircleAdaptD
  simp only
  have s1 := hfin.circTail hp ta.1 ha.1 hb.2 hc.2 hbc (fun h => cc (by tauto)) (fun h => bb (by tauto)) (by norm_num)
  have s2 := s1.circTail hp ta.2 ha.2 hc.1 hb.1 hbc (fun h => bb (by tauto)) (fun h => cc (by tauto)) (by norm_num)
  have s3 := s2.circTail hp tb.1 hb.1 hc.2 ha.2 hca (fun h => aa (by tauto)) (fun h => cc (by tauto)) (by norm_num)
  have s4 := s3.circTail hp tb.2 hb.2 ha.1 hc.1 hca (fun h => cc (by tauto)) (fun h => aa (by tauto)) (by norm_num)
  have s5 := s4.circTail hp tc.1 hc.1 ha.2 hb.2 hab (fun h => bb (by tauto)) (fun h => aa (by tauto)) (by norm_num)
  have s6 := s5.circTail hp tc.2 hc.2 hb.1 ha.1 hab (fun h => aa (by tauto)) (fun h => bb (by tauto)) (by norm_num)
  have s7 := s6.circTails hp ha hb hc ta tb tc hbc (fun h => cc (by tauto)) (fun h => bb (by tauto)) (by norm_num)
  have s8 := s7.circTails hp hb hc ha tb tc ta hca (fun h => aa (by tauto)) (fun h => cc (by tauto)) (by norm_num)
  have s9 := s8.circTails hp hc ha hb tc ta tb hab (fun h => bb (by tauto)) (fun h => aa (by tauto)) (by norm_num)
  obtain ⟨d, d1, d2⟩ := (s9.val (w := circleForm (ad + at') (bd + bt) (cd + ct)) (by
    simp only [circleForm, P2.add_x, P2.add_y]
    ring)).last
  exact ⟨d, d1, d2⟩

end Geometrix
