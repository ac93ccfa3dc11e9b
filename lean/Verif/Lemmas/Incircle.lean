import Verif.Lemmas.IncircleSums
import Verif.Lemmas.Orient3d

/-!
The error bounds of the adaptive test for circles.
-/

set_option linter.unusedSectionVars false

namespace Geometrix

open Spec

section

variable {K : Type*} [Field K] [LinearOrder K] [IsStrictOrderedRing K]

/-- The tails of a point. -/
structure Tails2 (ε : K) (a s : P2 K) : Prop where
  x : |s.x| ≤ ε * |a.x|
  y : |s.y| ≤ ε * |a.y|

/-- The absolute values of a third of the determinant. -/
def circSize (a b c : P2 K) : K := (|a.x| * |a.x| + |a.y| * |a.y|) * (|b.x| * |c.y| + |b.y| * |c.x|)

/-- The first order of a third of the determinant. -/
def circLin (a b c s t u : P2 K) : K :=
  (a.x * a.x + a.y * a.y) * ((b.x * u.y + c.y * t.x) - (b.y * u.x + c.x * t.y)) +
    2 * (a.x * s.x + a.y * s.y) * (b.x * c.y - b.y * c.x)

theorem circTerm_acc {fl : K → K} {ε : K} (hε : 0 ≤ ε) (hfl : RoundsWithin ε fl) {a b c s t u : P2 K} (ha : Tails2 ε a s)
    (hb : Tails2 ε b t) (hc : Tails2 ε c u) :
    Acc ε 7 (circTerm fl a b c s t u) (circLin a b c s t u) (4 * ε * circSize a b c) := by
  have base (x : K) := Acc.base hε hfl x
  have h1 := (base (a.x * a.x)).add hε hfl (base (a.y * a.y)) le_rfl
  have h2 := ((base (b.x * u.y)).add hε hfl (base (c.y * t.x)) le_rfl).sub hε hfl
    ((base (b.y * u.x)).add hε hfl (base (c.x * t.y)) le_rfl) le_rfl
  have h3 := h1.mul hε hfl h2 le_rfl
  have h4 := (Acc.exact (2 : K)).mul hε hfl ((base (a.x * s.x)).add hε hfl (base (a.y * s.y)) le_rfl) le_rfl
  have h5 := (base (b.x * c.y)).sub hε hfl (base (b.y * c.x)) le_rfl
  have h6 := h4.mul hε hfl h5 le_rfl
  have h7 := h3.add hε hfl h6 le_rfl
  refine Acc.weak hε h7 ?_
  unfold circSize
  simp only [abs_mul]
  rw [abs_of_pos (zero_lt_two (α := K))]
  have k1 : |b.x| * |u.y| ≤ |b.x| * (ε * |c.y|) := by have := hc.y; gcongr
  have k2 : |c.y| * |t.x| ≤ |c.y| * (ε * |b.x|) := by have := hb.x; gcongr
  have k3 : |b.y| * |u.x| ≤ |b.y| * (ε * |c.x|) := by have := hc.x; gcongr
  have k4 : |c.x| * |t.y| ≤ |c.x| * (ε * |b.y|) := by have := hb.y; gcongr
  have k5 : |a.x| * |s.x| ≤ |a.x| * (ε * |a.x|) := by have := ha.x; gcongr
  have k6 : |a.y| * |s.y| ≤ |a.y| * (ε * |a.y|) := by have := ha.y; gcongr
  have l1 : (|a.x| * |a.x| + |a.y| * |a.y|) * (|b.x| * |u.y| + |c.y| * |t.x| + (|b.y| * |u.x| + |c.x| * |t.y|)) ≤
      (|a.x| * |a.x| + |a.y| * |a.y|) * (|b.x| * (ε * |c.y|) + |c.y| * (ε * |b.x|) +
        (|b.y| * (ε * |c.x|) + |c.x| * (ε * |b.y|))) := by gcongr
  have l2 : 2 * (|a.x| * |s.x| + |a.y| * |s.y|) * (|b.x| * |c.y| + |b.y| * |c.x|) ≤
      2 * (|a.x| * (ε * |a.x|) + |a.y| * (ε * |a.y|)) * (|b.x| * |c.y| + |b.y| * |c.x|) := by gcongr
  linarith

/-- What is left of a product of four factors if the first two orders are taken away. -/
theorem prod_rest4 {ε x y z w s t u v : K} (hε : 0 ≤ ε) (hs : |s| ≤ ε * |x|) (ht : |t| ≤ ε * |y|) (hu : |u| ≤ ε * |z|)
    (hv : |v| ≤ ε * |w|) :
    |(x + s) * (y + t) * (z + u) * (w + v) - x * y * z * w -
      ((s * y * z + x * t * z + x * y * u) * w + x * y * z * v)| ≤
      (6 * ε ^ 2 + 4 * ε ^ 3 + ε ^ 4) * (|x| * |y| * (|z| * |w|)) := by
  have h1 := prod_rest hε hs ht hu
  have h2 : |s * y * z + x * t * z + x * y * u| ≤ 3 * ε * (|z| * (|x| * |y|)) := by
    have a1 := abs_add_three (s * y * z) (x * t * z) (x * y * u)
    simp only [abs_mul] at a1
    have k1 : |s| * |y| * |z| ≤ (ε * |x|) * |y| * |z| := by gcongr
    have k2 : |x| * |t| * |z| ≤ |x| * (ε * |y|) * |z| := by gcongr
    have k3 : |x| * |y| * |u| ≤ |x| * |y| * (ε * |z|) := by gcongr
    linarith
  generalize s * y * z + x * t * z + x * y * u = L at *
  have h3 : |(x + s) * (y + t) * (z + u) - x * y * z| ≤ (3 * ε + 3 * ε ^ 2 + ε ^ 3) * (|z| * (|x| * |y|)) := by
    have a1 := abs_add_le ((x + s) * (y + t) * (z + u) - x * y * z - L) L
    rw [sub_add_cancel] at a1
    linarith
  generalize (x + s) * (y + t) * (z + u) = Q at *
  have e : Q * (w + v) - x * y * z * w - (L * w + x * y * z * v) = (Q - x * y * z - L) * w + (Q - x * y * z) * v := by ring
  rw [e]
  have a1 := abs_add_le ((Q - x * y * z - L) * w) ((Q - x * y * z) * v)
  rw [abs_mul, abs_mul] at a1
  have k1 : |Q - x * y * z - L| * |w| ≤ (3 * ε ^ 2 + ε ^ 3) * (|z| * (|x| * |y|)) * |w| := by gcongr
  have k2 : |Q - x * y * z| * |v| ≤ (3 * ε + 3 * ε ^ 2 + ε ^ 3) * (|z| * (|x| * |y|)) * (ε * |w|) := by gcongr
  linarith

/-- A third of the determinant. -/
theorem circ_rest {ε : K} (hε : 0 ≤ ε) {a b c s t u : P2 K} (ha : Tails2 ε a s) (hb : Tails2 ε b t) (hc : Tails2 ε c u) :
    |((a.x + s.x) * (a.x + s.x) + (a.y + s.y) * (a.y + s.y)) * ((b.x + t.x) * (c.y + u.y) - (b.y + t.y) * (c.x + u.x)) -
      (a.x * a.x + a.y * a.y) * (b.x * c.y - b.y * c.x) - circLin a b c s t u| ≤
      (6 * ε ^ 2 + 4 * ε ^ 3 + ε ^ 4) * circSize a b c := by
  have h1 := prod_rest4 hε ha.x ha.x hb.x hc.y
  have h2 := prod_rest4 hε ha.x ha.x hb.y hc.x
  have h3 := prod_rest4 hε ha.y ha.y hb.x hc.y
  have h4 := prod_rest4 hε ha.y ha.y hb.y hc.x
  have k1 := (abs_sub _ _).trans (add_le_add h1 h2)
  have k2 := (abs_sub _ _).trans (add_le_add h3 h4)
  refine le_trans (le_of_eq ?_) ((abs_add_le _ _).trans ((add_le_add k1 k2).trans (le_of_eq ?_)))
  · congr 1
    unfold circLin
    ring
  · unfold circSize
    ring

end

variable {K : Type*} [Field K] [LinearOrder K] [IsStrictOrderedRing K] [FloorRing K]

/-- A third of the permanent, with the products rounded, but not the sums. -/
def circPerm (p : Nat) (a b c : P2 K) : K :=
  (|roundBits p (b.x * c.y)| + |roundBits p (c.x * b.y)|) * (|roundBits p (a.x * a.x)| + |roundBits p (a.y * a.y)|)

theorem circPerm_nonneg (p : Nat) (a b c : P2 K) : 0 ≤ circPerm p a b c := by
  unfold circPerm
  positivity

theorem circSize_up {p : Nat} (hp : 1 ≤ p) (a b c : P2 K) :
    circSize a b c ≤ (1 + 1 / 2 ^ p) ^ 2 * circPerm p a b c := by
  have h (x y : K) : |x| * |y| ≤ (1 + 1 / 2 ^ p) * |roundBits p (x * y)| := by
    have a1 := abs_add_le (x * y - roundBits p (x * y)) (roundBits p (x * y))
    rw [sub_add_cancel, abs_mul] at a1
    have := roundBits_rel hp (x * y)
    linarith
  have h1 := h a.x a.x
  have h2 := h a.y a.y
  have h3 := h b.x c.y
  have h4 := h c.x b.y
  unfold circSize circPerm
  rw [mul_comm |b.y|]
  have l1 := add_le_add h1 h2
  have l2 := add_le_add h3 h4
  have := mul_le_mul l1 l2 (by positivity) (by positivity)
  refine this.trans (le_of_eq ?_)
  ring

/-- The whole permanent. -/
def circPermSum (p : Nat) (a b c : P2 K) : K := circPerm p a b c + circPerm p b c a + circPerm p c a b

theorem circ_third_bound {p : Nat} (hp : 1 ≤ p) {a b c s t u : P2 K} (ha : Tails2 (1 / 2 ^ p) a s)
    (hb : Tails2 (1 / 2 ^ p) b t) (hc : Tails2 (1 / 2 ^ p) c u) :
    |circleForm (a + s) (b + t) (c + u) - (circleForm a b c +
        (circLin a b c s t u + circLin b c a t u s + circLin c a b u s t))| +
      |roundBits p (roundBits p (circTerm (roundBits p) a b c s t u + circTerm (roundBits p) b c a t u s) +
        circTerm (roundBits p) c a b u s t) - (circLin a b c s t u + circLin b c a t u s + circLin c a b u s t)| ≤
      (6 * (1 / 2 ^ p) ^ 2 + 4 * (1 / 2 ^ p) ^ 3 + (1 / 2 ^ p) ^ 4 + ((1 + 1 / 2 ^ p) ^ 9 - 1) * (4 * (1 / 2 ^ p))) *
        (1 + 1 / 2 ^ p) ^ 2 * circPermSum p a b c := by
  have hfl := roundBits_rounds (K := K) hp
  have ε0 : (0 : K) ≤ 1 / 2 ^ p := by positivity
  have u1 := circSize_up hp a b c
  have u2 := circSize_up hp b c a
  have u3 := circSize_up hp c a b
  have p9 := one_le_eps (K := K) p 9
  unfold circPermSum
  generalize circPerm p a b c = W1 at *
  generalize circPerm p b c a = W2 at *
  generalize circPerm p c a b = W3 at *
  generalize hε : (1 / 2 ^ p : K) = ε at *
  have m1 := circ_rest ε0 ha hb hc
  have m2 := circ_rest ε0 hb hc ha
  have m3 := circ_rest ε0 hc ha hb
  have t1 := circTerm_acc ε0 hfl ha hb hc
  have t2 := circTerm_acc ε0 hfl hb hc ha
  have t3 := circTerm_acc ε0 hfl hc ha hb
  have t4 := ((t1.add ε0 hfl t2 le_rfl).add ε0 hfl (t3.mono ε0 (by norm_num)) le_rfl).near
  generalize circSize a b c = X1 at *
  generalize circSize b c a = X2 at *
  generalize circSize c a b = X3 at *
  have hX : X1 + X2 + X3 ≤ (1 + ε) ^ 2 * (W1 + W2 + W3) := by linarith
  have hk : 0 ≤ 6 * ε ^ 2 + 4 * ε ^ 3 + ε ^ 4 + ((1 + ε) ^ 9 - 1) * (4 * ε) := by
    have : 0 ≤ ((1 + ε) ^ 9 - 1) * (4 * ε) := mul_nonneg (by linarith) (by linarith)
    positivity
  have hf := mul_le_mul_of_nonneg_left hX hk
  have hD : |circleForm (a + s) (b + t) (c + u) - (circleForm a b c +
      (circLin a b c s t u + circLin b c a t u s + circLin c a b u s t))| ≤
      (6 * ε ^ 2 + 4 * ε ^ 3 + ε ^ 4) * (X1 + X2 + X3) := by
    have a1 := (abs_add_three _ _ _).trans (add_le_add (add_le_add m1 m2) m3)
    refine le_trans (le_of_eq ?_) (a1.trans (le_of_eq (by ring)))
    congr 1
    simp only [circleForm, P2.add_x, P2.add_y]
    ring
  refine (add_le_add hD t4).trans ?_
  rw [show (7 + 1 + 1 : ℕ) = 9 from rfl]
  generalize 6 * ε ^ 2 + 4 * ε ^ 3 + ε ^ 4 = c1 at *
  generalize (1 + ε) ^ 9 - 1 = c2 at *
  linarith

/-- The value of the determinant, for the second test. -/
theorem circ_second_bound {p : Nat} (hp : 1 ≤ p) (a b c : P2 K) :
    |circleForm a b c - circleForm ⟨roundBits p a.x, roundBits p a.y⟩ ⟨roundBits p b.x, roundBits p b.y⟩
        ⟨roundBits p c.x, roundBits p c.y⟩| ≤
      ((2 / 2 ^ p + (1 / 2 ^ p) ^ 2) * (2 / 2 ^ p + (1 / 2 ^ p) ^ 2 + (1 + 1 / 2 ^ p)) +
        (1 + 1 / 2 ^ p) * (2 / 2 ^ p + (1 / 2 ^ p) ^ 2)) *
      circPermSum p ⟨roundBits p a.x, roundBits p a.y⟩ ⟨roundBits p b.x, roundBits p b.y⟩ ⟨roundBits p c.x, roundBits p c.y⟩ := by
  have h (x y x' y' z w : K) := Appr.mul (by positivity) (by positivity)
    ((Appr.prod (p := p) hp x y).sub (Appr.prod hp x' y')) ((Appr.prod (p := p) hp z z).add (Appr.prod hp w w))
  have h1 := (((h b.x c.y c.x b.y a.x a.y).add (h c.x a.y a.x c.y b.x b.y)).add (h a.x b.y b.x a.y c.x c.y)).near
  unfold circPermSum circPerm circleForm
  simp only
  refine le_trans (le_of_eq ?_) h1
  congr 1
  ring

theorem round_sq_abs (p : Nat) (x : K) : |roundBits p (x * x)| = roundBits p (x * x) :=
  abs_of_nonneg (roundBits_nonneg p (mul_self_nonneg x))

/-- The permanent, as it is computed. -/
def circPermF (p : Nat) (a b c : P2 K) : K :=
  roundBits p (roundBits p (roundBits p (roundBits p (|roundBits p (b.x * c.y)| + |roundBits p (c.x * b.y)|) *
        roundBits p (roundBits p (a.x * a.x) + roundBits p (a.y * a.y))) +
      roundBits p (roundBits p (|roundBits p (c.x * a.y)| + |roundBits p (a.x * c.y)|) *
        roundBits p (roundBits p (b.x * b.x) + roundBits p (b.y * b.y)))) +
      roundBits p (roundBits p (|roundBits p (a.x * b.y)| + |roundBits p (b.x * a.y)|) *
        roundBits p (roundBits p (c.x * c.x) + roundBits p (c.y * c.y))))

theorem circPermSum_up {p : Nat} (hp : 1 ≤ p) (a b c : P2 K) : Up p 5 (circPermSum p a b c) (circPermF p a b c) := by
  have h (x y z w : K) := Up.mul hp (add_nonneg (abs_nonneg (roundBits p (z * z))) (abs_nonneg (roundBits p (w * w))))
    (Up.add hp (Up.abs (p := p) x) (Up.abs y)) (Up.add hp (Up.abs (p := p) (roundBits p (z * z))) (Up.abs (roundBits p (w * w))))
  simp only [round_sq_abs] at h
  unfold circPermSum circPerm circPermF
  simp only [round_sq_abs]
  exact ((h _ _ _ _).add hp (h _ _ _ _)).add hp ((h _ _ _ _).mono (by norm_num))

theorem Holds.circDet {p : Nat} (hp : 6 ≤ p) {a : P2 K} (ha : FloatPoint p a) {v : K} {bc : Res (List K)} (h : Holds p 4 v bc) :
    Holds p 32 ((a.x * a.x + a.y * a.y) * v) (circDet (roundBits p) true (exactConsts K p).splitter a bc) := by
  have h1 := (h.scale hp ha.1 (k := 8) le_rfl).scale hp ha.1 (k := 16) le_rfl
  have h2 := (h.scale hp ha.2 (k := 8) le_rfl).scale hp ha.2 (k := 16) le_rfl
  exact (HoldsL.sum hp h1 h2 (k := 32) le_rfl).toHolds.val (by ring)

theorem incircleStages_sign {p : Nat} (hp : 10 ≤ p) {ad bd cd s t u : P2 K} (ha : FloatPoint p ad) (hb : FloatPoint p bd)
    (hc : FloatPoint p cd) (hs : FloatPoint p s) (ht : FloatPoint p t) (hu : FloatPoint p u) {P : K}
    (ta : Tails2 (1 / 2 ^ p) ad s) (tb : Tails2 (1 / 2 ^ p) bd t) (tc : Tails2 (1 / 2 ^ p) cd u)
    (hP : Up p 5 (circPermSum p ad bd cd) P)
    (hB : |circleForm (ad + s) (bd + t) (cd + u) - circleForm ad bd cd| ≤
      ((2 / 2 ^ p + (1 / 2 ^ p) ^ 2) * (2 / 2 ^ p + (1 / 2 ^ p) ^ 2 + (1 + 1 / 2 ^ p)) +
        (1 + 1 / 2 ^ p) * (2 / 2 ^ p + (1 / 2 ^ p) ^ 2)) * circPermSum p ad bd cd) :
    ∃ d, incircleStages (roundBits p) true (exactConsts K p) ad bd cd s t u P = .ok d ∧
      SignType.sign d = SignType.sign (circleForm (ad + s) (bd + t) (cd + u)) := by
  have hp1 : 1 ≤ p := by omega
  have hp6 : 6 ≤ p := by omega
  have ε0 : (0 : K) < 1 / 2 ^ p := by positivity
  have ε1 := eps_small (K := K) hp
  have bc := Holds.prodDiff hp6 hb.1 hc.2 hc.1 hb.2
  have ca := Holds.prodDiff hp6 hc.1 ha.2 ha.1 hc.2
  have ab := Holds.prodDiff hp6 ha.1 hb.2 hb.1 ha.2
  have fin := (HoldsL.sum hp6 (HoldsL.sum hp6 (bc.circDet hp6 ha) (ca.circDet hp6 hb)
    (k := 64) le_rfl).toHolds (ab.circDet hp6 hc) (k := 1152) (by norm_num)).val
    (w := circleForm ad bd cd) (by unfold circleForm; ring)
  have fin0 := fin
  obtain ⟨⟨h, h1, h2, -, h4, h5, h6⟩, -⟩ := fin
  rw [h1] at fin0
  obtain ⟨det, d1, -, d3⟩ := estimate_near (by omega) h2 h4 h5
  unfold incircleStages
  simp only
  rw [h1]
  simp only
  rw [d1]
  simp only
  rw [h6] at d3
  have pw := fun k => pow_small ε0.le ε1 k
  have hbpos : 0 ≤ (exactConsts K p).iccerrboundB := by simp only [exactConsts]; positivity
  have hcpos : 0 ≤ (exactConsts K p).iccerrboundC := by simp only [exactConsts]; positivity
  have hκ : 20 / 7 * (1 / 2 ^ p) < (1 : K) := by linarith
  split_ifs with hB1 hB2 hB3
  · refine ⟨det, rfl, ?_⟩
    rw [ge_or_iff (roundBits_nonneg p (mul_nonneg hbpos hP.pos))] at hB1
    refine sign_second hp1 (by positivity) hbpos (by norm_num) hκ hB hP d3 ?_ hB1
    simp only [exactConsts]
    have e2 : (2 / 2 ^ p : K) = 2 * (1 / 2 ^ p) := by ring
    rw [e2]
    clear hB hB1 d3 fin0 h6 hP
    generalize (1 / 2 ^ p : K) = ε at *
    have k2 : 0 < ε ^ 2 := by positivity
    have k3 : 0 < ε ^ 3 := by positivity
    have := pw 2; have := pw 3; have := pw 4; have := pw 5; have := pw 6; have := pw 7; have := pw 8; have := pw 9
    have := pw 10; have := pw 11
    linarith
  · refine ⟨det, rfl, ?_⟩
    obtain ⟨z1, z2, z3, z4, z5, z6⟩ := hB2
    have : circleForm (ad + s) (bd + t) (cd + u) = circleForm ad bd cd := by
      simp only [circleForm, P2.add_x, P2.add_y, z1, z2, z3, z4, z5, z6, add_zero]
    rw [this]
    exact (sign_of_rel hκ d3).symm
  · refine ⟨_, rfl, ?_⟩
    have hrpos : 0 ≤ (exactConsts K p).resulterrbound * absolute det := by
      rw [absolute_eq]; simp only [exactConsts]; positivity
    rw [ge_or_iff (roundBits_nonneg p (add_nonneg (roundBits_nonneg p (mul_nonneg hcpos hP.pos))
      (roundBits_nonneg p hrpos))), absolute_eq] at hB3
    have hC := circ_third_bound hp1 ta tb tc
    have p9 := one_le_eps (K := K) p 9
    have hk : (0 : K) ≤ (6 * (1 / 2 ^ p) ^ 2 + 4 * (1 / 2 ^ p) ^ 3 + (1 / 2 ^ p) ^ 4 +
        ((1 + 1 / 2 ^ p) ^ 9 - 1) * (4 * (1 / 2 ^ p))) * (1 + 1 / 2 ^ p) ^ 2 := by
      have : (0 : K) ≤ ((1 + 1 / 2 ^ p) ^ 9 - 1) * (4 * (1 / 2 ^ p)) := mul_nonneg (by linarith) (by positivity)
      positivity
    have hC2 := hC.trans (mul_le_mul_of_nonneg_left hP.le hk)
    rw [← mul_assoc] at hC2
    refine sign_third hp hcpos hP.pos hC2 ?_ d3 ?_ hB3
    · simp only [exactConsts]
      clear hC2 hC hk hB3 hB fin0 h6 hP d3
      generalize (1 / 2 ^ p : K) = ε at *
      have k2 : 0 < ε ^ 2 := by positivity
      have k3 : 0 < ε ^ 3 := by positivity
      have k4 : 0 < ε ^ 4 := by positivity
      have := pw 2; have := pw 3; have := pw 4; have := pw 5; have := pw 6; have := pw 7; have := pw 8; have := pw 9
      have := pw 10; have := pw 11; have := pw 12; have := pw 13; have := pw 14; have := pw 15; have := pw 16
      linarith
    · simp only [exactConsts]
      generalize (1 / 2 ^ p : K) = ε at *
      have k2 : 0 < ε ^ 2 := by positivity
      linarith
  · obtain ⟨d, q1, -, q2⟩ := incircleAdaptD_sign hp6 ha hb hc hs ht hu fin0 bc ca ab
    exact ⟨d, q1, q2⟩

theorem incircleAdapt_sign {p : Nat} (hp : 10 ≤ p) {pa pb pc pd : P2 K} (ha : FloatPoint p pa) (hb : FloatPoint p pb)
    (hc : FloatPoint p pc) (hd : FloatPoint p pd) {P : K}
    (hP : Up p 5 (circPermSum p ⟨roundBits p (pa.x - pd.x), roundBits p (pa.y - pd.y)⟩
      ⟨roundBits p (pb.x - pd.x), roundBits p (pb.y - pd.y)⟩ ⟨roundBits p (pc.x - pd.x), roundBits p (pc.y - pd.y)⟩) P) :
    ∃ d, incircleAdapt (roundBits p) true (exactConsts K p) pa pb pc pd P = .ok d ∧
      SignType.sign d = SignType.sign (circleForm (pa - pd) (pb - pd) (pc - pd)) := by
  have hp1 : 1 ≤ p := by omega
  have hp3 : 3 ≤ p := by omega
  have hB := circ_second_bound hp1 (pa - pd) (pb - pd) (pc - pd)
  simp only [P2.sub_x, P2.sub_y] at hB
  have fr (x : K) : IsFloat p (roundBits p x) := roundBits_isFloat hp1 x
  have key (a b : P2 K) : (⟨roundBits p (a.x - b.x), roundBits p (a.y - b.y)⟩ : P2 K) +
      ⟨a.x - b.x - roundBits p (a.x - b.x), a.y - b.y - roundBits p (a.y - b.y)⟩ = a - b := by
    ext
    · simp only [P2.add_x, P2.sub_x, add_sub_cancel]
    · simp only [P2.add_y, P2.sub_y, add_sub_cancel]
  have := incircleStages_sign hp (P := P) ⟨fr _, fr _⟩ ⟨fr _, fr _⟩ ⟨fr _, fr _⟩
    ⟨diff_err_isFloat hp1 ha.1 hd.1, diff_err_isFloat hp1 ha.2 hd.2⟩
    ⟨diff_err_isFloat hp1 hb.1 hd.1, diff_err_isFloat hp1 hb.2 hd.2⟩
    ⟨diff_err_isFloat hp1 hc.1 hd.1, diff_err_isFloat hp1 hc.2 hd.2⟩
    ⟨roundBits_rel hp1 _, roundBits_rel hp1 _⟩ ⟨roundBits_rel hp1 _, roundBits_rel hp1 _⟩
    ⟨roundBits_rel hp1 _, roundBits_rel hp1 _⟩ hP (by rw [key, key, key]; exact hB)
  rw [key, key, key] at this
  unfold incircleAdapt
  simp only
  rw [twoDiffTail_eq hp3 ha.1 hd.1, twoDiffTail_eq hp3 hb.1 hd.1, twoDiffTail_eq hp3 hc.1 hd.1,
    twoDiffTail_eq hp3 ha.2 hd.2, twoDiffTail_eq hp3 hb.2 hd.2, twoDiffTail_eq hp3 hc.2 hd.2]
  exact this

/-- The sign of the adaptive test for circles is that of the exact determinant. -/
theorem incircle_sign {p : Nat} (hp : 10 ≤ p) {pa pb pc pd : P2 K} (ha : FloatPoint p pa) (hb : FloatPoint p pb)
    (hc : FloatPoint p pc) (hd : FloatPoint p pd) :
    ∃ d, incircle (roundBits p) true (exactConsts K p) pa pb pc pd = .ok d ∧
      SignType.sign d = SignType.sign (circleForm (pa - pd) (pb - pd) (pc - pd)) := by
  have hp1 : 1 ≤ p := by omega
  have ε0 : (0 : K) < 1 / 2 ^ p := by positivity
  have ε1 := eps_small (K := K) hp
  have hP := circPermSum_up hp1 (⟨roundBits p (pa.x - pd.x), roundBits p (pa.y - pd.y)⟩ : P2 K)
      ⟨roundBits p (pb.x - pd.x), roundBits p (pb.y - pd.y)⟩ ⟨roundBits p (pc.x - pd.x), roundBits p (pc.y - pd.y)⟩
  have hA := incircleAdapt_sign hp ha hb hc hd hP
  have m (z w x y x' y' : K) := ((Near.prod (p := p) hp1 z z).add hp1 (Near.prod (p := p) hp1 w w)).mul hp1
    ((Near.prod hp1 x y).sub hp1 (Near.prod hp1 x' y'))
  simp only [round_sq_abs] at m
  have h1 := ((m (pa.x - pd.x) (pa.y - pd.y) (pb.x - pd.x) (pc.y - pd.y) (pc.x - pd.x) (pb.y - pd.y)).add hp1
    (m (pb.x - pd.x) (pb.y - pd.y) (pc.x - pd.x) (pa.y - pd.y) (pa.x - pd.x) (pc.y - pd.y))).addE
    ((m (pc.x - pd.x) (pc.y - pd.y) (pa.x - pd.x) (pb.y - pd.y) (pb.x - pd.x) (pa.y - pd.y)).mono (by norm_num))
  have hapos : 0 ≤ (exactConsts K p).iccerrboundA := by simp only [exactConsts]; positivity
  have h2 := sign_first hp1 h1 hapos (by
    simp only [exactConsts]
    have pw := fun k => pow_small ε0.le ε1 k
    clear hP hA m h1
    generalize (1 / 2 ^ p : K) = ε at *
    have k2 : 0 < ε ^ 2 := by positivity
    have k3 : 0 < ε ^ 3 := by positivity
    have := pw 2; have := pw 3; have := pw 4; have := pw 5; have := pw 6; have := pw 7; have := pw 8; have := pw 9
    have := pw 10; have := pw 11; have := pw 12
    norm_num
    linarith)
  unfold incircle
  simp only [absolute_eq]
  split_ifs with h
  · refine ⟨_, rfl, ?_⟩
    rw [show circleForm (pa - pd) (pb - pd) (pc - pd) =
      ((pa.x - pd.x) * (pa.x - pd.x) + (pa.y - pd.y) * (pa.y - pd.y)) * ((pb.x - pd.x) * (pc.y - pd.y) -
        (pc.x - pd.x) * (pb.y - pd.y)) +
      ((pb.x - pd.x) * (pb.x - pd.x) + (pb.y - pd.y) * (pb.y - pd.y)) * ((pc.x - pd.x) * (pa.y - pd.y) -
        (pa.x - pd.x) * (pc.y - pd.y)) +
      ((pc.x - pd.x) * (pc.x - pd.x) + (pc.y - pd.y) * (pc.y - pd.y)) * ((pa.x - pd.x) * (pb.y - pd.y) -
        (pb.x - pd.x) * (pa.y - pd.y)) by
        simp only [circleForm, P2.sub_x, P2.sub_y]]
    refine h2 ?_
    rw [lt_abs]
    simp only [mul_comm (roundBits p (|_| + |_|))] at h
    exact h
  · exact hA

theorem circleForm_eq (a b c d : P2 K) : circleForm (a - d) (b - d) (c - d) = circleDet a b c d := by
  simp only [circleForm, circleDet, det3, sqDist, P2.sub_x, P2.sub_y]
  ring

theorem incircleAdapt_no_slack (fl : K → K) (c : ExactConsts K) (pa pb pc pd : P2 K) (P : K) :
    ∃ x, incircleAdapt fl false c pa pb pc pd P = .error x := by
  unfold incircleAdapt incircleStages
  simp only
  generalize circDet fl false c.splitter ⟨fl (pc.x - pd.x), fl (pc.y - pd.y)⟩ _ = f
  generalize sumInto fl false 64 _ _ = g
  obtain ⟨x, hx⟩ := sumInto_no_slack fl 1152 g f
  rw [hx]
  exact ⟨x, rfl⟩

/-- If nothing may be read behind the arrays, then what `incircle` returns is what the first test lets pass. -/
theorem incircle_no_slack {p : Nat} {c : ExactConsts K} (hc : 0 ≤ c.iccerrboundA) {pa pb pc pd : P2 K} {r : K}
    (h : incircle (roundBits p) false c pa pb pc pd = .ok r) :
    incircle (roundBits p) true c pa pb pc pd = .ok r ∧ r ≠ 0 := by
  unfold incircle at h ⊢
  simp only [absolute_eq] at h ⊢
  split_ifs at h ⊢ with h1
  · refine ⟨h, ?_⟩
    rw [Except.ok.injEq] at h
    rw [← h]
    intro h0
    rw [h0, neg_zero, or_self] at h1
    exact absurd h1 (not_lt.mpr (roundBits_nonneg p (mul_nonneg hc (by
      repeat (first | exact mul_self_nonneg _ | exact abs_nonneg _ | apply roundBits_nonneg | apply add_nonneg |
        apply mul_nonneg)))))
  · obtain ⟨x, hx⟩ := incircleAdapt_no_slack (roundBits p) c pa pb pc pd _
    rw [hx] at h
    exact absurd h (by simp)

end Geometrix
