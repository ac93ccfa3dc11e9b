import Verif.Lemmas.InsphereForms

/-!
The stages of the adaptive test for spheres.
-/

set_option linter.unusedSectionVars false

namespace Geometrix

open Spec

section

variable {K : Type*} [Field K] [LinearOrder K] [IsStrictOrderedRing K]

theorem sign_of_dist {x y : K} (h : |x - y| < |x| + |y|) : SignType.sign x = SignType.sign y := by
  rcases lt_trichotomy x 0 with hx | hx | hx <;> rcases lt_trichotomy y 0 with hy | hy | hy
  · rw [sign_neg hx, sign_neg hy]
  · rw [hy, sub_zero, abs_zero, add_zero] at h; exact absurd h (lt_irrefl _)
  · rw [abs_of_neg hx, abs_of_pos hy, abs_of_neg (by linarith)] at h; linarith
  · rw [hx, zero_sub, abs_neg, abs_zero, zero_add] at h; exact absurd h (lt_irrefl _)
  · rw [hx, hy]
  · rw [hx, zero_sub, abs_neg, abs_zero, zero_add] at h; exact absurd h (lt_irrefl _)
  · rw [abs_of_pos hx, abs_of_neg hy, abs_of_pos (by linarith)] at h; linarith
  · rw [hy, sub_zero, abs_zero, add_zero] at h; exact absurd h (lt_irrefl _)
  · rw [sign_pos hx, sign_pos hy]

theorem one_sub_pow_le {ε : K} (h0 : 0 ≤ ε) (h1 : ε ≤ 1) (n : Nat) : (1 - n * ε) * (1 + ε) ^ n ≤ 1 := by
  induction n with
  | zero => simp
  | succ n ih =>
    have hp : 0 ≤ (1 + ε) ^ n := by positivity
    have h : (1 - ((n + 1 : ℕ) : K) * ε) * (1 + ε) ≤ 1 - n * ε := by
      push_cast
      have : 0 ≤ (n : K) * ε * ε := by positivity
      have : 0 ≤ ε * ε := by positivity
      linarith
    rw [pow_succ, mul_comm ((1 + ε) ^ n), ← mul_assoc]
    exact (mul_le_mul_of_nonneg_right h hp).trans ih

end

variable {K : Type*} [Field K] [LinearOrder K] [IsStrictOrderedRing K] [FloorRing K]

theorem prodTop_acc {p : Nat} (hp : 10 ≤ p) {a b : P3 K} (ha : FloatPoint3 p a) (hb : FloatPoint3 p b) :
    Acc (1 / 2 ^ p) 3 (prodTop (roundBits p) (exactConsts K p).splitter a b) (crossXY a b) (crossAbs a b) := by
  have hp1 : 1 ≤ p := by omega
  have hp3 : 3 ≤ p := by omega
  have hp6 : 6 ≤ p := by omega
  have hfl := roundBits_rounds (K := K) hp1
  have ε0 : (0 : K) ≤ 1 / 2 ^ p := by positivity
  have ε1 := eps_small (K := K) hp
  have fr (x : K) : IsFloat p (roundBits p x) := roundBits_isFloat hp1 x
  have fx := prod_err_isFloat hp1 ha.1 hb.2.1
  have fy := prod_err_isFloat hp1 hb.1 ha.2.1
  have e : prodTop (roundBits p) (exactConsts K p).splitter a b =
      (let x := a.x * b.y
       let y := b.x * a.y
       let i := roundBits p ((x - roundBits p x) - (y - roundBits p y))
       let j := roundBits p (roundBits p x + i)
       roundBits p (j + roundBits p ((roundBits p x + i - j) - roundBits p y))) := by
    unfold prodTop
    simp only [exactConsts]
    rw [twoProduct_eq (splitBits_half hp6) ha.1 hb.2.1, twoProduct_eq (splitBits_half hp6) hb.1 ha.2.1]
    simp only [twoTwoDiff, twoOneDiff, List.getLastD_cons, List.getLastD_nil]
    rw [twoDiff_eq hp3 fx fy]
    simp only
    rw [twoSum_eq hp3 (fr _) (fr _)]
    simp only
    rw [twoDiff_eq hp3 (sum_err_isFloat hp1 (fr _) (fr _)) (fr _)]
    simp only
    rw [twoSum_eq hp3 (fr _) (fr _)]
  rw [e]
  unfold crossXY crossAbs
  rw [← abs_mul, ← abs_mul]
  simp only
  generalize a.x * b.y = x
  generalize b.x * a.y = y
  refine Acc.round ε0 hfl ⟨abs_sub _ _, ?_⟩
  have h1 := hfl.near x
  have h2 := hfl.near y
  have h3 := hfl.near ((x - roundBits p x) - (y - roundBits p y))
  generalize roundBits p ((x - roundBits p x) - (y - roundBits p y)) = i at *
  have h4 := hfl.near (roundBits p x + i)
  generalize roundBits p (roundBits p x + i) = j at *
  have h5 := hfl.near ((roundBits p x + i - j) - roundBits p y)
  generalize roundBits p ((roundBits p x + i - j) - roundBits p y) = q at *
  generalize roundBits p x = x' at *
  generalize roundBits p y = y' at *
  generalize (1 / 2 ^ p : K) = ε at *
  have nx := abs_nonneg x
  have ny := abs_nonneg y
  have d1 : |x - x' - (y - y')| ≤ ε * (|x| + |y|) := by
    have := abs_sub (x - x') (y - y')
    rw [abs_sub_comm x x', abs_sub_comm y y'] at this
    linarith
  have d2 : |i - (x - x' - (y - y'))| ≤ ε * (ε * (|x| + |y|)) := h3.trans (by gcongr)
  have d3 : |x' + i| ≤ 11 / 10 * (|x| + |y|) := by
    have a1 := abs_add_three (x' - x) (i - (x - x' - (y - y'))) (x + (x - x' - (y - y')))
    have a2 := abs_add_le x (x - x' - (y - y'))
    have a3 : ε * (|x| + |y|) ≤ 1 / 1024 * (|x| + |y|) := by gcongr
    have a4 : ε * (ε * (|x| + |y|)) ≤ 1 / 1024 * (1 / 1024 * (|x| + |y|)) := by gcongr
    have a5 : ε * |x| ≤ 1 / 1024 * |x| := by gcongr
    rw [show x' - x + (i - (x - x' - (y - y'))) + (x + (x - x' - (y - y'))) = x' + i by ring] at a1
    linarith
  have d4 : |x' + i - j| ≤ ε * (11 / 10 * (|x| + |y|)) := by
    rw [abs_sub_comm]
    exact h4.trans (by gcongr)
  have d5 : |x' + i - j - y'| ≤ (1 + 3 * ε) * (|x| + |y|) := by
    have a1 := abs_sub (x' + i - j) y'
    have a2 := abs_add_le (y' - y) y
    rw [sub_add_cancel] at a2
    have a3 : 0 ≤ ε * |x| := by positivity
    have a4 : 0 ≤ ε * |y| := by positivity
    linarith
  have d6 : |q - (x' + i - j - y')| ≤ ε * ((1 + 3 * ε) * (|x| + |y|)) := h5.trans (by gcongr)
  have a1 := abs_add_le (q - (x' + i - j - y')) (i - (x - x' - (y - y')))
  rw [show q - (x' + i - j - y') + (i - (x - x' - (y - y'))) = j + q - (x - y) by ring] at a1
  refine a1.trans ?_
  have a2 : ε * (ε * (|x| + |y|)) ≤ ε * (1 / 1024 * (|x| + |y|)) := by gcongr
  have a3 : 0 ≤ ε * (|x| + |y|) := by positivity
  have a4 : 0 ≤ ε * (ε * (|x| + |y|)) := by positivity
  linarith

theorem Up.congr {p n : Nat} {W V P : K} (h : Up p n W P) (e : W = V) : Up p n V P := e ▸ h

theorem Up.plus {p : Nat} (hp : 1 ≤ p) (x y : K) : Up p 1 (|x| * |y|) (Geometrix.plus (roundBits p) x y) := by
  unfold Geometrix.plus
  rw [absolute_eq, roundBits_abs, abs_mul]
  exact Up.mul hp (abs_nonneg _) (Up.abs x) (Up.abs y)

theorem Up.sphLift {p : Nat} (hp : 1 ≤ p) (a : P3 K) : Up p 3 (dotXYZ a a) (sphLift (roundBits p) a) := by
  have h (x : K) : Up p 1 (|x| * |x|) (roundBits p (x * x)) := by
    have := Up.mul hp (abs_nonneg x) (Up.abs (p := p) x) (Up.abs x)
    rwa [abs_mul_abs_self] at this ⊢
  exact ((((h a.x).add hp (h a.y)).add hp ((h a.z).mono (by norm_num)))).congr (dot_self_abs a)

theorem Up.sphQuarter {p : Nat} (hp : 1 ≤ p) {u v x w r y s t z l U V W R S T L : K} (hu : Up p 1 U u) (hv : Up p 1 V v)
    (hw : Up p 1 W w) (hr : Up p 1 R r) (hs : Up p 1 S s) (ht : Up p 1 T t) (hl : Up p 3 L l) (hL : 0 ≤ L) :
    Up p 9 (((U + V) * |x| + (W + R) * |y| + (S + T) * |z|) * L) (sphQuarter (roundBits p) u v x w r y s t z l) := by
  unfold Geometrix.sphQuarter
  simp only [absolute_eq]
  have h1 := Up.mul hp (abs_nonneg _) (hu.add hp hv) (Up.abs x)
  have h2 := Up.mul hp (abs_nonneg _) (hw.add hp hr) (Up.abs y)
  have h3 := Up.mul hp (abs_nonneg _) (hs.add hp ht) (Up.abs z)
  exact Up.mul hp hL ((h1.add hp h2).add hp (h3.mono (by norm_num))) hl

theorem sphPermanent_up {p : Nat} (hp : 1 ≤ p) (a b c d : P3 K) :
    Up p 12 (sphereAbs a b c d) (sphPermanent (roundBits p) a b c d) := by
  have h := Up.plus (K := K) hp
  have l := Up.sphLift (K := K) hp
  have q := dotXYZ_nonneg (K := K)
  have A := Up.sphQuarter hp (x := b.z) (y := c.z) (z := d.z) (h c.x d.y) (h d.x c.y) (h d.x b.y) (h b.x d.y) (h b.x c.y)
    (h c.x b.y) (l a) (q a)
  have B := Up.sphQuarter hp (x := c.z) (y := d.z) (z := a.z) (h d.x a.y) (h a.x d.y) (h a.x c.y) (h c.x a.y) (h c.x d.y)
    (h d.x c.y) (l b) (q b)
  have C := Up.sphQuarter hp (x := d.z) (y := a.z) (z := b.z) (h a.x b.y) (h b.x a.y) (h b.x d.y) (h d.x b.y) (h d.x a.y)
    (h a.x d.y) (l c) (q c)
  have D := Up.sphQuarter hp (x := a.z) (y := b.z) (z := c.z) (h b.x c.y) (h c.x b.y) (h c.x a.y) (h a.x c.y) (h a.x b.y)
    (h b.x a.y) (l d) (q d)
  refine (((A.add hp B).add hp (C.mono (by norm_num))).add hp (D.mono (by norm_num))).congr ?_
  simp only [sphereAbs, crossAbs, Geometrix.addThree]
  ring

theorem Holds.sphDet {p : Nat} (hp : 6 ≤ p) {v : K} {e : Res (List K)} (h : Holds p 24 v e) {a a' : P3 K}
    (ha : FloatPoint3 p a) (ha' : FloatPoint3 p a') :
    Holds p 288 (v * a.x * a'.x + v * a.y * a'.y + v * a.z * a'.z)
      (sphDet (roundBits p) true (exactConsts K p).splitter e a a') := by
  have s {x y : K} (hx : IsFloat p x) (hy : IsFloat p y) := (h.scaleInto hp hx (k := 48) (by norm_num)).scaleInto hp hy (k := 96)
    (by norm_num)
  exact ((s ha.1 ha'.1).sumInto hp (s ha.2.1 ha'.2.1) (k := 192) (by norm_num)).sumInto hp (s ha.2.2 ha'.2.2) (by norm_num)

theorem FloatPoint3.neg {p : Nat} {a : P3 K} (ha : FloatPoint3 p a) : FloatPoint3 p ⟨-a.x, -a.y, -a.z⟩ :=
  ⟨ha.1.neg, ha.2.1.neg, ha.2.2.neg⟩

theorem sphFin_holds {p : Nat} (hp : 6 ≤ p) {a b c d : P3 K} (ha : FloatPoint3 p a) (hb : FloatPoint3 p b)
    (hc : FloatPoint3 p c) (hd : FloatPoint3 p d) :
    Holds p 1152 (sphereForm a b c d) (sphFin (roundBits p) true (exactConsts K p).splitter a b c d) := by
  have g {x y : P3 K} (hx : FloatPoint3 p x) (hy : FloatPoint3 p y) := Holds.prodDiff hp hx.1 hy.2.1 hy.1 hx.2.1
  have A := (minor24_spec hp (g hc hd) (g hb hd) (g hb hc) hb.2.2 hc.2.2.neg hd.2.2).sphDet hp ha (FloatPoint3.neg ha)
  have B := (minor24_spec hp (g hd ha) (g ha hc) (g hc hd) hc.2.2 hd.2.2 ha.2.2).sphDet hp hb hb
  have C := (minor24_spec hp (g ha hb) (g hb hd) (g hd ha) hd.2.2 ha.2.2 hb.2.2).sphDet hp hc (FloatPoint3.neg hc)
  have D := (minor24_spec hp (g hb hc) (g ha hc) (g ha hb) ha.2.2 hb.2.2.neg hc.2.2).sphDet hp hd hd
  refine ((A.sumInto hp B (k := 576) (by norm_num)).sumInto hp (C.sumInto hp D (k := 576) (by norm_num)) (k := 1152)
    (by norm_num)).val ?_
  simp only [sphereForm, dotXYZ, addThree, subThree, crossXY]
  ring

/-- The second test, for a determinant that is not too small. -/
theorem sphere_second {ε D S det W P e : K} (ε0 : 0 < ε) (ε1 : ε ≤ 1 / 1024) (hD : |D - S| ≤ ((1 + ε) ^ 5 - 1) * W)
    (hW : 0 < W) (hP : W ≤ (1 + ε) ^ 12 * P) (he : (5 + 72 * ε) * ε * P ≤ (1 + ε) * e) (ht : e ≤ |det|)
    (hS : |det - S| ≤ 20 / 7 * ε * |S|) (hw : 20 * ε ^ 2 * ((1 - 5 * ε) * W) < |D|) :
    |D - S| < |D| + |S| := by
  have h1 : |det| ≤ (1 + 20 / 7 * ε) * |S| := by
    have := abs_add_le (det - S) S
    rw [sub_add_cancel] at this
    linarith
  have k12 : (1 - 13 * ε) * (1 + ε) ^ 13 ≤ 1 := by simpa using one_sub_pow_le ε0.le (by linarith) 13
  have hS0 := abs_nonneg S
  have h2 : (5 + 72 * ε) * ε * W ≤ (1 + ε) ^ 13 * ((1 + 20 / 7 * ε) * |S|) := by
    have a1 : (5 + 72 * ε) * ε * W ≤ (5 + 72 * ε) * ε * ((1 + ε) ^ 12 * P) := by gcongr
    have a2 : (1 + ε) ^ 12 * ((5 + 72 * ε) * ε * P) ≤ (1 + ε) ^ 12 * ((1 + ε) * ((1 + 20 / 7 * ε) * |S|)) := by
      have : (1 + ε) * e ≤ (1 + ε) * ((1 + 20 / 7 * ε) * |S|) := by
        have := ht.trans h1
        gcongr
      have := he.trans this
      gcongr
    rw [pow_succ (1 + ε) 12]
    linarith
  have h3 : (1 - 13 * ε) * ((5 + 72 * ε) * ε * W) ≤ (1 + 20 / 7 * ε) * |S| := by
    have a1 := mul_le_mul_of_nonneg_left h2 (show 0 ≤ 1 - 13 * ε by linarith)
    have a2 := mul_le_mul_of_nonneg_right k12 (show 0 ≤ (1 + 20 / 7 * ε) * |S| by positivity)
    linarith
  have h4 : (1 - 20 / 7 * ε) * ((1 - 13 * ε) * ((5 + 72 * ε) * ε * W)) ≤ |S| := by
    have a1 := mul_le_mul_of_nonneg_left h3 (show 0 ≤ 1 - 20 / 7 * ε by linarith)
    have a2 : 0 ≤ ε * ε * |S| := by positivity
    linarith
  have h5 : 0 ≤ ((1 - 20 / 7 * ε) * ((1 - 13 * ε) * ((5 + 72 * ε) * ε)) + 20 * ε ^ 2 * (1 - 5 * ε) - ((1 + ε) ^ 5 - 1)) * W := by
    refine mul_nonneg ?_ hW.le
    have pw := fun k => pow_small ε0.le ε1 k
    have k2 : 0 < ε ^ 2 := by positivity
    have k3 : 0 < ε ^ 3 := by positivity
    have k4 : 0 < ε ^ 4 := by positivity
    have := pw 2; have := pw 3; have := pw 4
    linarith
  linarith

/-- The third test, for a determinant that is not too small. -/
theorem sphere_third {ε D S L t det d W P x y e : K} (ε0 : 0 < ε) (ε1 : ε ≤ 1 / 1024)
    (hD : |D - S - L| ≤ ((1 + ε) ^ 5 - 1 - 5 * ε) * W) (hL : |t - L| ≤ ((1 + ε) ^ 14 - 1) * (5 * ε * W))
    (hW : 0 < W) (hP : W ≤ (1 + ε) ^ 12 * P) (hx : (71 + 1408 * ε) * ε * ε * P ≤ (1 + ε) * x)
    (hy : (3 + 8 * ε) * ε * |det| ≤ (1 + ε) * y) (he : x + y ≤ (1 + ε) * e) (ht : e ≤ |d|)
    (hS : |det - S| ≤ 20 / 7 * ε * |S|) (hd : |det + t - d| ≤ ε * |d|) (hw : 20 * ε ^ 2 * ((1 - 5 * ε) * W) < |D|) :
    |D - d| < |D| + |d| := by
  have b1 : |det - S| ≤ 29 / 10 * ε * |det| := by
    have a1 : |S| ≤ |det| + |det - S| := by
      have := abs_sub det (det - S)
      rwa [sub_sub_cancel] at this
    have a2 : 20 / 7 * ε * |S| ≤ 20 / 7 * (1 / 1024) * |S| := by gcongr
    have a3 : |S| ≤ 1003 / 1000 * |det| := by
      have := abs_nonneg det
      linarith
    have a4 : 20 / 7 * ε * |S| ≤ 20 / 7 * ε * (1003 / 1000 * |det|) := by gcongr
    have a5 : 0 ≤ ε * |det| := by positivity
    linarith
  have b2 : |D - d| ≤ |D - S - L| + |t - L| + |det - S| + |det + t - d| := by
    have a1 := abs_add_le (D - S - L) (det + t - d)
    have a2 := abs_add_le (t - L) (det - S)
    have a3 := abs_sub (D - S - L + (det + t - d)) (t - L + (det - S))
    rw [show D - S - L + (det + t - d) - (t - L + (det - S)) = D - d by ring] at a3
    linarith
  have k12 : (1 - 12 * ε) * (1 + ε) ^ 12 ≤ 1 := by simpa using one_sub_pow_le ε0.le (by linarith) 12
  have P0 : 0 < P := by
    have : 0 < (1 + ε) ^ 12 * P := lt_of_lt_of_le hW hP
    exact (pos_iff_pos_of_mul_pos this).1 (by positivity)
  have b3 : (1 - 12 * ε) * W ≤ P := by
    have a1 := mul_le_mul_of_nonneg_left hP (show 0 ≤ 1 - 12 * ε by linarith)
    have a2 := mul_le_mul_of_nonneg_right k12 P0.le
    linarith
  have k2 : (1 - 2 * ε) * (1 + ε) ^ 2 ≤ 1 := by simpa using one_sub_pow_le ε0.le (by linarith) 2
  have nd := abs_nonneg d
  have b4 : (71 + 1408 * ε) * ε * ε * P + (3 + 8 * ε) * ε * |det| ≤ (1 + ε) ^ 2 * |d| := by
    have a1 : (1 + ε) * (x + y) ≤ (1 + ε) * ((1 + ε) * |d|) := by
      have : (1 + ε) * e ≤ (1 + ε) * |d| := by gcongr
      have := he.trans this
      gcongr
    linarith
  have b5 : (1 - 2 * ε) * ((71 + 1408 * ε) * ε * ε * P + (3 + 8 * ε) * ε * |det|) ≤ |d| := by
    have a1 := mul_le_mul_of_nonneg_left b4 (show 0 ≤ 1 - 2 * ε by linarith)
    have a2 := mul_le_mul_of_nonneg_right k2 nd
    linarith
  have b6 : 71 * ε ^ 2 * (1 - 3 * ε) * P + 29 / 10 * ε * |det| ≤ (1 - ε) * |d| := by
    have a1 := mul_le_mul_of_nonneg_left b5 (show 0 ≤ 1 - ε by linarith)
    have c1 : 0 ≤ ((1 - ε) * (1 - 2 * ε) * (71 + 1408 * ε) - 71 * (1 - 3 * ε)) * (ε ^ 2 * P) := by
      refine mul_nonneg ?_ (by positivity)
      have : 0 ≤ ε ^ 2 := by positivity
      have : 0 ≤ ε ^ 3 := by positivity
      have : ε ^ 2 ≤ ε * (1 / 1024) := by rw [pow_two]; gcongr
      linarith
    have c2 : 0 ≤ ((1 - ε) * (1 - 2 * ε) * (3 + 8 * ε) - 29 / 10) * (ε * |det|) := by
      refine mul_nonneg ?_ (by positivity)
      have : 0 ≤ ε ^ 2 := by positivity
      have : 0 ≤ ε ^ 3 := by positivity
      have : ε ^ 2 ≤ ε * (1 / 1024) := by rw [pow_two]; gcongr
      linarith
    linarith
  have b7 : 71 * ε ^ 2 * (1 - 3 * ε) * ((1 - 12 * ε) * W) ≤ 71 * ε ^ 2 * (1 - 3 * ε) * P := by
    have : 0 ≤ 71 * ε ^ 2 * (1 - 3 * ε) := mul_nonneg (by positivity) (by linarith)
    gcongr
  have h5 : 0 ≤ (71 * ε ^ 2 * (1 - 3 * ε) * (1 - 12 * ε) + 20 * ε ^ 2 * (1 - 5 * ε) - ((1 + ε) ^ 5 - 1 - 5 * ε) -
      ((1 + ε) ^ 14 - 1) * (5 * ε)) * W := by
    refine mul_nonneg ?_ hW.le
    have pw := fun k => pow_small ε0.le ε1 k
    have k2 : 0 < ε ^ 2 := by positivity
    have k3 : 0 < ε ^ 3 := by positivity
    have k4 : 0 < ε ^ 4 := by positivity
    have := pw 2; have := pw 3; have := pw 4; have := pw 5; have := pw 6; have := pw 7; have := pw 8; have := pw 9
    have := pw 10; have := pw 11; have := pw 12; have := pw 13; have := pw 14
    linarith
  linarith

theorem insphereStages_sign {p : Nat} (hp : 10 ≤ p) {a b c d s t u v : P3 K} (ha : FloatPoint3 p a) (hb : FloatPoint3 p b)
    (hc : FloatPoint3 p c) (hd : FloatPoint3 p d) {P : K} (ta : Tails (1 / 2 ^ p) a s) (tb : Tails (1 / 2 ^ p) b t)
    (tc : Tails (1 / 2 ^ p) c u) (td : Tails (1 / 2 ^ p) d v) (hP : Up p 12 (sphereAbs a b c d) P) {exact : Res K} {r0 : K}
    (he : exact = .ok r0) (hr0 : SignType.sign r0 = SignType.sign (sphereForm (a + s) (b + t) (c + u) (d + v))) :
    ∃ r, insphereStages (roundBits p) true (exactConsts K p) a b c d s t u v P exact = .ok r ∧
      (20 * (1 / 2 ^ p) ^ 2 * ((1 - 5 * (1 / 2 ^ p)) * sphereAbs a b c d) < |sphereForm (a + s) (b + t) (c + u) (d + v)| →
        SignType.sign r = SignType.sign (sphereForm (a + s) (b + t) (c + u) (d + v))) ∧
      (r = 0 → sphereForm (a + s) (b + t) (c + u) (d + v) = 0) ∧
      (noTails s t u v → SignType.sign r = SignType.sign (sphereForm (a + s) (b + t) (c + u) (d + v))) := by
  have hp1 : 1 ≤ p := by omega
  have hp6 : 6 ≤ p := by omega
  have ε0 : (0 : K) < 1 / 2 ^ p := by positivity
  have ε1 := eps_small (K := K) hp
  have J := sphere_jet ε0.le ta tb tc td
  have hcor := sphCorrection_acc ε0.le (roundBits_rounds (K := K) hp1) (k := (exactConsts K p).splitter) ta tb tc td (by
    rintro x y (rfl | rfl | rfl | rfl) (rfl | rfl | rfl | rfl) <;> exact prodTop_acc hp (by assumption) (by assumption))
  have hrel := fun x : K => roundBits_rel hp1 x
  have hround := fun {x : K} (h : 0 ≤ x) => round_le_of hp1 h
  have zero : noTails s t u v → sphereForm (a + s) (b + t) (c + u) (d + v) = sphereForm a b c d := by
    rintro ⟨⟨s1, s2, s3⟩, ⟨t1, t2, t3⟩, ⟨u1, u2, u3⟩, v1, v2, v3⟩
    simp only [sphereForm, dotXYZ, addThree, subThree, crossXY, P3.add_x, P3.add_y, P3.add_z, s1, s2, s3, t1, t2, t3, u1, u2,
      u3, v1, v2, v3, add_zero]
  obtain ⟨h, h1, h2, -, h4, h5, h6⟩ := sphFin_holds hp6 ha hb hc hd
  obtain ⟨det, d1, -, d3⟩ := estimate_near (by omega) h2 h4 h5
  rw [h6] at d3
  have null : P = 0 → sphereForm (a + s) (b + t) (c + u) (d + v) = 0 := by
    intro h0
    have w0 := hP.le
    rw [h0, mul_zero] at w0
    have w1 : sphereAbs a b c d = 0 := le_antisymm w0 (sphereAbs_nonneg _ _ _ _)
    have a1 := J.near
    have a2 := J.le
    rw [w1] at a1 a2
    rw [mul_zero] at a1
    rw [sub_eq_zero.1 (abs_eq_zero.1 (le_antisymm a1 (abs_nonneg _)))]
    exact abs_eq_zero.1 (le_antisymm a2 (abs_nonneg _))
  unfold insphereStages
  rw [h1]
  simp only
  rw [d1]
  simp only
  have hbpos : 0 < (exactConsts K p).isperrboundB := by simp only [exactConsts]; positivity
  have hcpos : 0 < (exactConsts K p).isperrboundC := by rw [isperrboundC_eq (by omega)]; positivity
  have hκ : 20 / 7 * (1 / 2 ^ p) < (1 : K) := by linarith
  have wpos (hw : 20 * (1 / 2 ^ p) ^ 2 * ((1 - 5 * (1 / 2 ^ p)) * sphereAbs a b c d) <
      |sphereForm (a + s) (b + t) (c + u) (d + v)|) : 0 < sphereAbs a b c d := by
    refine lt_of_le_of_ne (sphereAbs_nonneg _ _ _ _) fun h0 => ?_
    have a1 := J.near
    have a2 := J.le
    rw [← h0] at a1 a2 hw
    rw [mul_zero] at a1
    rw [sub_eq_zero.1 (abs_eq_zero.1 (le_antisymm a1 (abs_nonneg _))), mul_zero, mul_zero] at hw
    linarith
  split_ifs with hB1 hB2 hB3
  · refine ⟨det, rfl, ?_, ?_, ?_⟩
    · intro hw
      rw [ge_or_iff (roundBits_nonneg p (mul_nonneg hbpos.le hP.pos))] at hB1
      have e1 := hround (mul_nonneg hbpos.le hP.pos)
      simp only [exactConsts] at e1
      have := sphere_second ε0 ε1 J.near (wpos hw) hP.le e1 hB1 d3 hw
      rw [sign_of_dist this]
      exact (sign_of_rel (d := sphereForm a b c d) hκ d3).symm
    · intro h0
      rw [ge_or_iff (roundBits_nonneg p (mul_nonneg hbpos.le hP.pos)), h0, abs_zero] at hB1
      have e1 := hround (mul_nonneg hbpos.le hP.pos)
      have e2 : (exactConsts K p).isperrboundB * P ≤ 0 := e1.trans (mul_nonpos_of_nonneg_of_nonpos (by linarith) hB1)
      exact null (le_antisymm (by by_contra hc; push Not at hc; exact absurd (mul_pos hbpos hc) (not_lt.2 e2)) hP.pos)
    · intro h0
      rw [zero h0]
      exact (sign_of_rel hκ d3).symm
  · refine ⟨det, rfl, ?_, ?_, ?_⟩
    · intro _
      rw [zero hB2]
      exact (sign_of_rel hκ d3).symm
    · intro h0
      rw [zero hB2, ← sign_eq_zero_iff, sign_of_rel hκ d3, sign_eq_zero_iff]
      exact h0
    · intro h0
      rw [zero h0]
      exact (sign_of_rel hκ d3).symm
  · have q1 : 0 ≤ (exactConsts K p).isperrboundC * P := mul_nonneg hcpos.le hP.pos
    have q2 : 0 ≤ (exactConsts K p).resulterrbound * absolute det := by
      rw [absolute_eq]; simp only [exactConsts]; positivity
    have r1 := roundBits_nonneg p q1
    have r2 := roundBits_nonneg p q2
    have e1 := hround q1
    have e2 := hround q2
    have e3 := hround (add_nonneg r1 r2)
    rw [ge_or_iff (roundBits_nonneg p (add_nonneg r1 r2))] at hB3
    refine ⟨_, rfl, ?_, ?_, fun h0 => absurd h0 hB2⟩
    · intro hw
      rw [isperrboundC_eq (by omega)] at e1 e3 hB3
      simp only [absolute_eq] at e2 e3 hB3
      simp only [exactConsts] at e2 e3 hB3
      have hrest := J.rest
      push_cast at hrest
      exact (sign_of_dist (sphere_third ε0 ε1 hrest hcor.near (wpos hw) hP.le e1 e2 e3 hB3 d3 (hrel _) hw)).symm
    · intro h0
      rw [h0, abs_zero] at hB3
      have a1 := e3.trans (mul_nonpos_of_nonneg_of_nonpos (by linarith) hB3)
      have a2 := e1.trans (mul_nonpos_of_nonneg_of_nonpos (by linarith) (show _ ≤ (0 : K) by linarith))
      exact null (le_antisymm (by by_contra hc; push Not at hc; exact absurd (mul_pos hcpos hc) (not_lt.2 a2)) hP.pos)
  · refine ⟨r0, he, fun _ => hr0, fun h0 => ?_, fun _ => hr0⟩
    rw [← sign_eq_zero_iff, ← hr0, sign_eq_zero_iff]
    exact h0

/-- The first test. -/
theorem sphere_first {ε D y d W P e : K} (ε0 : 0 < ε) (ε1 : ε ≤ 1 / 1024) (hy : |y - D| ≤ ((1 + ε) ^ 15 - 1) * W)
    (hP : W ≤ (1 + ε) ^ 17 * P) (P0 : 0 ≤ P) (he : (16 + 224 * ε) * ε * P ≤ (1 + ε) * e) (ht : e < |d|)
    (hd : |y - d| ≤ ε * |d|) : |D - d| < |D| + |d| := by
  have h1 : |D - d| ≤ |y - D| + |y - d| := by
    have := abs_sub (y - d) (y - D)
    rw [show y - d - (y - D) = D - d by ring] at this
    linarith
  have p15 : 1 ≤ (1 + ε) ^ 15 := one_le_pow₀ (by linarith)
  have h2 : ((1 + ε) ^ 15 - 1) * W ≤ ((1 + ε) ^ 15 - 1) * ((1 + ε) ^ 17 * P) := mul_le_mul_of_nonneg_left hP (by linarith)
  have h3 : (1 - ε) * ((1 - ε) * ((16 + 224 * ε) * ε * P)) ≤ (1 - ε) * e := by
    refine mul_le_mul_of_nonneg_left ?_ (by linarith)
    have a1 := mul_le_mul_of_nonneg_left he (show 0 ≤ 1 - ε by linarith)
    by_cases h0 : 0 ≤ e
    · have : 0 ≤ ε * ε * e := by positivity
      linarith
    · have b1 : 0 ≤ (16 + 224 * ε) * ε * P := by positivity
      have b2 : (1 + ε) * e < 0 := mul_neg_of_pos_of_neg (by linarith) (not_le.1 h0)
      linarith
  have h4 : 0 ≤ ((1 - ε) * ((1 - ε) * ((16 + 224 * ε) * ε)) - ((1 + ε) ^ 15 - 1) * (1 + ε) ^ 17) * P := by
    refine mul_nonneg ?_ P0
    have pw := fun k => pow_small ε0.le ε1 k
    have k1 : (1 + ε) ^ 15 ≤ 1 + 15 * ε + 106 * ε ^ 2 := by
      have k2 : 0 < ε ^ 2 := by positivity
      have := pw 2; have := pw 3; have := pw 4; have := pw 5; have := pw 6; have := pw 7; have := pw 8; have := pw 9
      have := pw 10; have := pw 11; have := pw 12; have := pw 13; have := pw 14
      linarith
    have k2 : (1 + ε) ^ 17 ≤ 1 + 17 * ε + 137 * ε ^ 2 := by
      have k2 : 0 < ε ^ 2 := by positivity
      have := pw 2; have := pw 3; have := pw 4; have := pw 5; have := pw 6; have := pw 7; have := pw 8; have := pw 9
      have := pw 10; have := pw 11; have := pw 12; have := pw 13; have := pw 14; have := pw 15; have := pw 16
      linarith
    have k3 : ((1 + ε) ^ 15 - 1) * (1 + ε) ^ 17 ≤ (15 * ε + 106 * ε ^ 2) * (1 + 17 * ε + 137 * ε ^ 2) :=
      mul_le_mul (by linarith) k2 (by positivity) (by positivity)
    have := pw 1; have := pw 2; have := pw 3
    have : 0 < ε ^ 3 := by positivity
    have : 0 < ε ^ 4 := by positivity
    linarith
  have h5 : (1 - ε) * e < (1 - ε) * |d| := mul_lt_mul_of_pos_left ht (by linarith)
  have := abs_nonneg D
  linarith

end Geometrix
