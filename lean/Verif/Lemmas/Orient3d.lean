import Verif.Lemmas.Orient3dSums
import Verif.Lemmas.RoundAcc
import Verif.Lemmas.RoundBounds

/-!
The error bounds of the adaptive orientation test in space.
-/

set_option linter.unusedSectionVars false

namespace Geometrix

open Spec

section

variable {K : Type*} [Field K] [LinearOrder K] [IsStrictOrderedRing K]

theorem Acc.weak {u : K} (hu : 0 ≤ u) {n : Nat} {x' x X Y : K} (h : Acc u n x' x X) (hY : X ≤ Y) : Acc u n x' x Y := by
  refine ⟨h.le.trans hY, h.near.trans ?_⟩
  have : (1 : K) ≤ (1 + u) ^ n := one_le_pow₀ (by linarith)
  exact mul_le_mul_of_nonneg_left hY (by linarith)

theorem tailTerm_acc {fl : K → K} {ε : K} (hε : 0 ≤ ε) (hfl : RoundsWithin ε fl) {az azt bx b_y bxt byt cx cy cxt cyt : K}
    (haz : |azt| ≤ ε * |az|) (hbx : |bxt| ≤ ε * |bx|) (hby : |byt| ≤ ε * |b_y|) (hcx : |cxt| ≤ ε * |cx|)
    (hcy : |cyt| ≤ ε * |cy|) :
    Acc ε 5 (tailTerm fl az azt bx b_y bxt byt cx cy cxt cyt)
      (az * ((bx * cyt + cy * bxt) - (b_y * cxt + cx * byt)) + azt * (bx * cy - b_y * cx))
      (3 * ε * (|az| * (|bx| * |cy| + |b_y| * |cx|))) := by
  have b (x : K) := Acc.base hε hfl x
  have h1 := ((b (bx * cyt)).add hε hfl (b (cy * bxt)) le_rfl).sub hε hfl
    ((b (b_y * cxt)).add hε hfl (b (cx * byt)) le_rfl) le_rfl
  have h2 := (Acc.exact az).mul hε hfl h1 le_rfl
  have h3 := (b (bx * cy)).sub hε hfl (b (b_y * cx)) le_rfl
  have h4 := (Acc.exact azt).mul hε hfl h3 (k := 4) (by norm_num)
  have h5 := h2.add hε hfl h4 le_rfl
  refine Acc.weak hε h5 ?_
  simp only [abs_mul]
  have k1 : |bx| * |cyt| ≤ |bx| * (ε * |cy|) := by gcongr
  have k2 : |cy| * |bxt| ≤ |cy| * (ε * |bx|) := by gcongr
  have k3 : |b_y| * |cxt| ≤ |b_y| * (ε * |cx|) := by gcongr
  have k4 : |cx| * |byt| ≤ |cx| * (ε * |b_y|) := by gcongr
  have k5 : |azt| * (|bx| * |cy| + |b_y| * |cx|) ≤ ε * |az| * (|bx| * |cy| + |b_y| * |cx|) := by gcongr
  have k6 : |az| * (|bx| * |cyt| + |cy| * |bxt| + (|b_y| * |cxt| + |cx| * |byt|)) ≤
      |az| * (|bx| * (ε * |cy|) + |cy| * (ε * |bx|) + (|b_y| * (ε * |cx|) + |cx| * (ε * |b_y|))) := by gcongr
  linarith

/-- What is left of a product if the first two orders are taken away. -/
theorem prod_rest {ε x y z s t u : K} (hε : 0 ≤ ε) (hs : |s| ≤ ε * |x|) (ht : |t| ≤ ε * |y|) (hu : |u| ≤ ε * |z|) :
    |(x + s) * (y + t) * (z + u) - x * y * z - (s * y * z + x * t * z + x * y * u)| ≤
      (3 * ε ^ 2 + ε ^ 3) * (|z| * (|x| * |y|)) := by
  have e : (x + s) * (y + t) * (z + u) - x * y * z - (s * y * z + x * t * z + x * y * u) =
      s * t * z + s * y * u + x * t * u + s * t * u := by ring
  rw [e]
  have a1 := abs_add_le (s * t * z + s * y * u + x * t * u) (s * t * u)
  have a2 := abs_add_le (s * t * z + s * y * u) (x * t * u)
  have a3 := abs_add_le (s * t * z) (s * y * u)
  simp only [abs_mul] at a1 a2 a3
  have k1 : |s| * |t| * |z| ≤ (ε * |x|) * (ε * |y|) * |z| := by gcongr
  have k2 : |s| * |y| * |u| ≤ (ε * |x|) * |y| * (ε * |z|) := by gcongr
  have k3 : |x| * |t| * |u| ≤ |x| * (ε * |y|) * (ε * |z|) := by gcongr
  have k4 : |s| * |t| * |u| ≤ (ε * |x|) * (ε * |y|) * (ε * |z|) := by gcongr
  linarith

/-- The same for a third of the determinant. -/
theorem minor_rest {ε az azt bx b_y bxt byt cx cy cxt cyt : K} (hε : 0 ≤ ε)
    (haz : |azt| ≤ ε * |az|) (hbx : |bxt| ≤ ε * |bx|) (hby : |byt| ≤ ε * |b_y|) (hcx : |cxt| ≤ ε * |cx|)
    (hcy : |cyt| ≤ ε * |cy|) :
    |(az + azt) * ((bx + bxt) * (cy + cyt) - (b_y + byt) * (cx + cxt)) - az * (bx * cy - b_y * cx) -
      (az * ((bx * cyt + cy * bxt) - (b_y * cxt + cx * byt)) + azt * (bx * cy - b_y * cx))| ≤
      (3 * ε ^ 2 + ε ^ 3) * (|az| * (|bx| * |cy| + |b_y| * |cx|)) := by
  have h1 := prod_rest hε hbx hcy haz
  have h2 := prod_rest hε hby hcx haz
  have h3 := abs_sub ((bx + bxt) * (cy + cyt) * (az + azt) - bx * cy * az - (bxt * cy * az + bx * cyt * az + bx * cy * azt))
    ((b_y + byt) * (cx + cxt) * (az + azt) - b_y * cx * az - (byt * cx * az + b_y * cxt * az + b_y * cx * azt))
  refine le_trans (le_of_eq ?_) (h3.trans ((add_le_add h1 h2).trans (le_of_eq ?_)))
  · congr 1
    ring
  · ring

end

variable {K : Type*} [Field K] [LinearOrder K] [IsStrictOrderedRing K] [FloorRing K]

theorem eps_small {p : Nat} (hp : 10 ≤ p) : (1 : K) / 2 ^ p ≤ 1 / 1024 := by
  apply one_div_le_one_div_of_le (by norm_num)
  have : (2 : K) ^ 10 ≤ 2 ^ p := pow_le_pow_right₀ (by norm_num) hp
  norm_num at this
  exact this

theorem pow_small {ε : K} (h0 : 0 ≤ ε) (h1 : ε ≤ 1 / 1024) (k : Nat) : ε ^ (k + 1) ≤ ε ^ k * (1 / 1024) := by
  rw [pow_succ]
  gcongr

/-- The bound in terms of the rounded products. -/
theorem minor_up {p : Nat} (hp : 1 ≤ p) (z a b c d : K) : |z| * (|a| * |b| + |c| * |d|) ≤
    (1 + 1 / 2 ^ p) * ((|roundBits p (a * b)| + |roundBits p (d * c)|) * |z|) := by
  have h (x : K) : |x| ≤ (1 + 1 / 2 ^ p) * |roundBits p x| := by
    have a1 := abs_add_le (x - roundBits p x) (roundBits p x)
    rw [sub_add_cancel] at a1
    have := roundBits_rel hp x
    linarith
  rw [← abs_mul, ← abs_mul, mul_comm c d]
  have h1 := h (a * b)
  have h2 := h (d * c)
  have : |z| * (|a * b| + |d * c|) ≤ |z| * ((1 + 1 / 2 ^ p) * |roundBits p (a * b)| + (1 + 1 / 2 ^ p) * |roundBits p (d * c)|) := by
    gcongr
  linarith

/-- The sum that is computed as the permanent, without rounding. -/
def permSum (p : Nat) (a b c : P3 K) : K :=
  (|roundBits p (b.x * c.y)| + |roundBits p (c.x * b.y)|) * |a.z| +
  (|roundBits p (c.x * a.y)| + |roundBits p (a.x * c.y)|) * |b.z| +
  (|roundBits p (a.x * b.y)| + |roundBits p (b.x * a.y)|) * |c.z|

/-- The first order of the determinant. -/
def linPart (a b c s t u : P3 K) : K :=
  (a.z * ((b.x * u.y + c.y * t.x) - (b.y * u.x + c.x * t.y)) + s.z * (b.x * c.y - b.y * c.x)) +
  (b.z * ((c.x * s.y + a.y * u.x) - (c.y * s.x + a.x * u.y)) + t.z * (c.x * a.y - c.y * a.x)) +
  (c.z * ((a.x * t.y + b.y * s.x) - (a.y * t.x + b.x * s.y)) + u.z * (a.x * b.y - a.y * b.x))

/-- The tails of a point. -/
structure Tails (ε : K) (a s : P3 K) : Prop where
  x : |s.x| ≤ ε * |a.x|
  y : |s.y| ≤ ε * |a.y|
  z : |s.z| ≤ ε * |a.z|

/-- What is left of the determinant if the first two orders are taken away, and the error in computing the first order. -/
theorem third_bound {p : Nat} (hp : 1 ≤ p) {a b c s t u : P3 K} (ha : Tails (1 / 2 ^ p) a s) (hb : Tails (1 / 2 ^ p) b t)
    (hc : Tails (1 / 2 ^ p) c u) :
    |det3 (a + s) (b + t) (c + u) - (det3 a b c + linPart a b c s t u)| +
      |roundBits p (roundBits p (tailTerm (roundBits p) a.z s.z b.x b.y t.x t.y c.x c.y u.x u.y +
        tailTerm (roundBits p) b.z t.z c.x c.y u.x u.y a.x a.y s.x s.y) +
        tailTerm (roundBits p) c.z u.z a.x a.y s.x s.y b.x b.y t.x t.y) - linPart a b c s t u| ≤
      (3 * (1 / 2 ^ p) ^ 2 + (1 / 2 ^ p) ^ 3 + ((1 + 1 / 2 ^ p) ^ 7 - 1) * (3 * (1 / 2 ^ p))) * (1 + 1 / 2 ^ p) *
        permSum p a b c := by
  have hfl := roundBits_rounds (K := K) hp
  have ε0 : (0 : K) ≤ 1 / 2 ^ p := by positivity
  have u1 := minor_up hp a.z b.x c.y b.y c.x
  have u2 := minor_up hp b.z c.x a.y c.y a.x
  have u3 := minor_up hp c.z a.x b.y a.y b.x
  have p7 := one_le_eps (K := K) p 7
  unfold permSum linPart
  generalize roundBits p (b.x * c.y) = w1 at *
  generalize roundBits p (c.x * b.y) = w2 at *
  generalize roundBits p (c.x * a.y) = w3 at *
  generalize roundBits p (a.x * c.y) = w4 at *
  generalize roundBits p (a.x * b.y) = w5 at *
  generalize roundBits p (b.x * a.y) = w6 at *
  generalize hε : (1 / 2 ^ p : K) = ε at *
  have m1 := minor_rest ε0 ha.z hb.x hb.y hc.x hc.y
  have m2 := minor_rest ε0 hb.z hc.x hc.y ha.x ha.y
  have m3 := minor_rest ε0 hc.z ha.x ha.y hb.x hb.y
  have t1 := tailTerm_acc ε0 hfl ha.z hb.x hb.y hc.x hc.y
  have t2 := tailTerm_acc ε0 hfl hb.z hc.x hc.y ha.x ha.y
  have t3 := tailTerm_acc ε0 hfl hc.z ha.x ha.y hb.x hb.y
  have t4 := ((t1.add ε0 hfl t2 le_rfl).add ε0 hfl (t3.mono ε0 (by norm_num)) le_rfl).near
  generalize |a.z| * (|b.x| * |c.y| + |b.y| * |c.x|) = X1 at *
  generalize |b.z| * (|c.x| * |a.y| + |c.y| * |a.x|) = X2 at *
  generalize |c.z| * (|a.x| * |b.y| + |a.y| * |b.x|) = X3 at *
  have hX : X1 + X2 + X3 ≤ (1 + ε) * ((|w1| + |w2|) * |a.z| + (|w3| + |w4|) * |b.z| + (|w5| + |w6|) * |c.z|) := by linarith
  generalize (|w1| + |w2|) * |a.z| + (|w3| + |w4|) * |b.z| + (|w5| + |w6|) * |c.z| = W at *
  have hk : 0 ≤ 3 * ε ^ 2 + ε ^ 3 + ((1 + ε) ^ 7 - 1) * (3 * ε) := by
    have : 0 ≤ ((1 + ε) ^ 7 - 1) * (3 * ε) := mul_nonneg (by linarith) (by linarith)
    positivity
  have hf := mul_le_mul_of_nonneg_left hX hk
  have hD : |det3 (a + s) (b + t) (c + u) - (det3 a b c +
      ((a.z * ((b.x * u.y + c.y * t.x) - (b.y * u.x + c.x * t.y)) + s.z * (b.x * c.y - b.y * c.x)) +
      (b.z * ((c.x * s.y + a.y * u.x) - (c.y * s.x + a.x * u.y)) + t.z * (c.x * a.y - c.y * a.x)) +
      (c.z * ((a.x * t.y + b.y * s.x) - (a.y * t.x + b.x * s.y)) + u.z * (a.x * b.y - a.y * b.x))))| ≤
      (3 * ε ^ 2 + ε ^ 3) * (X1 + X2 + X3) := by
    have a1 := (abs_add_three _ _ _).trans (add_le_add (add_le_add m1 m2) m3)
    refine le_trans (le_of_eq ?_) (a1.trans (le_of_eq (by ring)))
    congr 1
    simp only [det3, P3.add_x, P3.add_y, P3.add_z]
    ring
  refine (add_le_add hD t4).trans ?_
  rw [show (5 + 1 + 1 : ℕ) = 7 from rfl]
  linarith

/-- The value of the determinant, for the second test. -/
theorem second_bound {p : Nat} (hp : 1 ≤ p) (a b c : P3 K) :
    |det3 a b c - det3 ⟨roundBits p a.x, roundBits p a.y, roundBits p a.z⟩ ⟨roundBits p b.x, roundBits p b.y, roundBits p b.z⟩
        ⟨roundBits p c.x, roundBits p c.y, roundBits p c.z⟩| ≤
      ((2 / 2 ^ p + (1 / 2 ^ p) ^ 2) * (1 / 2 ^ p + 1) + (1 + 1 / 2 ^ p) * (1 / 2 ^ p)) *
      permSum p ⟨roundBits p a.x, roundBits p a.y, roundBits p a.z⟩ ⟨roundBits p b.x, roundBits p b.y, roundBits p b.z⟩
        ⟨roundBits p c.x, roundBits p c.y, roundBits p c.z⟩ := by
  have h (x y x' y' z : K) := Appr.mul (by positivity) (by positivity)
    ((Appr.prod (p := p) hp x y).sub (Appr.prod hp x' y')) (Appr.diff hp z)
  have h1 := (((h b.x c.y c.x b.y a.z).add (h c.x a.y a.x c.y b.z)).add (h a.x b.y b.x a.y c.z)).near
  unfold permSum det3
  simp only
  refine le_trans (le_of_eq ?_) h1
  congr 1
  ring

theorem permSum_up {p : Nat} (hp : 1 ≤ p) (a b c : P3 K) : Up p 4 (permSum p a b c)
    (roundBits p (roundBits p (roundBits p (roundBits p (|roundBits p (b.x * c.y)| + |roundBits p (c.x * b.y)|) * |a.z|) +
      roundBits p (roundBits p (|roundBits p (c.x * a.y)| + |roundBits p (a.x * c.y)|) * |b.z|)) +
      roundBits p (roundBits p (|roundBits p (a.x * b.y)| + |roundBits p (b.x * a.y)|) * |c.z|))) := by
  have h (x y z : K) := Up.mul hp (abs_nonneg z) (Up.add hp (Up.abs (p := p) x) (Up.abs y)) (Up.abs z)
  exact ((h _ _ _).add hp (h _ _ _)).add hp ((h _ _ _).mono (by norm_num))

/-- `orient3dadapt` with the differences and their tails. -/
def orient3dCore (p : Nat) (ad bd cd s t u : P3 K) (P : K) : Res K :=
  match sumInto (roundBits p) true 192 (sumInto (roundBits p) true 16
    (scaleInto (roundBits p) (exactConsts K p).splitter 8
      (prodDiff (roundBits p) (exactConsts K p).splitter bd.x cd.y cd.x bd.y) ad.z)
    (scaleInto (roundBits p) (exactConsts K p).splitter 8
      (prodDiff (roundBits p) (exactConsts K p).splitter cd.x ad.y ad.x cd.y) bd.z))
    (scaleInto (roundBits p) (exactConsts K p).splitter 8
      (prodDiff (roundBits p) (exactConsts K p).splitter ad.x bd.y bd.x ad.y) cd.z) with
  | .error x => .error x
  | .ok fin1 =>
  match estimate (roundBits p) fin1 with
  | .error x => .error x
  | .ok det =>
  if det ≥ roundBits p ((exactConsts K p).o3derrboundB * P) ∨ -det ≥ roundBits p ((exactConsts K p).o3derrboundB * P) then
    .ok det
  else
    if s.x = 0 ∧ t.x = 0 ∧ u.x = 0 ∧ s.y = 0 ∧ t.y = 0 ∧ u.y = 0 ∧ s.z = 0 ∧ t.z = 0 ∧ u.z = 0 then .ok det
    else
      let errbound := roundBits p (roundBits p ((exactConsts K p).o3derrboundC * P) +
        roundBits p ((exactConsts K p).resulterrbound * absolute det))
      let det := roundBits p (det + roundBits p (roundBits p
        (tailTerm (roundBits p) ad.z s.z bd.x bd.y t.x t.y cd.x cd.y u.x u.y +
        tailTerm (roundBits p) bd.z t.z cd.x cd.y u.x u.y ad.x ad.y s.x s.y) +
        tailTerm (roundBits p) cd.z u.z ad.x ad.y s.x s.y bd.x bd.y t.x t.y))
      if det ≥ errbound ∨ -det ≥ errbound then .ok det
      else orient3dAdaptD (roundBits p) true (exactConsts K p).splitter (.ok fin1)
        (prodDiff (roundBits p) (exactConsts K p).splitter bd.x cd.y cd.x bd.y)
        (prodDiff (roundBits p) (exactConsts K p).splitter cd.x ad.y ad.x cd.y)
        (prodDiff (roundBits p) (exactConsts K p).splitter ad.x bd.y bd.x ad.y) ad bd cd s t u

theorem orient3dCore_sign {p : Nat} (hp : 10 ≤ p) {ad bd cd s t u : P3 K} (ha : FloatPoint3 p ad) (hb : FloatPoint3 p bd)
    (hc : FloatPoint3 p cd) (hs : FloatPoint3 p s) (ht : FloatPoint3 p t) (hu : FloatPoint3 p u) {P : K}
    (ta : Tails (1 / 2 ^ p) ad s) (tb : Tails (1 / 2 ^ p) bd t) (tc : Tails (1 / 2 ^ p) cd u)
    (hP : Up p 4 (permSum p ad bd cd) P)
    (hB : |det3 (ad + s) (bd + t) (cd + u) - det3 ad bd cd| ≤
      ((2 / 2 ^ p + (1 / 2 ^ p) ^ 2) * (1 / 2 ^ p + 1) + (1 + 1 / 2 ^ p) * (1 / 2 ^ p)) * permSum p ad bd cd) :
    ∃ d, orient3dCore p ad bd cd s t u P = .ok d ∧ SignType.sign d = SignType.sign (det3 (ad + s) (bd + t) (cd + u)) := by
  have hp1 : 1 ≤ p := by omega
  have hp6 : 6 ≤ p := by omega
  have ε0 : (0 : K) < 1 / 2 ^ p := by positivity
  have ε1 := eps_small (K := K) hp
  have bc := Holds.prodDiff hp6 hb.1 hc.2.1 hc.1 hb.2.1
  have ca := Holds.prodDiff hp6 hc.1 ha.2.1 ha.1 hc.2.1
  have ab := Holds.prodDiff hp6 ha.1 hb.2.1 hb.1 ha.2.1
  have fin := (HoldsL.sum hp6 (HoldsL.sum hp6 (bc.scale hp6 ha.2.2 (k := 8) le_rfl) (ca.scale hp6 hb.2.2 (k := 8) le_rfl)
    (k := 16) le_rfl).toHolds (ab.scale hp6 hc.2.2 (k := 8) le_rfl) (k := 192) (by norm_num)).toHolds.val
    (w := det3 ad bd cd) (by unfold det3; ring)
  have fin0 := fin
  obtain ⟨h, h1, h2, -, h4, h5, h6⟩ := fin
  rw [h1] at fin0
  obtain ⟨det, d1, -, d3⟩ := estimate_near (by omega) h2 h4 h5
  unfold orient3dCore
  rw [h1]
  simp only
  rw [d1]
  simp only
  rw [h6] at d3
  have pw := fun k => pow_small ε0.le ε1 k
  have hbpos : 0 ≤ (exactConsts K p).o3derrboundB := by simp only [exactConsts]; positivity
  have hcpos : 0 ≤ (exactConsts K p).o3derrboundC := by simp only [exactConsts]; positivity
  have hκ : 20 / 7 * (1 / 2 ^ p) < (1 : K) := by linarith
  split_ifs with hB1 hB2 hB3
  · refine ⟨det, rfl, ?_⟩
    rw [ge_or_iff (roundBits_nonneg p (mul_nonneg hbpos hP.pos))] at hB1
    refine sign_second hp1 (by positivity) hbpos (by norm_num) hκ hB hP d3 ?_ hB1
    simp only [exactConsts]
    have e2 : (2 / 2 ^ p : K) = 2 * (1 / 2 ^ p) := by ring
    rw [e2]
    generalize (1 / 2 ^ p : K) = ε at *
    have k2 : 0 < ε ^ 2 := by positivity
    have k3 : 0 < ε ^ 3 := by positivity
    have := pw 2; have := pw 3; have := pw 4; have := pw 5; have := pw 6; have := pw 7; have := pw 8; have := pw 9
    linarith
  · refine ⟨det, rfl, ?_⟩
    obtain ⟨z1, z2, z3, z4, z5, z6, z7, z8, z9⟩ := hB2
    have : det3 (ad + s) (bd + t) (cd + u) = det3 ad bd cd := by
      simp only [det3, P3.add_x, P3.add_y, P3.add_z, z1, z2, z3, z4, z5, z6, z7, z8, z9, add_zero]
    rw [this]
    exact (sign_of_rel hκ d3).symm
  · refine ⟨_, rfl, ?_⟩
    have hrpos : 0 ≤ (exactConsts K p).resulterrbound * absolute det := by
      rw [absolute_eq]; simp only [exactConsts]; positivity
    rw [ge_or_iff (roundBits_nonneg p (add_nonneg (roundBits_nonneg p (mul_nonneg hcpos hP.pos))
      (roundBits_nonneg p hrpos))), absolute_eq] at hB3
    have hC := third_bound hp1 ta tb tc
    have p7 := one_le_eps (K := K) p 7
    have hk : (0 : K) ≤ (3 * (1 / 2 ^ p) ^ 2 + (1 / 2 ^ p) ^ 3 + ((1 + 1 / 2 ^ p) ^ 7 - 1) * (3 * (1 / 2 ^ p))) *
        (1 + 1 / 2 ^ p) := by
      have : (0 : K) ≤ ((1 + 1 / 2 ^ p) ^ 7 - 1) * (3 * (1 / 2 ^ p)) := mul_nonneg (by linarith) (by positivity)
      positivity
    have hC2 := hC.trans (mul_le_mul_of_nonneg_left hP.le hk)
    rw [← mul_assoc] at hC2
    refine sign_third hp hcpos hP.pos hC2 ?_ d3 ?_ hB3
    · simp only [exactConsts]
      clear hC2 hC hk hB3 hB
      generalize (1 / 2 ^ p : K) = ε at *
      have k2 : 0 < ε ^ 2 := by positivity
      have k3 : 0 < ε ^ 3 := by positivity
      have := pw 2; have := pw 3; have := pw 4; have := pw 5; have := pw 6; have := pw 7; have := pw 8; have := pw 9
      have := pw 10; have := pw 11; have := pw 12; have := pw 13
      linarith
    · simp only [exactConsts]
      generalize (1 / 2 ^ p : K) = ε at *
      have k2 : 0 < ε ^ 2 := by positivity
      have k3 : 0 < ε ^ 3 := by positivity
      linarith
  · obtain ⟨d, q1, -, q2⟩ := orient3dAdaptD_sign hp6 ha hb hc hs ht hu fin0 bc ca ab
    exact ⟨d, q1, q2⟩

theorem orient3dAdapt_eq {p : Nat} (hp : 3 ≤ p) {pa pb pc pd : P3 K} (ha : FloatPoint3 p pa) (hb : FloatPoint3 p pb)
    (hc : FloatPoint3 p pc) (hd : FloatPoint3 p pd) (P : K) :
    orient3dAdapt (roundBits p) true (exactConsts K p) pa pb pc pd P =
      orient3dCore p ⟨roundBits p (pa.x - pd.x), roundBits p (pa.y - pd.y), roundBits p (pa.z - pd.z)⟩
        ⟨roundBits p (pb.x - pd.x), roundBits p (pb.y - pd.y), roundBits p (pb.z - pd.z)⟩
        ⟨roundBits p (pc.x - pd.x), roundBits p (pc.y - pd.y), roundBits p (pc.z - pd.z)⟩
        ⟨pa.x - pd.x - roundBits p (pa.x - pd.x), pa.y - pd.y - roundBits p (pa.y - pd.y),
          pa.z - pd.z - roundBits p (pa.z - pd.z)⟩
        ⟨pb.x - pd.x - roundBits p (pb.x - pd.x), pb.y - pd.y - roundBits p (pb.y - pd.y),
          pb.z - pd.z - roundBits p (pb.z - pd.z)⟩
        ⟨pc.x - pd.x - roundBits p (pc.x - pd.x), pc.y - pd.y - roundBits p (pc.y - pd.y),
          pc.z - pd.z - roundBits p (pc.z - pd.z)⟩ P := by
  unfold orient3dAdapt
  simp only
  rw [twoDiffTail_eq hp ha.1 hd.1, twoDiffTail_eq hp hb.1 hd.1, twoDiffTail_eq hp hc.1 hd.1,
    twoDiffTail_eq hp ha.2.1 hd.2.1, twoDiffTail_eq hp hb.2.1 hd.2.1, twoDiffTail_eq hp hc.2.1 hd.2.1,
    twoDiffTail_eq hp ha.2.2 hd.2.2, twoDiffTail_eq hp hb.2.2 hd.2.2, twoDiffTail_eq hp hc.2.2 hd.2.2]
  unfold orient3dCore
  simp only
  generalize sumInto (roundBits p : K → K) true 192 (sumInto (roundBits p : K → K) true 16 _ _) _ = f
  rcases f with f | f
  · rfl
  · rfl

theorem orient3dAdapt_sign {p : Nat} (hp : 10 ≤ p) {pa pb pc pd : P3 K} (ha : FloatPoint3 p pa) (hb : FloatPoint3 p pb)
    (hc : FloatPoint3 p pc) (hd : FloatPoint3 p pd) {P : K}
    (hP : Up p 4 (permSum p ⟨roundBits p (pa.x - pd.x), roundBits p (pa.y - pd.y), roundBits p (pa.z - pd.z)⟩
      ⟨roundBits p (pb.x - pd.x), roundBits p (pb.y - pd.y), roundBits p (pb.z - pd.z)⟩
      ⟨roundBits p (pc.x - pd.x), roundBits p (pc.y - pd.y), roundBits p (pc.z - pd.z)⟩) P) :
    ∃ d, orient3dAdapt (roundBits p) true (exactConsts K p) pa pb pc pd P = .ok d ∧
      SignType.sign d = SignType.sign (det3 (pa - pd) (pb - pd) (pc - pd)) := by
  have hp1 : 1 ≤ p := by omega
  have hB := second_bound hp1 (pa - pd) (pb - pd) (pc - pd)
  simp only [P3.sub_x, P3.sub_y, P3.sub_z] at hB
  have fr (x : K) : IsFloat p (roundBits p x) := roundBits_isFloat hp1 x
  have key (a b : P3 K) : (⟨roundBits p (a.x - b.x), roundBits p (a.y - b.y), roundBits p (a.z - b.z)⟩ : P3 K) +
      ⟨a.x - b.x - roundBits p (a.x - b.x), a.y - b.y - roundBits p (a.y - b.y), a.z - b.z - roundBits p (a.z - b.z)⟩ =
      a - b := by
    ext
    · simp only [P3.add_x, P3.sub_x, add_sub_cancel]
    · simp only [P3.add_y, P3.sub_y, add_sub_cancel]
    · simp only [P3.add_z, P3.sub_z, add_sub_cancel]
  have := orient3dCore_sign hp (P := P) ⟨fr _, fr _, fr _⟩ ⟨fr _, fr _, fr _⟩ ⟨fr _, fr _, fr _⟩
    ⟨diff_err_isFloat hp1 ha.1 hd.1, diff_err_isFloat hp1 ha.2.1 hd.2.1, diff_err_isFloat hp1 ha.2.2 hd.2.2⟩
    ⟨diff_err_isFloat hp1 hb.1 hd.1, diff_err_isFloat hp1 hb.2.1 hd.2.1, diff_err_isFloat hp1 hb.2.2 hd.2.2⟩
    ⟨diff_err_isFloat hp1 hc.1 hd.1, diff_err_isFloat hp1 hc.2.1 hd.2.1, diff_err_isFloat hp1 hc.2.2 hd.2.2⟩
    ⟨roundBits_rel hp1 _, roundBits_rel hp1 _, roundBits_rel hp1 _⟩
    ⟨roundBits_rel hp1 _, roundBits_rel hp1 _, roundBits_rel hp1 _⟩
    ⟨roundBits_rel hp1 _, roundBits_rel hp1 _, roundBits_rel hp1 _⟩ hP (by rw [key, key, key]; exact hB)
  rw [key, key, key] at this
  rw [orient3dAdapt_eq (by omega) ha hb hc hd]
  exact this

/-- The sign of the adaptive orientation test in space is that of the exact determinant. -/
theorem orient3d_sign {p : Nat} (hp : 10 ≤ p) {pa pb pc pd : P3 K} (ha : FloatPoint3 p pa) (hb : FloatPoint3 p pb)
    (hc : FloatPoint3 p pc) (hd : FloatPoint3 p pd) :
    ∃ d, orient3d (roundBits p) true (exactConsts K p) pa pb pc pd = .ok d ∧
      SignType.sign d = SignType.sign (det3 (pa - pd) (pb - pd) (pc - pd)) := by
  have hp1 : 1 ≤ p := by omega
  have ε0 : (0 : K) < 1 / 2 ^ p := by positivity
  have ε1 := eps_small (K := K) hp
  have hP := permSum_up hp1 (⟨roundBits p (pa.x - pd.x), roundBits p (pa.y - pd.y), roundBits p (pa.z - pd.z)⟩ : P3 K)
      ⟨roundBits p (pb.x - pd.x), roundBits p (pb.y - pd.y), roundBits p (pb.z - pd.z)⟩
      ⟨roundBits p (pc.x - pd.x), roundBits p (pc.y - pd.y), roundBits p (pc.z - pd.z)⟩
  have hA := orient3dAdapt_sign hp ha hb hc hd hP
  have m (x y x' y' z : K) := ((Near.diff (p := p) hp1 z).mul hp1 ((Near.prod hp1 x y).sub hp1 (Near.prod hp1 x' y')))
  have h1 := ((m (pb.x - pd.x) (pc.y - pd.y) (pc.x - pd.x) (pb.y - pd.y) (pa.z - pd.z)).add hp1
    (m (pc.x - pd.x) (pa.y - pd.y) (pa.x - pd.x) (pc.y - pd.y) (pb.z - pd.z))).addE
    ((m (pa.x - pd.x) (pb.y - pd.y) (pb.x - pd.x) (pa.y - pd.y) (pc.z - pd.z)).mono (by norm_num))
  have hapos : 0 ≤ (exactConsts K p).o3derrboundA := by simp only [exactConsts]; positivity
  have h2 := sign_first hp1 h1 hapos (by
    simp only [exactConsts]
    have pw := fun k => pow_small ε0.le ε1 k
    clear hP hA m h1
    generalize (1 / 2 ^ p : K) = ε at *
    have k2 : 0 < ε ^ 2 := by positivity
    have k3 : 0 < ε ^ 3 := by positivity
    have := pw 2; have := pw 3; have := pw 4; have := pw 5; have := pw 6; have := pw 7; have := pw 8; have := pw 9
    norm_num
    linarith)
  unfold orient3d
  simp only [absolute_eq]
  split_ifs with h
  · refine ⟨_, rfl, ?_⟩
    rw [show det3 (pa - pd) (pb - pd) (pc - pd) = (pa.z - pd.z) * ((pb.x - pd.x) * (pc.y - pd.y) -
      (pc.x - pd.x) * (pb.y - pd.y)) + (pb.z - pd.z) * ((pc.x - pd.x) * (pa.y - pd.y) - (pa.x - pd.x) * (pc.y - pd.y)) +
      (pc.z - pd.z) * ((pa.x - pd.x) * (pb.y - pd.y) - (pb.x - pd.x) * (pa.y - pd.y)) by
        simp only [det3, P3.sub_x, P3.sub_y, P3.sub_z]
        ring]
    refine h2 ?_
    rw [lt_abs]
    simp only [mul_comm _ |roundBits p (pa.z - pd.z)|, mul_comm _ |roundBits p (pb.z - pd.z)|,
      mul_comm _ |roundBits p (pc.z - pd.z)|] at h
    exact h
  · exact hA

theorem sumInto_no_slack (fl : K → K) (n : Nat) (e f : Res (List K)) : ∃ x, sumInto fl false n e f = .error x := by
  unfold sumInto
  rcases e with x | e
  · exact ⟨x, rfl⟩
  rcases f with x | f
  · exact ⟨x, rfl⟩
  simp only [fastExpansionSumZ, fastExpansionSum_no_slack, into]
  exact ⟨_, rfl⟩

theorem orient3dAdapt_no_slack (fl : K → K) (c : ExactConsts K) (pa pb pc pd : P3 K) (P : K) :
    ∃ x, orient3dAdapt fl false c pa pb pc pd P = .error x := by
  unfold orient3dAdapt
  simp only
  generalize scaleInto fl c.splitter 8 (prodDiff fl c.splitter (fl (pa.x - pd.x)) _ _ _) _ = f
  generalize sumInto fl false 16 _ _ = g
  obtain ⟨x, hx⟩ := sumInto_no_slack fl 192 g f
  rw [hx]
  exact ⟨x, rfl⟩

/-- If nothing may be read behind the arrays, then what `orient3d` returns is what the first test lets pass. -/
theorem orient3d_no_slack {p : Nat} {c : ExactConsts K} (hc : 0 ≤ c.o3derrboundA) {pa pb pc pd : P3 K} {r : K}
    (h : orient3d (roundBits p) false c pa pb pc pd = .ok r) :
    orient3d (roundBits p) true c pa pb pc pd = .ok r ∧ r ≠ 0 := by
  unfold orient3d at h ⊢
  simp only [absolute_eq] at h ⊢
  split_ifs at h ⊢ with h1
  · refine ⟨h, ?_⟩
    rw [Except.ok.injEq] at h
    rw [← h]
    intro h0
    rw [h0, neg_zero, or_self] at h1
    exact absurd h1 (not_lt.mpr (roundBits_nonneg p (mul_nonneg hc (by repeat (first | exact roundBits_nonneg p (by positivity) | apply roundBits_nonneg | apply add_nonneg | apply mul_nonneg | exact abs_nonneg _)))))
  · obtain ⟨x, hx⟩ := orient3dAdapt_no_slack (roundBits p) c pa pb pc pd _
    rw [hx] at h
    exact absurd h (by simp)

end Geometrix
