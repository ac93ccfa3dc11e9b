import Verif.Lemmas.Estimate

/-!
The error bounds of the adaptive orientation test.
-/

set_option linter.unusedSectionVars false

namespace Geometrix

open Spec

section Bounds

variable {K : Type*} [Field K] [LinearOrder K] [IsStrictOrderedRing K]

theorem prod_pert {a b s t ε : K} (hs : |s| ≤ ε * |a|) (ht : |t| ≤ ε * |b|) :
    |(a + s) * (b + t) - a * b| ≤ (2 * ε + ε ^ 2) * |a * b| := by
  have e1 : (a + s) * (b + t) - a * b = a * t + s * b + s * t := by ring
  have h1 : |a * t + s * b + s * t| ≤ |a * t| + |s * b| + |s * t| :=
    (abs_add_le _ _).trans (add_le_add (abs_add_le _ _) le_rfl)
  rw [e1]
  refine h1.trans ?_
  rw [abs_mul, abs_mul, abs_mul, abs_mul]
  have k1 : |a| * |t| ≤ |a| * (ε * |b|) := by gcongr
  have k2 : |s| * |b| ≤ ε * |a| * |b| := by gcongr
  have k3 : |s| * |t| ≤ ε * |a| * (ε * |b|) := mul_le_mul hs ht (abs_nonneg _) ((abs_nonneg s).trans hs)
  linarith

/-- The first bound. -/
theorem stageA {ε P Q X Y dl dr det ds eb : K} (ε0 : 0 < ε) (ε1 : ε ≤ 1 / 64) (hX : |X - P| ≤ (2 * ε + ε ^ 2) * |P|)
    (hY : |Y - Q| ≤ (2 * ε + ε ^ 2) * |Q|) (hP : |P - dl| ≤ ε * |dl|) (hQ : |Q - dr| ≤ ε * |dr|)
    (hdet : |dl - dr - det| ≤ ε * |det|) (ds0 : 0 < ds) (hds : |dl| + |dr| ≤ (1 + ε) * ds)
    (heb : (3 + 16 * ε) * ε * ds ≤ (1 + ε) * eb) (hge : eb ≤ |det|) : |X - Y - det| < |det| := by
  have one (X P d : K) (h1 : |X - P| ≤ (2 * ε + ε ^ 2) * |P|) (h2 : |P - d| ≤ ε * |d|) :
      |X - d| ≤ (3 * ε + 3 * ε ^ 2 + ε ^ 3) * |d| := by
    have k1 : |P| ≤ (1 + ε) * |d| := by
      have := abs_add_le (P - d) d
      rw [sub_add_cancel] at this
      linarith
    have k2 : |X - d| ≤ |X - P| + |P - d| := by
      have := abs_add_le (X - P) (P - d)
      rwa [sub_add_sub_cancel] at this
    have k3 : (2 * ε + ε ^ 2) * |P| ≤ (2 * ε + ε ^ 2) * ((1 + ε) * |d|) := by gcongr
    linarith
  have h1 := one X P dl hX hP
  have h2 := one Y Q dr hY hQ
  have h3 : |X - Y - det| ≤ |X - dl| + |Y - dr| + |dl - dr - det| := by
    have a1 := abs_add_le (X - dl - (Y - dr)) (dl - dr - det)
    have a2 := abs_sub (X - dl) (Y - dr)
    rw [show X - dl - (Y - dr) + (dl - dr - det) = X - Y - det by ring] at a1
    linarith
  have h4 : (3 * ε + 3 * ε ^ 2 + ε ^ 3) * (|dl| + |dr|) ≤ (3 * ε + 3 * ε ^ 2 + ε ^ 3) * ((1 + ε) * ds) := by gcongr
  have h5 : (1 + ε) * eb ≤ (1 + ε) * |det| := by gcongr
  have h6 : (1 - ε) * ((3 + 16 * ε) * ε * ds) ≤ (1 - ε) * ((1 + ε) * |det|) :=
    mul_le_mul_of_nonneg_left (heb.trans h5) (by linarith)
  have h7 : (3 * ε + 3 * ε ^ 2 + ε ^ 3) * (1 + ε) ^ 2 < (1 - ε) * ((3 + 16 * ε) * ε) := by
    have : 0 < ε * ε * (4 - 26 * ε - 5 * (ε * ε) - ε * ε * ε) := by
      have a1 : ε * ε ≤ ε * (1 / 64) := by gcongr
      have a2 : ε * ε * ε ≤ ε * (1 / 64) * ε := by gcongr
      have : 0 < 4 - 26 * ε - 5 * (ε * ε) - ε * ε * ε := by linarith
      positivity
    linarith
  have h8 : (3 * ε + 3 * ε ^ 2 + ε ^ 3) * (1 + ε) ^ 2 * ds < (1 - ε) * ((3 + 16 * ε) * ε) * ds := by gcongr
  have h9 : (3 * ε + 3 * ε ^ 2 + ε ^ 3) * ((1 + ε) * ds) < (1 - ε) * |det| := by
    have : (1 + ε) * ((3 * ε + 3 * ε ^ 2 + ε ^ 3) * ((1 + ε) * ds)) < (1 + ε) * ((1 - ε) * |det|) := by linarith
    exact lt_of_mul_lt_mul_left this (by linarith)
  linarith

/-- The sum of the absolute values of the exact products. -/
theorem prods_le {ε P Q dl dr ds : K} (ε0 : 0 < ε) (hP : |P - dl| ≤ ε * |dl|) (hQ : |Q - dr| ≤ ε * |dr|)
    (hds : |dl| + |dr| ≤ (1 + ε) * ds) : |P| + |Q| ≤ (1 + ε) ^ 2 * ds := by
  have one (P d : K) (h2 : |P - d| ≤ ε * |d|) : |P| ≤ (1 + ε) * |d| := by
    have := abs_add_le (P - d) d
    rw [sub_add_cancel] at this
    linarith
  have h1 := one P dl hP
  have h2 := one Q dr hQ
  have h3 : (1 + ε) * (|dl| + |dr|) ≤ (1 + ε) * ((1 + ε) * ds) := by gcongr
  linarith

/-- The second bound. -/
theorem stageB {ε P Q X Y det ds eb : K} (ε0 : 0 < ε) (ε1 : ε ≤ 1 / 64) (hX : |X - P| ≤ (2 * ε + ε ^ 2) * |P|)
    (hY : |Y - Q| ≤ (2 * ε + ε ^ 2) * |Q|) (hPQ : |P| + |Q| ≤ (1 + ε) ^ 2 * ds) (ds0 : 0 < ds)
    (hdet : |det - (P - Q)| ≤ 2 * ε * |P - Q|) (heb : (2 + 12 * ε) * ε * ds ≤ (1 + ε) * eb) (hge : eb ≤ |det|) :
    |X - Y - (P - Q)| < |P - Q| := by
  have h1 : |X - Y - (P - Q)| ≤ |X - P| + |Y - Q| := by
    have := abs_sub (X - P) (Y - Q)
    rwa [show X - P - (Y - Q) = X - Y - (P - Q) by ring] at this
  have h2 : |det| ≤ (1 + 2 * ε) * |P - Q| := by
    have := abs_add_le (det - (P - Q)) (P - Q)
    rw [sub_add_cancel] at this
    linarith
  have h3 : (1 + ε) * eb ≤ (1 + ε) * ((1 + 2 * ε) * |P - Q|) := by
    have := hge.trans h2
    gcongr
  have h4 : (2 * ε + ε ^ 2) * (|P| + |Q|) ≤ (2 * ε + ε ^ 2) * ((1 + ε) ^ 2 * ds) := by gcongr
  have h5 : (2 * ε + ε ^ 2) * (1 + ε) ^ 2 * ((1 + ε) * (1 + 2 * ε)) < (2 + 12 * ε) * ε := by
    -- `(2 + ε) (1 + ε) ^ 3 (1 + 2 ε) < 2 + 12 ε`
    have a1 : ε * ε ≤ ε * (1 / 64) := by gcongr
    have a2 : ε * ε * ε ≤ ε * (1 / 64) * (1 / 64) := by gcongr
    have a3 : ε * ε * ε * ε ≤ ε * (1 / 64) * (1 / 64) * (1 / 64) := by gcongr
    have a4 : ε * ε * ε * ε * ε ≤ ε * (1 / 64) * (1 / 64) * (1 / 64) * (1 / 64) := by gcongr
    have : 0 < ε * ((2 + 12 * ε) - (2 + ε) * ((1 + ε) ^ 3 * (1 + 2 * ε))) := by
      have : 0 < (2 + 12 * ε) - (2 + ε) * ((1 + ε) ^ 3 * (1 + 2 * ε)) := by
        have e1 : (2 + 12 * ε) - (2 + ε) * ((1 + ε) ^ 3 * (1 + 2 * ε)) =
            ε - 23 * (ε * ε) - 23 * (ε * ε * ε) - 11 * (ε * ε * ε * ε) - 2 * (ε * ε * ε * ε * ε) := by ring
        rw [e1]
        linarith
      positivity
    linarith
  have h6 : (2 * ε + ε ^ 2) * (1 + ε) ^ 2 * ((1 + ε) * (1 + 2 * ε)) * ds < (2 + 12 * ε) * ε * ds := by gcongr
  have h7 : (2 * ε + ε ^ 2) * ((1 + ε) ^ 2 * ds) < |P - Q| := by
    have : (1 + ε) * (1 + 2 * ε) * ((2 * ε + ε ^ 2) * ((1 + ε) ^ 2 * ds)) < (1 + ε) * (1 + 2 * ε) * |P - Q| := by linarith
    exact lt_of_mul_lt_mul_left this (by positivity)
  linarith

/-- The third bound. -/
theorem stageC {ε P Q S T1 T2 t det det' ds e1 e2 eb : K} (ε0 : 0 < ε) (ε1 : ε ≤ 1 / 64)
    (hPQ : |P| + |Q| ≤ (1 + ε) ^ 2 * ds) (ds0 : 0 < ds) (hdet : |det - S| ≤ 2 * ε * |S|)
    (ht : |t - T1| ≤ ((1 + ε) ^ 3 - 1) * (2 * ε * (|P| + |Q|))) (hT2 : |T2| ≤ ε ^ 2 * (|P| + |Q|))
    (hdet' : |det + t - det'| ≤ ε * |det'|) (he1 : (9 + 64 * ε) * ε * ε * ds ≤ (1 + ε) * e1)
    (he2 : (3 + 8 * ε) * ε * |det| ≤ (1 + ε) * e2) (heb : e1 + e2 ≤ (1 + ε) * eb) (hge : eb ≤ |det'|) :
    |S + T1 + T2 - det'| < |det'| := by
  set N := |P| + |Q|
  have h1 : |S + T1 + T2 - det'| ≤ |det - S| + |t - T1| + |T2| + |det + t - det'| := by
    have a1 := abs_sub (T2 + (det + t - det')) (det - S + (t - T1))
    have a2 := abs_add_le T2 (det + t - det')
    have a3 := abs_add_le (det - S) (t - T1)
    rw [show T2 + (det + t - det') - (det - S + (t - T1)) = S + T1 + T2 - det' by ring] at a1
    linarith
  -- the estimate
  have h2 : |det - S| ≤ 5 / 2 * ε * |det| := by
    have a1 : |S| ≤ |det| + |det - S| := by
      have := abs_sub det (det - S)
      rwa [sub_sub_cancel] at this
    have a2 : 2 * ε * |S| ≤ 2 * (1 / 64) * |S| := by gcongr
    have a3 : |S| ≤ 32 / 31 * |det| := by linarith
    have a4 : 2 * ε * |S| ≤ 2 * ε * (32 / 31 * |det|) := by gcongr
    have a5 : 0 ≤ ε * |det| := by positivity
    linarith
  have hds' : (1 + ε) ^ 2 * ds ≤ (65 / 64) ^ 2 * ds := by
    have : (1 + ε) ^ 2 ≤ (65 / 64) ^ 2 := by
      have : 1 + ε ≤ 65 / 64 := by linarith
      gcongr
    gcongr
  have hN : N ≤ (65 / 64) ^ 2 * ds := hPQ.trans hds'
  have h3 : ((1 + ε) ^ 3 - 1) * (2 * ε * N) + ε ^ 2 * N ≤ 8 * (ε ^ 2 * ds) := by
    have a1 : (1 + ε) ^ 3 - 1 ≤ 4 * ε * (49 / 64) := by
      have e1 : (1 + ε) ^ 3 - 1 = 3 * ε + 3 * (ε * ε) + ε * ε * ε := by ring
      have b1 : ε * ε ≤ ε * (1 / 64) := by gcongr
      have b2 : ε * ε * ε ≤ ε * (1 / 64) * (1 / 64) := by gcongr
      rw [e1]; linarith
    have a2 : ((1 + ε) ^ 3 - 1) * (2 * ε * N) ≤ 4 * ε * (49 / 64) * (2 * ε * N) := by
      have : 0 ≤ N := by positivity
      gcongr
    have a3 : ε ^ 2 * N ≤ ε ^ 2 * ((65 / 64) ^ 2 * ds) := by gcongr
    have a4 : 0 < ε ^ 2 * ds := by positivity
    linarith
  have h4 : e1 + e2 ≤ 65 / 64 * |det'| := by
    have : (1 + ε) * eb ≤ (1 + ε) * |det'| := by gcongr
    have : (1 + ε) * |det'| ≤ 65 / 64 * |det'| := by
      have : 1 + ε ≤ 65 / 64 := by linarith
      gcongr
    linarith
  have h5 : (1 + ε) * (e1 + e2) ≤ 65 / 64 * (65 / 64 * |det'|) := by
    have a0 : 1 + ε ≤ 65 / 64 := by linarith
    have a1 : (1 + ε) * (e1 + e2) ≤ (1 + ε) * (65 / 64 * |det'|) := by gcongr
    have a2 : (1 + ε) * (65 / 64 * |det'|) ≤ 65 / 64 * (65 / 64 * |det'|) := by gcongr
    linarith
  have h6 : 9 * (ε ^ 2 * ds) ≤ (9 + 64 * ε) * ε * ε * ds := by
    have : 0 ≤ 64 * ε * (ε * ε * ds) := by positivity
    linarith
  have h7 : 3 * (ε * |det|) ≤ (3 + 8 * ε) * ε * |det| := by
    have : 0 ≤ 8 * ε * (ε * |det|) := by positivity
    linarith
  have h8 : 0 < ε ^ 2 * ds := by positivity
  have h9 : 0 ≤ ε * |det| := by positivity
  have h10 : ε * |det'| ≤ 1 / 64 * |det'| := by gcongr
  linarith

end Bounds

variable {K : Type*} [Field K] [LinearOrder K] [IsStrictOrderedRing K] [FloorRing K]

theorem sign_round {p : Nat} (hp : 1 ≤ p) (x : K) : SignType.sign (roundBits p x) = SignType.sign x := by
  by_cases hx : x = 0
  · rw [hx, roundBits_zero]
  · have h := roundBits_near p x
    have h2 : (1 : K) / 2 ^ p ≤ 1 / 2 := by
      apply one_div_le_one_div_of_le (by norm_num)
      have : (2 : K) ^ 1 ≤ 2 ^ p := pow_le_pow_right₀ (by norm_num) hp
      simpa using this
    refine sign_of_close (c := 1) le_rfl ?_
    have := abs_pos.2 hx
    nlinarith

theorem splitBits_half {p : Nat} (hp : 6 ≤ p) : SplitBits p ((p + 1) / 2) := ⟨by omega, by omega, by omega, by omega⟩

/-- A difference of two products as an expansion. -/
theorem prodDiff_spec {p : Nat} (hp : 6 ≤ p) {a b c d : K} (ha : IsFloat p a) (hb : IsFloat p b) (hc : IsFloat p c)
    (hd : IsFloat p d) :
    let u := twoTwoDiff (roundBits p) (twoProduct (roundBits p) (exactConsts K p).splitter a b)
      (twoProduct (roundBits p) (exactConsts K p).splitter c d)
    u.sum = a * b - c * d ∧ (∀ x ∈ u, IsFloat p x) ∧ u ≠ [] ∧ Nonadjacent u := by
  have hp1 : 1 ≤ p := by omega
  have s := splitBits_half hp
  simp only [exactConsts]
  rw [twoProduct_eq s ha hb, twoProduct_eq s hc hd]
  obtain ⟨h1, h2, h3, h4⟩ := twoTwoDiff_spec (p := p) (by omega) (a := (roundBits p (a * b), a * b - roundBits p (a * b)))
    (b := (roundBits p (c * d), c * d - roundBits p (c * d))) (roundBits_isFloat hp1 _) (prod_err_isFloat hp1 ha hb)
    (roundBits_isFloat hp1 _) (prod_err_isFloat hp1 hc hd)
  refine ⟨by rw [h1]; simp, h2, ?_, h4 (roundBits_wellBelow hp1 _) (roundBits_wellBelow hp1 _)⟩
  intro h
  rw [h] at h3
  simp at h3

/-- The exact determinant. -/
def orientDet (pa pb pc : P2 K) : K := (pa.x - pc.x) * (pb.y - pc.y) - (pa.y - pc.y) * (pb.x - pc.x)

theorem orient2dExact_sign {p : Nat} (hp : 6 ≤ p) {pa pb pc : P2 K} (ax : IsFloat p pa.x) (ay : IsFloat p pa.y)
    (bx : IsFloat p pb.x) (by' : IsFloat p pb.y) (cx : IsFloat p pc.x) (cy : IsFloat p pc.y) :
    ∃ d, orient2dExact (roundBits p) true (exactConsts K p) pa pb pc = .ok d ∧ |orientDet pa pb pc - d| ≤ 3 / 4 * |d| ∧
      SignType.sign d = SignType.sign (orientDet pa pb pc) := by
  obtain ⟨a1, a2, a3, a4⟩ := prodDiff_spec hp ax by' ax cy
  obtain ⟨b1, b2, b3, b4⟩ := prodDiff_spec hp bx cy bx ay
  obtain ⟨c1, c2, c3, c4⟩ := prodDiff_spec hp cx ay cx by'
  unfold orient2dExact
  simp only
  obtain ⟨v, v1, v2, v3, v4, -, v6, -⟩ := fastExpansionSumZ_spec hp a3 b3 a2 b2 a4.nearly b4.nearly
  rw [v1]
  obtain ⟨d, d1, d2, d3⟩ := lastOf_fastZ hp v4 c3 v3 c2 v6 c4.nearly
  have hsum : ∀ u : List K, u.sum = pc.x * pa.y - pc.x * pb.y → v.sum + u.sum = orientDet pa pb pc := by
    intro u hu
    rw [v2, a1, b1, hu, orientDet]
    ring
  rw [hsum _ c1] at d2 d3
  exact ⟨d, d1, d2, d3⟩

theorem orient2dAdaptD_sign {p : Nat} (hp : 6 ≤ p) {B : List K} {acx acy bcx bcy acxt acyt bcxt bcyt : K} (B0 : B ≠ [])
    (hB : ∀ x ∈ B, IsFloat p x) (nB : Nonadjacent B) (h1 : IsFloat p acx) (h2 : IsFloat p acy) (h3 : IsFloat p bcx)
    (h4 : IsFloat p bcy) (h5 : IsFloat p acxt) (h6 : IsFloat p acyt) (h7 : IsFloat p bcxt) (h8 : IsFloat p bcyt)
    (hs : B.sum = acx * bcy - acy * bcx) :
    ∃ d, orient2dAdaptD (roundBits p) true (exactConsts K p) B acx acy bcx bcy acxt acyt bcxt bcyt = .ok d ∧
      SignType.sign d = SignType.sign ((acx + acxt) * (bcy + bcyt) - (acy + acyt) * (bcx + bcxt)) := by
  obtain ⟨a1, a2, a3, a4⟩ := prodDiff_spec hp h5 h4 h6 h3
  obtain ⟨b1, b2, b3, b4⟩ := prodDiff_spec hp h1 h8 h2 h7
  obtain ⟨c1, c2, c3, c4⟩ := prodDiff_spec hp h5 h8 h6 h7
  unfold orient2dAdaptD
  simp only
  obtain ⟨v, v1, v2, v3, v4, -, v6, -⟩ := fastExpansionSumZ_spec hp B0 a3 hB a2 nB.nearly a4.nearly
  rw [v1]
  simp only
  obtain ⟨w, w1, w2, w3, w4, -, w6, -⟩ := fastExpansionSumZ_spec hp v4 b3 v3 b2 v6 b4.nearly
  rw [w1]
  obtain ⟨d, d1, -, d3⟩ := lastOf_fastZ hp w4 c3 w3 c2 w6 c4.nearly
  have hsum : ∀ u : List K, u.sum = acxt * bcyt - acyt * bcxt →
      w.sum + u.sum = (acx + acxt) * (bcy + bcyt) - (acy + acyt) * (bcx + bcxt) := by
    intro u hu
    rw [w2, v2, a1, b1, hu, hs]
    ring
  rw [hsum _ c1] at d3
  exact ⟨d, d1, d3⟩

theorem round_acc {p : Nat} {n : Nat} {ε x x' y y' X Y : K} (he : ε = 1 / 2 ^ p) (hx : |x| ≤ X) (hy : |y| ≤ Y)
    (hx' : |x' - x| ≤ ((1 + ε) ^ n - 1) * X) (hy' : |y' - y| ≤ ((1 + ε) ^ n - 1) * Y) :
    |roundBits p (x' + y') - (x + y)| ≤ ((1 + ε) ^ (n + 1) - 1) * (X + Y) := by
  have h1 := roundBits_near p (x' + y')
  rw [← he] at h1
  have ε0 : 0 ≤ ε := by rw [he]; positivity
  have h2 : |x' + y'| ≤ (1 + ε) ^ n * (X + Y) := by
    have a1 := abs_add_le (x' - x + (y' - y)) (x + y)
    have a2 := abs_add_le (x' - x) (y' - y)
    have a3 := abs_add_le x y
    rw [show x' - x + (y' - y) + (x + y) = x' + y' by ring] at a1
    linarith
  have h3 : |roundBits p (x' + y') - (x + y)| ≤ |roundBits p (x' + y') - (x' + y')| + (|x' - x| + |y' - y|) := by
    have a1 := abs_add_le (roundBits p (x' + y') - (x' + y')) (x' - x + (y' - y))
    have a2 := abs_add_le (x' - x) (y' - y)
    rw [show roundBits p (x' + y') - (x' + y') + (x' - x + (y' - y)) = roundBits p (x' + y') - (x + y) by ring] at a1
    linarith
  have h4 : ε * |x' + y'| ≤ ε * ((1 + ε) ^ n * (X + Y)) := by gcongr
  have e1 : (1 + ε) ^ (n + 1) = (1 + ε) ^ n * (1 + ε) := pow_succ _ _
  rw [e1]
  linarith

theorem round_le_of {p : Nat} (hp : 1 ≤ p) {x : K} (hx : 0 ≤ x) : x ≤ (1 + 1 / 2 ^ p) * roundBits p x := by
  have h := roundBits_rel hp x
  have h0 := roundBits_nonneg p hx
  rw [abs_of_nonneg h0] at h
  have := (abs_le.1 h).2
  linarith

theorem absolute_eq (x : K) : absolute x = |x| := by
  unfold absolute
  split_ifs with h
  · exact (abs_of_nonneg h).symm
  · exact (abs_of_neg (not_le.1 h)).symm

theorem ge_or_iff {x e : K} (he : 0 ≤ e) : (x ≥ e ∨ -x ≥ e) ↔ e ≤ |x| := by
  rw [le_abs, ge_iff_le, ge_iff_le]

theorem orient2dAdapt_sign {p : Nat} (hp : 6 ≤ p) {pa pb pc : P2 K} {ds : K} (ax : IsFloat p pa.x) (ay : IsFloat p pa.y)
    (bx : IsFloat p pb.x) (by' : IsFloat p pb.y) (cx : IsFloat p pc.x) (cy : IsFloat p pc.y) (ds0 : 0 < ds)
    (hds : |roundBits p (roundBits p (pa.x - pc.x) * roundBits p (pb.y - pc.y))| +
      |roundBits p (roundBits p (pa.y - pc.y) * roundBits p (pb.x - pc.x))| ≤ (1 + 1 / 2 ^ p) * ds) :
    ∃ d, orient2dAdapt (roundBits p) true (exactConsts K p) pa pb pc ds = .ok d ∧
      SignType.sign d = SignType.sign (orientDet pa pb pc) := by
  have hp1 : 1 ≤ p := by omega
  have hp3 : 3 ≤ p := by omega
  obtain ⟨ε, he⟩ : ∃ ε : K, ε = 1 / 2 ^ p := ⟨_, rfl⟩
  have ε0 : 0 < ε := by rw [he]; positivity
  have ε1 : ε ≤ 1 / 64 := by
    rw [he]
    apply one_div_le_one_div_of_le (by norm_num)
    have : (2 : K) ^ 6 ≤ 2 ^ p := pow_le_pow_right₀ (by norm_num) hp
    norm_num at this
    exact this
  have rel : ∀ x : K, |x - roundBits p x| ≤ ε * |roundBits p x| := fun x => by rw [he]; exact roundBits_rel hp1 x
  -- names
  obtain ⟨acx, hacx⟩ : ∃ x, x = roundBits p (pa.x - pc.x) := ⟨_, rfl⟩
  obtain ⟨bcx, hbcx⟩ : ∃ x, x = roundBits p (pb.x - pc.x) := ⟨_, rfl⟩
  obtain ⟨acy, hacy⟩ : ∃ x, x = roundBits p (pa.y - pc.y) := ⟨_, rfl⟩
  obtain ⟨bcy, hbcy⟩ : ∃ x, x = roundBits p (pb.y - pc.y) := ⟨_, rfl⟩
  obtain ⟨sx, hsx⟩ : ∃ x, x = pa.x - pc.x - acx := ⟨_, rfl⟩
  obtain ⟨tx, htx⟩ : ∃ x, x = pb.x - pc.x - bcx := ⟨_, rfl⟩
  obtain ⟨sy, hsy⟩ : ∃ x, x = pa.y - pc.y - acy := ⟨_, rfl⟩
  obtain ⟨ty, hty⟩ : ∃ x, x = pb.y - pc.y - bcy := ⟨_, rfl⟩
  have t1 : twoDiffTail (roundBits p) pa.x pc.x acx = sx := by rw [hsx, hacx]; exact twoDiffTail_eq hp3 ax cx
  have t2 : twoDiffTail (roundBits p) pb.x pc.x bcx = tx := by rw [htx, hbcx]; exact twoDiffTail_eq hp3 bx cx
  have t3 : twoDiffTail (roundBits p) pa.y pc.y acy = sy := by rw [hsy, hacy]; exact twoDiffTail_eq hp3 ay cy
  have t4 : twoDiffTail (roundBits p) pb.y pc.y bcy = ty := by rw [hty, hbcy]; exact twoDiffTail_eq hp3 by' cy
  have f1 : IsFloat p acx := hacx ▸ roundBits_isFloat hp1 _
  have f2 : IsFloat p bcx := hbcx ▸ roundBits_isFloat hp1 _
  have f3 : IsFloat p acy := hacy ▸ roundBits_isFloat hp1 _
  have f4 : IsFloat p bcy := hbcy ▸ roundBits_isFloat hp1 _
  have g1 : IsFloat p sx := by rw [hsx, hacx]; exact diff_err_isFloat hp1 ax cx
  have g2 : IsFloat p tx := by rw [htx, hbcx]; exact diff_err_isFloat hp1 bx cx
  have g3 : IsFloat p sy := by rw [hsy, hacy]; exact diff_err_isFloat hp1 ay cy
  have g4 : IsFloat p ty := by rw [hty, hbcy]; exact diff_err_isFloat hp1 by' cy
  have r1 : |sx| ≤ ε * |acx| := by rw [hsx, hacx]; exact rel _
  have r2 : |tx| ≤ ε * |bcx| := by rw [htx, hbcx]; exact rel _
  have r3 : |sy| ≤ ε * |acy| := by rw [hsy, hacy]; exact rel _
  have r4 : |ty| ≤ ε * |bcy| := by rw [hty, hbcy]; exact rel _
  have hD : orientDet pa pb pc = (acx + sx) * (bcy + ty) - (acy + sy) * (bcx + tx) := by
    rw [hsx, hty, hsy, htx, orientDet]; ring
  have hX := prod_pert r1 r4
  have hY := prod_pert r3 r2
  have hPQ : |acx * bcy| + |acy * bcx| ≤ (1 + ε) ^ 2 * ds := by
    rw [← hacx, ← hbcx, ← hacy, ← hbcy, ← he] at hds
    exact prods_le ε0 (rel _) (rel _) hds
  obtain ⟨b1, b2, b3, b4⟩ := prodDiff_spec hp f1 f4 f3 f2
  unfold orient2dAdapt
  simp only
  rw [← hacx, ← hbcx, ← hacy, ← hbcy]
  rw [t1, t2, t3, t4]
  generalize hB : twoTwoDiff (roundBits p) (twoProduct (roundBits p) (exactConsts K p).splitter acx bcy)
    (twoProduct (roundBits p) (exactConsts K p).splitter acy bcx) = B at b1 b2 b3 b4 ⊢
  obtain ⟨det, d1, -, d3⟩ := estimate_spec hp1 b3 b2 b4
  rw [d1]
  simp only
  rw [b1, ← he] at d3
  have hsign : SignType.sign det = SignType.sign (acx * bcy - acy * bcx) := by
    by_cases h0 : acx * bcy - acy * bcx = 0
    · rw [h0, abs_zero, mul_zero, sub_zero] at d3
      rw [h0, abs_eq_zero.1 (le_antisymm d3 (abs_nonneg _))]
    · refine sign_of_close (c := 1) le_rfl (d3.trans_lt ?_)
      have := abs_pos.2 h0
      gcongr
      linarith
  have hbpos : 0 ≤ (exactConsts K p).ccwerrboundB * ds := by
    simp only [exactConsts]; positivity
  split_ifs with hB1 hB2 hB3
  · -- the second bound
    refine ⟨det, rfl, ?_⟩
    rw [ge_or_iff (roundBits_nonneg p hbpos)] at hB1
    have hb := round_le_of hp1 hbpos
    simp only [exactConsts] at hb hB1
    rw [← he] at hb hB1
    have := stageB ε0 ε1 hX hY hPQ ds0 d3 hb hB1
    rw [hsign, hD]
    exact (sign_of_close (c := 1) le_rfl (by rwa [one_mul])).symm
  · -- no tails
    refine ⟨det, rfl, ?_⟩
    obtain ⟨z1, z2, z3, z4⟩ := hB2
    rw [hsign, hD, z1, z2, z3, z4]
    simp
  · -- the third bound
    refine ⟨_, rfl, ?_⟩
    have hcpos : 0 ≤ (exactConsts K p).ccwerrboundC * ds := by
      simp only [exactConsts]; positivity
    have hrpos : 0 ≤ (exactConsts K p).resulterrbound * absolute det := by
      rw [absolute_eq]; simp only [exactConsts]; positivity
    have hspos := add_nonneg (roundBits_nonneg p hcpos) (roundBits_nonneg p hrpos)
    rw [ge_or_iff (roundBits_nonneg p hspos)] at hB3
    have e1 := round_le_of hp1 hcpos
    have e2 := round_le_of hp1 hrpos
    have e3 := round_le_of hp1 hspos
    rw [absolute_eq] at e2 e3 hB3
    simp only [exactConsts] at e1 e2 e3 hB3
    rw [← he] at e1 e2 e3 hB3
    have m0 : ∀ a b : K, |roundBits p (a * b) - a * b| ≤ ((1 + ε) ^ 1 - 1) * |a * b| := fun a b => by
      have := roundBits_near p (a * b)
      rw [← he] at this
      rwa [pow_one, add_sub_cancel_left]
    have m1 := round_acc he le_rfl le_rfl (m0 acx ty) (m0 bcy sx)
    have m2 := round_acc he le_rfl le_rfl (m0 acy tx) (m0 bcx sy)
    have m2' : |(-roundBits p (roundBits p (acy * tx) + roundBits p (bcx * sy))) - (-(acy * tx + bcx * sy))| ≤
        ((1 + ε) ^ (1 + 1) - 1) * (|acy * tx| + |bcx * sy|) := by
      rw [neg_sub_neg, abs_sub_comm]
      exact m2
    have m3 := round_acc he (abs_add_le (acx * ty) (bcy * sx))
      (by rw [abs_neg]; exact abs_add_le (acy * tx) (bcx * sy)) m1 m2'
    rw [← sub_eq_add_neg] at m3
    have hle : |acx * ty| + |bcy * sx| + (|acy * tx| + |bcx * sy|) ≤ 2 * ε * (|acx * bcy| + |acy * bcx|) := by
      simp only [abs_mul]
      have k1 : |acx| * |ty| ≤ |acx| * (ε * |bcy|) := by gcongr
      have k2 : |bcy| * |sx| ≤ |bcy| * (ε * |acx|) := by gcongr
      have k3 : |acy| * |tx| ≤ |acy| * (ε * |bcx|) := by gcongr
      have k4 : |bcx| * |sy| ≤ |bcx| * (ε * |acy|) := by gcongr
      linarith
    have m4 := m3.trans (mul_le_mul_of_nonneg_left hle (by
      have : (1 : K) ≤ (1 + ε) ^ (1 + 1 + 1) := one_le_pow₀ (by linarith)
      linarith))
    have hT2 : |sx * ty - sy * tx| ≤ ε ^ 2 * (|acx * bcy| + |acy * bcx|) := by
      have a1 := abs_sub (sx * ty) (sy * tx)
      simp only [abs_mul] at a1 ⊢
      have k1 : |sx| * |ty| ≤ ε * |acx| * (ε * |bcy|) := mul_le_mul r1 r4 (abs_nonneg _) (by positivity)
      have k2 : |sy| * |tx| ≤ ε * |acy| * (ε * |bcx|) := mul_le_mul r3 r2 (abs_nonneg _) (by positivity)
      linarith
    have := stageC ε0 ε1 hPQ ds0 d3 m4 hT2 (rel _) e1 e2 e3 hB3
    rw [hD]
    refine (sign_of_close (c := 1) le_rfl ?_).symm
    rw [one_mul]
    refine lt_of_eq_of_lt ?_ this
    congr 1
    ring
  · -- exact
    obtain ⟨d, q1, q2⟩ := orient2dAdaptD_sign hp b3 b2 b4 f1 f3 f2 f4 g1 g3 g2 g4 b1
    exact ⟨d, q1, by rw [q2, hD]⟩

/-- The sign of the adaptive orientation test is that of the exact determinant. -/
theorem orient2d_sign {p : Nat} (hp : 6 ≤ p) {pa pb pc : P2 K} (ax : IsFloat p pa.x) (ay : IsFloat p pa.y)
    (bx : IsFloat p pb.x) (by' : IsFloat p pb.y) (cx : IsFloat p pc.x) (cy : IsFloat p pc.y) :
    ∃ d, orient2d (roundBits p) true (exactConsts K p) pa pb pc = .ok d ∧
      SignType.sign d = SignType.sign (orientDet pa pb pc) := by
  have hp1 : 1 ≤ p := by omega
  obtain ⟨ε, he⟩ : ∃ ε : K, ε = 1 / 2 ^ p := ⟨_, rfl⟩
  have ε0 : 0 < ε := by rw [he]; positivity
  have ε1 : ε ≤ 1 / 64 := by
    rw [he]
    apply one_div_le_one_div_of_le (by norm_num)
    have : (2 : K) ^ 6 ≤ 2 ^ p := pow_le_pow_right₀ (by norm_num) hp
    norm_num at this
    exact this
  have rel : ∀ x : K, |x - roundBits p x| ≤ ε * |roundBits p x| := fun x => by rw [he]; exact roundBits_rel hp1 x
  obtain ⟨dl, hdl⟩ : ∃ x, x = roundBits p (roundBits p (pa.x - pc.x) * roundBits p (pb.y - pc.y)) := ⟨_, rfl⟩
  obtain ⟨dr, hdr⟩ : ∃ x, x = roundBits p (roundBits p (pa.y - pc.y) * roundBits p (pb.x - pc.x)) := ⟨_, rfl⟩
  have sl : SignType.sign dl = SignType.sign ((pa.x - pc.x) * (pb.y - pc.y)) := by
    rw [hdl, sign_round hp1, sign_mul, sign_mul, sign_round hp1, sign_round hp1]
  have sr : SignType.sign dr = SignType.sign ((pa.y - pc.y) * (pb.x - pc.x)) := by
    rw [hdr, sign_round hp1, sign_mul, sign_mul, sign_round hp1, sign_round hp1]
  -- both products have the same sign
  have rest : ∀ s : K, 0 < s → |dl| + |dr| ≤ (1 + ε) * s →
      ∃ d, (if roundBits p (dl - dr) ≥ roundBits p ((exactConsts K p).ccwerrboundA * s) ∨
        -roundBits p (dl - dr) ≥ roundBits p ((exactConsts K p).ccwerrboundA * s) then Except.ok (roundBits p (dl - dr))
        else orient2dAdapt (roundBits p) true (exactConsts K p) pa pb pc s) = .ok d ∧
      SignType.sign d = SignType.sign (orientDet pa pb pc) := by
    intro s s0 hs
    have hapos : 0 ≤ (exactConsts K p).ccwerrboundA * s := by
      simp only [exactConsts]; positivity
    split_ifs with h
    · refine ⟨_, rfl, ?_⟩
      rw [ge_or_iff (roundBits_nonneg p hapos)] at h
      have ha := round_le_of hp1 hapos
      simp only [exactConsts] at ha h
      rw [← he] at ha h
      have hX := prod_pert (rel (pa.x - pc.x)) (rel (pb.y - pc.y))
      have hY := prod_pert (rel (pa.y - pc.y)) (rel (pb.x - pc.x))
      rw [add_sub_cancel, add_sub_cancel] at hX hY
      have := stageA ε0 ε1 hX hY (by rw [hdl]; exact rel _) (by rw [hdr]; exact rel _) (rel (dl - dr)) s0 hs ha h
      exact (sign_of_close (c := 1) le_rfl (by rwa [one_mul])).symm
    · exact orient2dAdapt_sign hp ax ay bx by' cx cy s0 (by rw [← hdl, ← hdr, ← he]; exact hs)
  unfold orient2d
  simp only
  rw [← hdl, ← hdr]
  unfold orientDet at *
  have sD : SignType.sign (roundBits p (dl - dr)) = SignType.sign (dl - dr) := sign_round hp1 _
  by_cases h1 : dl > 0
  · rw [if_pos h1]
    by_cases h2 : dr ≤ 0
    · rw [if_pos h2]
      refine ⟨_, rfl, ?_⟩
      rw [sD, sign_pos (by linarith)]
      rw [sign_pos h1] at sl
      have k1 := sign_eq_one_iff.1 sl.symm
      have k2 : (pa.y - pc.y) * (pb.x - pc.x) ≤ 0 := by
        by_contra hc
        push Not at hc
        rw [sign_pos hc] at sr
        have := sign_eq_one_iff.1 sr
        linarith
      rw [sign_pos (by linarith)]
    · rw [if_neg h2]
      push Not at h2
      have hs : 0 < dl + dr := by linarith
      have hpos : 0 < roundBits p (dl + dr) := by
        have := sign_round hp1 (dl + dr)
        rw [sign_pos hs] at this
        exact sign_eq_one_iff.1 this
      refine rest _ hpos ?_
      rw [abs_of_pos h1, abs_of_pos h2, he]
      exact round_le_of hp1 hs.le
  rw [if_neg h1]
  by_cases h3 : dl < 0
  · rw [if_pos h3]
    by_cases h4 : dr ≥ 0
    · rw [if_pos h4]
      refine ⟨_, rfl, ?_⟩
      rw [sD, sign_neg (by linarith)]
      rw [sign_neg h3] at sl
      have k1 := sign_eq_neg_one_iff.1 sl.symm
      have k2 : 0 ≤ (pa.y - pc.y) * (pb.x - pc.x) := by
        by_contra hc
        push Not at hc
        rw [sign_neg hc] at sr
        have := sign_eq_neg_one_iff.1 sr
        linarith
      rw [sign_neg (by linarith)]
    · rw [if_neg h4]
      push Not at h4
      have hs : 0 < -dl - dr := by linarith
      have hpos : 0 < roundBits p (-dl - dr) := by
        have := sign_round hp1 (-dl - dr)
        rw [sign_pos hs] at this
        exact sign_eq_one_iff.1 this
      refine rest _ hpos ?_
      rw [abs_of_neg h3, abs_of_neg h4, he, ← sub_eq_add_neg]
      exact round_le_of hp1 hs.le
  · rw [if_neg h3]
    refine ⟨_, rfl, ?_⟩
    have h0 : dl = 0 := le_antisymm (not_lt.1 h1) (not_lt.1 h3)
    rw [h0, sign_zero] at sl
    rw [sD, h0, sign_eq_zero_iff.1 sl.symm, zero_sub, zero_sub, Left.sign_neg, Left.sign_neg, sr]

theorem orient2dAdaptD_no_slack (fl : K → K) (c : ExactConsts K) (B : List K) (x1 x2 x3 x4 x5 x6 x7 x8 : K) :
    orient2dAdaptD fl false c B x1 x2 x3 x4 x5 x6 x7 x8 = .error .outOfRange := by
  simp only [orient2dAdaptD, fastExpansionSumZ, fastExpansionSum_no_slack]

theorem orient2dAdapt_slack {fl : K → K} {c : ExactConsts K} {pa pb pc : P2 K} {P r : K}
    (h : orient2dAdapt fl false c pa pb pc P = .ok r) : orient2dAdapt fl true c pa pb pc P = .ok r := by
  unfold orient2dAdapt at h ⊢
  simp only [orient2dAdaptD_no_slack] at h ⊢
  generalize estimate fl _ = e at h ⊢
  rcases e with e | e
  · simp at h
  · simp only at h ⊢
    split_ifs at h ⊢ <;> first | exact h | simp at h

/-- What is returned without reading behind an array is returned with it too. -/
theorem orient2d_slack {fl : K → K} {c : ExactConsts K} {pa pb pc : P2 K} {r : K}
    (h : orient2d fl false c pa pb pc = .ok r) : orient2d fl true c pa pb pc = .ok r := by
  unfold orient2d at h ⊢
  simp only at h ⊢
  split_ifs at h ⊢ <;> first | exact h | exact orient2dAdapt_slack h

/-- If the differences are exact, nothing is read behind an array. -/
theorem orient2d_exact_diff {p : Nat} (hp : 6 ≤ p) {c : ExactConsts K} {pa pb pc : P2 K}
    (ax : IsFloat p pa.x) (ay : IsFloat p pa.y)
    (bx : IsFloat p pb.x) (b_y : IsFloat p pb.y) (cx : IsFloat p pc.x) (cy : IsFloat p pc.y) (d1 : IsFloat p (pa.x - pc.x))
    (d2 : IsFloat p (pa.y - pc.y)) (d3 : IsFloat p (pb.x - pc.x)) (d4 : IsFloat p (pb.y - pc.y)) :
    ∃ r, orient2d (roundBits p) false c pa pb pc = .ok r := by
  have hp1 : 1 ≤ p := by omega
  have hp3 : 3 ≤ p := by omega
  have hA (P : K) : ∃ r, orient2dAdapt (roundBits p) false c pa pb pc P = .ok r := by
    unfold orient2dAdapt
    simp only [d1.round hp1, d2.round hp1, d3.round hp1, d4.round hp1]
    rw [show twoDiffTail (roundBits p) pa.x pc.x (pa.x - pc.x) = 0 by
        have := twoDiffTail_eq hp3 ax cx; rw [d1.round hp1] at this; rw [this, sub_self],
      show twoDiffTail (roundBits p) pa.y pc.y (pa.y - pc.y) = 0 by
        have := twoDiffTail_eq hp3 ay cy; rw [d2.round hp1] at this; rw [this, sub_self],
      show twoDiffTail (roundBits p) pb.x pc.x (pb.x - pc.x) = 0 by
        have := twoDiffTail_eq hp3 bx cx; rw [d3.round hp1] at this; rw [this, sub_self],
      show twoDiffTail (roundBits p) pb.y pc.y (pb.y - pc.y) = 0 by
        have := twoDiffTail_eq hp3 b_y cy; rw [d4.round hp1] at this; rw [this, sub_self]]
    obtain ⟨q, hq⟩ : ∃ q, estimate (roundBits p) (twoTwoDiff (roundBits p) (twoProduct (roundBits p) c.splitter (pa.x - pc.x) (pb.y - pc.y))
        (twoProduct (roundBits p) c.splitter (pa.y - pc.y) (pb.x - pc.x))) = .ok q := ⟨_, rfl⟩
    rw [hq]
    simp only [and_self, if_true]
    split_ifs <;> exact ⟨_, rfl⟩
  unfold orient2d
  simp only
  split_ifs <;> first | exact ⟨_, rfl⟩ | exact hA _

end Geometrix
