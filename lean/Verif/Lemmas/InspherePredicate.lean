import Verif.Lemmas.Insphere
import Verif.Spec.InspherePredicate

/-!
The sign of the adaptive test for spheres.
-/

set_option linter.unusedSectionVars false

namespace Geometrix

open Spec

variable {K : Type*} [Field K] [LinearOrder K] [IsStrictOrderedRing K] [FloorRing K]

theorem sphereForm_eq (a b c d e : P3 K) : sphereForm (a - e) (b - e) (c - e) (d - e) = sphereDet a b c d e := by
  simp only [sphereForm, dotXYZ, addThree, subThree, crossXY, sphereDet, det3, sqDist3, P3.sub_x, P3.sub_y, P3.sub_z]
  ring

theorem sphereAbs_eq (a b c d e : P3 K) : sphereAbs (a - e) (b - e) (c - e) (d - e) = sphereSize a b c d e := by
  simp only [sphereAbs, dotXYZ, addThree, crossAbs, sphereSize, detSize3, sqDist3, P3.sub_x, P3.sub_y, P3.sub_z]
  ring

theorem sphDiff_float {p : Nat} (hp : 1 ≤ p) (a e : P3 K) : FloatPoint3 p (sphDiff (roundBits p) a e) :=
  ⟨roundBits_isFloat hp _, roundBits_isFloat hp _, roundBits_isFloat hp _⟩

theorem sphTail_eq {p : Nat} (hp : 3 ≤ p) {a e : P3 K} (ha : FloatPoint3 p a) (he : FloatPoint3 p e) :
    sphTail (roundBits p) a e = (a - e) - sphDiff (roundBits p) a e := by
  unfold sphTail sphDiff
  rw [twoDiffTail_eq hp ha.1 he.1, twoDiffTail_eq hp ha.2.1 he.2.1, twoDiffTail_eq hp ha.2.2 he.2.2]
  ext <;> simp [P3.sub_x, P3.sub_y, P3.sub_z]

theorem sphDiff_add {p : Nat} (hp : 3 ≤ p) {a e : P3 K} (ha : FloatPoint3 p a) (he : FloatPoint3 p e) :
    sphDiff (roundBits p) a e + sphTail (roundBits p) a e = a - e := by
  rw [sphTail_eq hp ha he]
  ext <;> simp [P3.sub_x, P3.sub_y, P3.sub_z, P3.add_x, P3.add_y, P3.add_z]

theorem sphTail_tails {p : Nat} (hp : 3 ≤ p) {a e : P3 K} (ha : FloatPoint3 p a) (he : FloatPoint3 p e) :
    Tails (1 / 2 ^ p) (sphDiff (roundBits p) a e) (sphTail (roundBits p) a e) := by
  have hp1 : 1 ≤ p := by omega
  rw [sphTail_eq hp ha he]
  exact ⟨roundBits_rel hp1 _, roundBits_rel hp1 _, roundBits_rel hp1 _⟩

theorem sphDiff_acc {p : Nat} (hp : 1 ≤ p) (a e : P3 K) : AccP (1 / 2 ^ p) 1 (sphDiff (roundBits p) a e) (a - e) := by
  have h (x : K) := Acc.base (u := 1 / 2 ^ p) (by positivity) (roundBits_rounds hp) x
  exact ⟨h _, h _, h _⟩

theorem sphDiff_le {p : Nat} (hp : 1 ≤ p) (a e : P3 K) : LeP (1 + 1 / 2 ^ p) (sphDiff (roundBits p) a e) (a - e) := by
  have h (x : K) : |roundBits p x| ≤ (1 + 1 / 2 ^ p) * |x| := by
    have a1 := (roundBits_rounds (K := K) hp).near x
    have a2 := abs_add_le (roundBits p x - x) x
    rw [sub_add_cancel] at a2
    linarith
  exact ⟨h _, h _, h _⟩

theorem sphDiff_ge {p : Nat} (hp : 1 ≤ p) (a e : P3 K) : LeP (1 + 1 / 2 ^ p) (a - e) (sphDiff (roundBits p) a e) := by
  have h (x : K) : |x| ≤ (1 + 1 / 2 ^ p) * |roundBits p x| := by
    have a1 := roundBits_rel hp x
    have a2 := abs_add_le (x - roundBits p x) (roundBits p x)
    rw [sub_add_cancel] at a2
    linarith
  exact ⟨h _, h _, h _⟩

theorem insphere_first {p : Nat} (hp : 10 ≤ p) (a b c d e : P3 K)
    (h1 : roundBits p ((exactConsts K p).isperrboundA * sphPermanent (roundBits p) (sphDiff (roundBits p) a e)
        (sphDiff (roundBits p) b e) (sphDiff (roundBits p) c e) (sphDiff (roundBits p) d e)) <
      |sphFirst (roundBits p) (sphDiff (roundBits p) a e) (sphDiff (roundBits p) b e) (sphDiff (roundBits p) c e)
        (sphDiff (roundBits p) d e)|) :
    SignType.sign (sphFirst (roundBits p) (sphDiff (roundBits p) a e) (sphDiff (roundBits p) b e) (sphDiff (roundBits p) c e)
        (sphDiff (roundBits p) d e)) = SignType.sign (sphereDet a b c d e) := by
  have hp1 : 1 ≤ p := by omega
  have ε0 : (0 : K) < 1 / 2 ^ p := by positivity
  have ε1 := eps_small (K := K) hp
  have l0 : (0 : K) ≤ 1 + 1 / 2 ^ p := by positivity
  have up := sphPermanent_up hp1 (sphDiff (roundBits p) a e) (sphDiff (roundBits p) b e) (sphDiff (roundBits p) c e)
    (sphDiff (roundBits p) d e)
  have w2 := sphereAbs_le l0 (sphDiff_ge hp1 a e) (sphDiff_ge hp1 b e) (sphDiff_ge hp1 c e) (sphDiff_ge hp1 d e)
  rw [sphereAbs_eq] at w2
  have hA : 0 ≤ (exactConsts K p).isperrboundA := by simp only [exactConsts]; positivity
  obtain ⟨y, y1, y2⟩ := sphFirst_acc ε0.le (roundBits_rounds (K := K) hp1) (sphDiff_acc hp1 a e) (sphDiff_acc hp1 b e)
    (sphDiff_acc hp1 c e) (sphDiff_acc hp1 d e)
  rw [sphereForm_eq, sphereAbs_eq] at y2
  rw [y1] at h1 ⊢
  have e1 := round_le_of hp1 (mul_nonneg hA up.pos)
  have wP : sphereSize a b c d e ≤ (1 + 1 / 2 ^ p) ^ 17 * sphPermanent (roundBits p) (sphDiff (roundBits p) a e)
      (sphDiff (roundBits p) b e) (sphDiff (roundBits p) c e) (sphDiff (roundBits p) d e) := by
    refine w2.trans ?_
    rw [show (17 : ℕ) = 5 + 12 from rfl, pow_add, mul_assoc]
    exact mul_le_mul_of_nonneg_left up.le (by positivity)
  simp only [exactConsts] at e1
  exact (sign_of_dist (sphere_first ε0 ε1 y2.near wP up.pos e1 h1 (roundBits_rel hp1 y))).symm

theorem insphere_sign {p : Nat} (hp : 10 ≤ p) {a b c d e : P3 K} (ha : FloatPoint3 p a) (hb : FloatPoint3 p b)
    (hc : FloatPoint3 p c) (hd : FloatPoint3 p d) (he : FloatPoint3 p e) :
    ∃ r, insphere (roundBits p) true (exactConsts K p) a b c d e = .ok r ∧
      (20 * (1 / 2 ^ p) ^ 2 * sphereSize a b c d e < |sphereDet a b c d e| →
        SignType.sign r = SignType.sign (sphereDet a b c d e)) ∧
      (r = 0 → sphereDet a b c d e = 0) ∧
      (FloatPoint3 p (a - e) → FloatPoint3 p (b - e) → FloatPoint3 p (c - e) → FloatPoint3 p (d - e) →
        SignType.sign r = SignType.sign (sphereDet a b c d e)) := by
  have hp1 : 1 ≤ p := by omega
  have hp3 : 3 ≤ p := by omega
  have ε0 : (0 : K) < 1 / 2 ^ p := by positivity
  have ε1 := eps_small (K := K) hp
  have l0 : (0 : K) ≤ 1 + 1 / 2 ^ p := by positivity
  have up := sphPermanent_up hp1 (sphDiff (roundBits p) a e) (sphDiff (roundBits p) b e) (sphDiff (roundBits p) c e)
    (sphDiff (roundBits p) d e)
  have w1 := sphereAbs_le l0 (sphDiff_le hp1 a e) (sphDiff_le hp1 b e) (sphDiff_le hp1 c e) (sphDiff_le hp1 d e)
  rw [sphereAbs_eq] at w1
  unfold insphere
  simp only
  split_ifs with h1
  · rw [gt_iff_lt, gt_iff_lt, ← lt_max_iff, ← abs_eq_max_neg] at h1
    have key := insphere_first hp a b c d e h1
    refine ⟨_, rfl, fun _ => key, fun h0 => ?_, fun _ _ _ _ => key⟩
    rw [← sign_eq_zero_iff, ← key, sign_eq_zero_iff]
    exact h0
  · obtain ⟨r0, q1, -, q2⟩ := insphereExact_sign (by omega) ha hb hc hd he
    rw [← sphereForm_eq] at q2
    have st := insphereStages_sign hp (sphDiff_float hp1 a e) (sphDiff_float hp1 b e) (sphDiff_float hp1 c e)
      (sphDiff_float hp1 d e) (sphTail_tails hp3 ha he) (sphTail_tails hp3 hb he) (sphTail_tails hp3 hc he)
      (sphTail_tails hp3 hd he) up q1 (by
        rw [sphDiff_add hp3 ha he, sphDiff_add hp3 hb he, sphDiff_add hp3 hc he, sphDiff_add hp3 hd he]; exact q2)
    rw [sphDiff_add hp3 ha he, sphDiff_add hp3 hb he, sphDiff_add hp3 hc he, sphDiff_add hp3 hd he, sphereForm_eq] at st
    obtain ⟨r, r1, r2, r3, r4⟩ := st
    refine ⟨r, r1, fun hw => r2 (lt_of_le_of_lt ?_ hw), r3, fun fa fb fc fd => r4 ?_⟩
    · have k5 : (1 - 5 * (1 / 2 ^ p)) * (1 + 1 / 2 ^ p) ^ 5 ≤ (1 : K) := by
        simpa using one_sub_pow_le ε0.le (by linarith) 5
      refine mul_le_mul_of_nonneg_left ?_ (by positivity)
      have a1 := mul_le_mul_of_nonneg_left w1 (show (0 : K) ≤ 1 - 5 * (1 / 2 ^ p) by linarith)
      have s0 : 0 ≤ sphereSize a b c d e := by rw [← sphereAbs_eq]; exact sphereAbs_nonneg _ _ _ _
      have a2 := mul_le_mul_of_nonneg_right k5 s0
      linarith
    · have z {x : P3 K} (hx : FloatPoint3 p x) (hf : FloatPoint3 p (x - e)) :
          (sphTail (roundBits p) x e).x = 0 ∧ (sphTail (roundBits p) x e).y = 0 ∧ (sphTail (roundBits p) x e).z = 0 := by
        rw [sphTail_eq hp3 hx he]
        refine ⟨?_, ?_, ?_⟩
        · change x.x - e.x - roundBits p (x.x - e.x) = 0
          rw [(show IsFloat p (x.x - e.x) from hf.1).round hp1, sub_self]
        · change x.y - e.y - roundBits p (x.y - e.y) = 0
          rw [(show IsFloat p (x.y - e.y) from hf.2.1).round hp1, sub_self]
        · change x.z - e.z - roundBits p (x.z - e.z) = 0
          rw [(show IsFloat p (x.z - e.z) from hf.2.2).round hp1, sub_self]
      exact ⟨z ha fa, z hb fb, z hc fc, z hd fd⟩

theorem sphFin_no_slack (fl : K → K) (k : K) (a b c d : P3 K) : ∃ x, sphFin fl false k a b c d = .error x := by
  unfold sphFin
  simp only
  exact sumInto_no_slack fl 1152 _ _

/-- If nothing may be read behind the arrays, then what `insphere` returns is what the first test lets pass. -/
theorem insphere_no_slack {p : Nat} (hp : 10 ≤ p) {pa pb pc pd pe : P3 K} {r : K}
    (h : insphere (roundBits p) false (exactConsts K p) pa pb pc pd pe = .ok r) :
    SignType.sign r = SignType.sign (sphereDet pa pb pc pd pe) ∧ r ≠ 0 := by
  have hA : 0 ≤ (exactConsts K p).isperrboundA := by simp only [exactConsts]; positivity
  unfold insphere at h
  simp only at h
  split_ifs at h with h1
  · rw [gt_iff_lt, gt_iff_lt, ← lt_max_iff, ← abs_eq_max_neg] at h1
    rw [Except.ok.injEq] at h
    refine ⟨by rw [← h]; exact insphere_first hp _ _ _ _ _ h1, fun h0 => ?_⟩
    rw [h, h0, abs_zero] at h1
    exact absurd h1 (not_lt.mpr (roundBits_nonneg p (mul_nonneg hA (sphPermanent_up (by omega) _ _ _ _).pos)))
  · unfold insphereAdapt insphereStages at h
    obtain ⟨x, hx⟩ := sphFin_no_slack (roundBits p) (exactConsts K p).splitter (sphDiff (roundBits p) pa pe)
      (sphDiff (roundBits p) pb pe) (sphDiff (roundBits p) pc pe) (sphDiff (roundBits p) pd pe)
    rw [hx] at h
    exact absurd h (by simp)

end Geometrix
