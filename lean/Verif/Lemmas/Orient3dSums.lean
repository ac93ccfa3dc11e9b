import Verif.Lemmas.ExactPredicates
import Verif.Model.PredicatesAdapt

/-!
The sums of the last stage of the adaptive orientation test in space.
-/

set_option linter.unusedSectionVars false

namespace Geometrix

open Spec

variable {K : Type*} [Field K] [LinearOrder K] [IsStrictOrderedRing K] [FloorRing K]

theorem Holds.mono {p m n : Nat} {v : K} {r : Res (List K)} (h : Holds p m v r) (hm : m ≤ n) : Holds p n v r := by
  obtain ⟨h, h1, h2, h3, h4⟩ := h
  exact ⟨h, h1, h2, h3.trans hm, h4⟩

/-- An expansion whose last component has the sign of the value. -/
structure HoldsL (p n : Nat) (v : K) (r : Res (List K)) : Prop extends Holds p n v r where
  last : ∃ d, lastOf r = .ok d ∧ |v - d| ≤ 3 / 4 * |d| ∧ SignType.sign d = SignType.sign v

theorem HoldsL.val {p n : Nat} {v w : K} {r : Res (List K)} (h : HoldsL p n v r) (e : v = w) : HoldsL p n w r := e ▸ h

theorem sumInto_into {fl : K → K} {slack : Bool} {m k : Nat} (hk : m ≤ k) {e f : Res (List K)} {h : List K}
    (hm : sumInto fl slack m e f = .ok h) : sumInto fl slack k e f = .ok h := by
  unfold sumInto at hm ⊢
  rcases e with e | e
  · simp at hm
  · rcases f with f | f
    · simp at hm
    · simp only [into] at hm ⊢
      generalize fastExpansionSumZ fl slack e f = g at hm ⊢
      rcases g with g | g
      · simp at hm
      · simp only at hm ⊢
        split_ifs at hm with hl
        rw [if_pos (hl.trans hk)]
        exact hm

/-- A sum that goes to an array that may be longer than the result. -/
theorem HoldsL.sum {p m n k : Nat} (hp : 6 ≤ p) {v w : K} {e f : Res (List K)} (he : Holds p m v e) (hf : Holds p n w f)
    (hk : m + n ≤ k) : HoldsL p (m + n) (v + w) (sumInto (roundBits p) true k e f) := by
  have h1 := he.sumInto hp hf le_rfl
  obtain ⟨h, h2, h3⟩ := h1
  exact ⟨⟨h, sumInto_into hk h2, h3⟩, he.lastOf hp hf hk⟩

theorem Holds.scale {p m k : Nat} (hp : 6 ≤ p) {v b : K} {e : Res (List K)} (he : Holds p m v e) (hb : IsFloat p b)
    (hk : 2 * m ≤ k) : Holds p (2 * m) (v * b) (Geometrix.scaleInto (roundBits p) (exactConsts K p).splitter k e b) := by
  obtain ⟨h, h2, h3, h4, h5⟩ := he.scaleInto hp hb le_rfl
  refine ⟨h, ?_, h3, h4, h5⟩
  obtain ⟨e, rfl, -⟩ := he
  simp only [Geometrix.scaleInto, into] at h2 ⊢
  generalize scaleExpansionZ (roundBits p) (exactConsts K p).splitter e b = g at h2 ⊢
  rcases g with g | g
  · simp at h2
  · simp only at h2 ⊢
    split_ifs at h2 with hl
    rw [if_pos (hl.trans hk)]
    exact h2

theorem nearly_single (a : K) : NearlyNonadjacent [a] := by
  by_cases ha : a = 0
  · rw [ha]
    refine ⟨by simp, fun a b c hs => ?_⟩
    simp at hs
  · have : [a].filter (· ≠ 0) = [a] := by simp [ha]
    refine ⟨by rw [this]; simp, fun a b c hs => ?_⟩
    rw [this] at hs
    have := hs.length_le
    simp at this

theorem Holds.zero (p : Nat) : Holds p 1 (0 : K) (.ok [0]) :=
  ⟨[0], rfl, by simp, by simp, by simp [isFloat_zero], nearly_single 0, by simp⟩

theorem Holds.prodArray {p : Nat} (hp : 6 ≤ p) {a b : K} (ha : IsFloat p a) (hb : IsFloat p b) :
    Holds p 2 (a * b) (prodArray (roundBits p) (exactConsts K p).splitter a b) := by
  obtain ⟨h, h1, h2, h3, h4, -, -, h7, -⟩ := scaleExpansion_spec (splitBits_half hp) (e := [a]) (b := b) (by simp)
    (by simpa using ha) hb
  have e1 : Geometrix.prodArray (roundBits p) (exactConsts K p).splitter a b =
      scaleExpansion (roundBits p) (2 ^ ((p + 1) / 2) + 1) [a] b := rfl
  refine ⟨h, by rw [e1, h1], ?_, ?_, h3, h7 (nearly_single a), by rw [h2]; simp⟩
  · intro h0
    rw [h0] at h4
    simp at h4
  · rw [h4]; simp

/-- A product of two tails, times a number. -/
theorem Holds.twoOne {p : Nat} (hp : 6 ≤ p) {a b c : K} (ha : IsFloat p a) (hb : IsFloat p b) (hc : IsFloat p c) :
    Holds p 4 (a * b * c) (.ok (twoOneProduct (roundBits p) (exactConsts K p).splitter
      (twoProduct (roundBits p) (exactConsts K p).splitter a b) c)) := by
  obtain ⟨e, h1, h2, h3, h4, h5, h6⟩ := Holds.prodArray hp ha hb
  rw [Geometrix.prodArray, Except.ok.injEq] at h1
  generalize twoProduct (roundBits p) (exactConsts K p).splitter a b = t at h1 ⊢
  obtain ⟨h, -, k2, k3, k4, -, -, k7, k8⟩ := scaleExpansion_spec (splitBits_half hp) h2 h4 hc
  have k8 := k8 h5.nonoverlapping
  have key : dropZeros (twoOneProduct (roundBits p) (exactConsts K p).splitter t c) = dropZeros h := by
    rw [← h1] at k8
    simp only [scaleExpansionZ, Except.ok.injEq] at k8
    rw [← k8]
    simp only [twoOneProduct, scaleLoopZ, exactConsts, dropZeros]
    generalize (twoProductPresplit (roundBits p) _ t.2 c _ _) = q1
    generalize (twoProductPresplit (roundBits p) _ t.1 c _ _) = q2
    generalize (twoSum (roundBits p) q1.1 q2.2) = q3
    generalize (fastTwoSum (roundBits p) q2.1 q3.1) = q4
    by_cases a1 : q1.2 = 0 <;> by_cases a2 : q3.2 = 0 <;> by_cases a3 : q4.2 = 0 <;> by_cases a4 : q4.1 = 0 <;>
      simp [a1, a2, a3, a4]
  obtain ⟨d1, d2, d3, d4, d5, d6⟩ := dropZeros_spec (twoOneProduct (roundBits p) (exactConsts K p).splitter t c)
  obtain ⟨c1, c2, c3, c4, c5, c6⟩ := dropZeros_spec h
  have hn := k7 h5
  refine ⟨_, rfl, by simp [twoOneProduct], by simp [twoOneProduct], ?_, ⟨?_, ?_⟩, ?_⟩
  · intro x hx
    by_cases hx0 : x = 0
    · rw [hx0]; exact isFloat_zero p
    · have : x ∈ (twoOneProduct (roundBits p) (exactConsts K p).splitter t c).filter (· ≠ 0) :=
        List.mem_filter.2 ⟨hx, by simpa using hx0⟩
      rw [← d2, key, c2] at this
      exact k3 x (List.mem_of_mem_filter this)
  · rw [← d2, key, c2]; exact hn.halfBelow
  · rw [← d2, key, c2]; exact hn.lonely
  · rw [← d1, key, c1, k2, h6]

theorem tailMinors_spec {p : Nat} (hp : 6 ≤ p) {xt yt nx ny lx ly : K} (h1 : IsFloat p xt) (h2 : IsFloat p yt)
    (h3 : IsFloat p nx) (h4 : IsFloat p ny) (h5 : IsFloat p lx) (h6 : IsFloat p ly) :
    let t := tailMinors (roundBits p) (exactConsts K p).splitter xt yt nx ny lx ly
    Holds p 4 (xt * ny - yt * nx) t.1 ∧ Holds p 4 (yt * lx - xt * ly) t.2 := by
  unfold tailMinors
  simp only
  by_cases hx : xt = 0
  · rw [if_pos hx]
    by_cases hy : yt = 0
    · rw [if_pos hy, hx, hy]
      exact ⟨((Holds.zero p).mono (by norm_num)).val (by ring), ((Holds.zero p).mono (by norm_num)).val (by ring)⟩
    · rw [if_neg hy, hx]
      exact ⟨((Holds.prodArray hp h2.neg h3).mono (by norm_num)).val (by ring),
        ((Holds.prodArray hp h2 h5).mono (by norm_num)).val (by ring)⟩
  · rw [if_neg hx]
    by_cases hy : yt = 0
    · rw [if_pos hy, hy]
      exact ⟨((Holds.prodArray hp h1 h4).mono (by norm_num)).val (by ring),
        ((Holds.prodArray hp h1.neg h6).mono (by norm_num)).val (by ring)⟩
    · rw [if_neg hy]
      exact ⟨Holds.prodDiff hp h1 h4 h2 h3, Holds.prodDiff hp h2 h5 h1 h6⟩

theorem HoldsL.mono {p m n : Nat} {v : K} {r : Res (List K)} (h : HoldsL p m v r) (hm : m ≤ n) : HoldsL p n v r :=
  ⟨h.toHolds.mono hm, h.last⟩

theorem HoldsL.addUnless {p m n k : Nat} (hp : 6 ≤ p) {v w t : K} {e f : Res (List K)} (he : HoldsL p m v e)
    (hf : Holds p n w f) (ht : t = 0 → w = 0) (hk : m + n ≤ k) :
    HoldsL p (m + n) (v + w) (addUnless (roundBits p) true k t e f) := by
  unfold Geometrix.addUnless
  by_cases h : t = 0
  · rw [if_neg (by simpa using h)]
    exact (he.mono (by omega)).val (by rw [ht h, add_zero])
  · rw [if_pos h]
    exact HoldsL.sum hp he.toHolds hf hk

theorem HoldsL.addTails {p m : Nat} (hp : 6 ≤ p) {v xt yt z zt : K} {e : Res (List K)} (he : HoldsL p m v e)
    (h1 : IsFloat p xt) (h2 : IsFloat p yt) (h3 : IsFloat p z) (h4 : IsFloat p zt) (hk : m + 8 ≤ 192) :
    HoldsL p (m + 8) (v + xt * yt * (z + zt)) (addTails (roundBits p) true (exactConsts K p).splitter xt yt z zt e) := by
  unfold Geometrix.addTails
  by_cases h : yt = 0
  · rw [if_neg (by simpa using h)]
    exact (he.mono (by omega)).val (by rw [h]; ring)
  · rw [if_pos h]
    exact ((HoldsL.sum hp he.toHolds (Holds.twoOne hp h1 h2 h3) (k := 192) (by omega)).addUnless hp
      (Holds.twoOne hp h1 h2 h4) (fun h0 => by rw [h0, mul_zero]) (by omega)).val (by ring)

theorem HoldsL.addTails2 {p m : Nat} (hp : 6 ≤ p) {v xt nyt lz lzt lyt nz nzt : K} {e : Res (List K)} (he : HoldsL p m v e)
    (h1 : IsFloat p xt) (h2 : IsFloat p nyt) (h3 : IsFloat p lz) (h4 : IsFloat p lzt) (h5 : IsFloat p lyt) (h6 : IsFloat p nz)
    (h7 : IsFloat p nzt) (hk : m + 16 ≤ 192) :
    HoldsL p (m + 16) (v + xt * nyt * (lz + lzt) - xt * lyt * (nz + nzt))
      (addTails2 (roundBits p) true (exactConsts K p).splitter xt nyt lz lzt lyt nz nzt e) := by
  unfold Geometrix.addTails2
  by_cases h : xt = 0
  · rw [if_neg (by simpa using h)]
    exact (he.mono (by omega)).val (by rw [h]; ring)
  · rw [if_pos h]
    exact ((he.addTails hp h1 h2 h3 h4 (by omega)).addTails hp h1.neg h5 h6 h7 (by omega)).val (by ring)

theorem orient3dAdaptD_sign {p : Nat} (hp : 6 ≤ p) {fin bc ca ab : Res (List K)} {ad bd cd at' bt ct : P3 K}
    (ha : FloatPoint3 p ad) (hb : FloatPoint3 p bd) (hc : FloatPoint3 p cd) (ta : FloatPoint3 p at')
    (tb : FloatPoint3 p bt) (tc : FloatPoint3 p ct) (hfin : Holds p 24 (det3 ad bd cd) fin)
    (hbc : Holds p 4 (bd.x * cd.y - cd.x * bd.y) bc) (hca : Holds p 4 (cd.x * ad.y - ad.x * cd.y) ca)
    (hab : Holds p 4 (ad.x * bd.y - bd.x * ad.y) ab) :
    ∃ d, orient3dAdaptD (roundBits p) true (exactConsts K p).splitter fin bc ca ab ad bd cd at' bt ct = .ok d ∧
      |det3 (ad + at') (bd + bt) (cd + ct) - d| ≤ 3 / 4 * |d| ∧
      SignType.sign d = SignType.sign (det3 (ad + at') (bd + bt) (cd + ct)) := by
  obtain ⟨ax, ay, az⟩ := ha
  obtain ⟨bx, b_y, bz⟩ := hb
  obtain ⟨cx, cy, cz⟩ := hc
  obtain ⟨tax, tay, taz⟩ := ta
  obtain ⟨tbx, tby, tbz⟩ := tb
  obtain ⟨tcx, tcy, tcz⟩ := tc
  obtain ⟨ta1, ta2⟩ := tailMinors_spec hp tax tay bx b_y cx cy
  obtain ⟨tb1, tb2⟩ := tailMinors_spec hp tbx tby cx cy ax ay
  obtain ⟨tc1, tc2⟩ := tailMinors_spec hp tcx tcy ax ay bx b_y
  have bct := (HoldsL.sum hp tb1 tc2 (k := 8) le_rfl).toHolds
  have cat := (HoldsL.sum hp tc1 ta2 (k := 8) le_rfl).toHolds
  have abt := (HoldsL.sum hp ta1 tb2 (k := 8) le_rfl).toHolds
  have s1 := HoldsL.sum hp hfin (bct.scale hp az (k := 16) le_rfl) (k := 192) (by norm_num)
  have s2 := HoldsL.sum hp s1.toHolds (cat.scale hp bz (k := 16) le_rfl) (k := 192) (by norm_num)
  have s3 := HoldsL.sum hp s2.toHolds (abt.scale hp cz (k := 16) le_rfl) (k := 192) (by norm_num)
  have s4 := s3.addUnless hp (t := at'.z) (hbc.scale hp taz (k := 12) (by norm_num)) (fun h => by rw [h, mul_zero])
    (k := 192) (by norm_num)
  have s5 := s4.addUnless hp (t := bt.z) (hca.scale hp tbz (k := 12) (by norm_num)) (fun h => by rw [h, mul_zero])
    (k := 192) (by norm_num)
  have s6 := s5.addUnless hp (t := ct.z) (hab.scale hp tcz (k := 12) (by norm_num)) (fun h => by rw [h, mul_zero])
    (k := 192) (by norm_num)
  have s7 := s6.addTails2 hp tax tby cz tcz tcy bz tbz (by norm_num)
  have s8 := s7.addTails2 hp tbx tcy az taz tay cz tcz (by norm_num)
  have s9 := s8.addTails2 hp tcx tay bz tbz tby az taz (by norm_num)
  have s10 := s9.addUnless hp (t := at'.z) (bct.scale hp taz (k := 16) le_rfl) (fun h => by rw [h, mul_zero])
    (k := 192) (by norm_num)
  have s11 := s10.addUnless hp (t := bt.z) (cat.scale hp tbz (k := 16) le_rfl) (fun h => by rw [h, mul_zero])
    (k := 192) (by norm_num)
  have s12 := s11.addUnless hp (t := ct.z) (abt.scale hp tcz (k := 16) le_rfl) (fun h => by rw [h, mul_zero])
    (k := 192) (by norm_num)
  obtain ⟨d, d1, d2⟩ := (s12.val (w := det3 (ad + at') (bd + bt) (cd + ct)) (by
    simp only [det3, P3.add_x, P3.add_y, P3.add_z]
    ring)).last
  exact ⟨d, d1, d2⟩

end Geometrix
