import Verif.Lemmas.Orient2d
import Verif.Lemmas.ScaleExpansion
import Verif.Model.Predicates3
import Verif.Spec.ExactPredicates

/-!
How values run through the calls of `fast_expansion_sum_zeroelim` and `scale_expansion_zeroelim`.
-/

set_option linter.unusedSectionVars false

namespace Geometrix

open Spec

variable {K : Type*} [Field K] [LinearOrder K] [IsStrictOrderedRing K] [FloorRing K]

/-- The result is an expansion with the value `v` that has at most `n` components. -/
structure Holds (p n : Nat) (v : K) (r : Res (List K)) : Prop where
  out : ∃ h, r = .ok h ∧ h ≠ [] ∧ h.length ≤ n ∧ (∀ a ∈ h, IsFloat p a) ∧ NearlyNonadjacent h ∧ h.sum = v

theorem Holds.val {p n : Nat} {v w : K} {r : Res (List K)} (h : Holds p n v r) (e : v = w) : Holds p n w r := e ▸ h

theorem Holds.sumInto {p m n k : Nat} (hp : 6 ≤ p) {v w : K} {e f : Res (List K)} (he : Holds p m v e) (hf : Holds p n w f)
    (hk : m + n ≤ k) : Holds p k (v + w) (sumInto (roundBits p) true k e f) := by
  obtain ⟨e, rfl, e0, el, ef, en, es⟩ := he
  obtain ⟨f, rfl, f0, fl, ff, fn, fs⟩ := hf
  obtain ⟨h, h1, h2, h3, h4, h5, h6, -⟩ := fastExpansionSumZ_spec hp e0 f0 ef ff en fn
  have hl : h.length ≤ k := by omega
  refine ⟨h, ?_, h4, hl, h3, h6, by rw [h2, es, fs]⟩
  simp only [Geometrix.sumInto, h1, into]
  rw [if_pos hl]

theorem nearly_dropZeros {h : List K} (hn : NearlyNonadjacent h) : NearlyNonadjacent (dropZeros h) := by
  obtain ⟨-, h2, -⟩ := dropZeros_spec h
  exact ⟨by rw [h2]; exact hn.halfBelow, by rw [h2]; exact hn.lonely⟩

theorem Holds.scaleInto {p m k : Nat} (hp : 6 ≤ p) {v b : K} {e : Res (List K)} (he : Holds p m v e) (hb : IsFloat p b)
    (hk : 2 * m ≤ k) : Holds p k (v * b) (scaleInto (roundBits p) (exactConsts K p).splitter k e b) := by
  obtain ⟨e, rfl, e0, el, ef, en, es⟩ := he
  obtain ⟨h, -, h2, h3, h4, -, -, h7, h8⟩ := scaleExpansion_spec (splitBits_half hp) e0 ef hb
  obtain ⟨d1, d2, d3, d4, d5, d6⟩ := dropZeros_spec h
  have e1 := List.length_pos_iff.2 e0
  have h0 : h ≠ [] := by
    intro h0
    rw [h0, List.length_nil] at h4
    omega
  have hl : (dropZeros h).length ≤ k := by
    have := d5 h0
    omega
  refine ⟨dropZeros h, ?_, d3, hl, ?_, nearly_dropZeros (h7 en), by rw [d1, h2, es]⟩
  · simp only [Geometrix.scaleInto, exactConsts, h8 en.nonoverlapping, into]
    rw [if_pos hl]
  · intro a ha
    rcases d6 a ha with rfl | ha
    · exact isFloat_zero p
    · exact h3 a ha

theorem onGrid_neg {e : ℤ} {x : K} (h : OnGrid e x) : OnGrid e (-x) := by
  obtain ⟨m, hm⟩ := h
  exact ⟨-m, by rw [hm]; push_cast; ring⟩

theorem filter_map_neg (l : List K) : (l.map fun x => -x).filter (· ≠ 0) = (l.filter (· ≠ 0)).map fun x => -x := by
  induction l with
  | nil => rfl
  | cons a l ih =>
    rw [List.map_cons]
    by_cases ha : a = 0
    · rw [List.filter_cons_of_neg (by simp [ha]), List.filter_cons_of_neg (by simp [ha]), ih]
    · rw [List.filter_cons_of_pos (by simp [ha]), List.filter_cons_of_pos (by simp [ha]), List.map_cons, ih]

theorem nearly_neg {l : List K} (h : NearlyNonadjacent l) : NearlyNonadjacent (l.map fun x => -x) := by
  have wn : ∀ {a b : K}, WellBelow a b → WellBelow (-a) (-b) := by
    rintro a b ⟨e, h1, h2⟩
    exact ⟨e, onGrid_neg h1, by rwa [abs_neg]⟩
  refine ⟨?_, ?_⟩
  · rw [filter_map_neg, List.pairwise_map]
    refine h.halfBelow.imp ?_
    rintro a b ⟨e, h1, h2⟩
    exact ⟨e, onGrid_neg h1, by rwa [abs_neg]⟩
  · intro a b c hs
    rw [filter_map_neg] at hs
    have hs2 := hs.map fun x : K => -x
    rw [List.map_map] at hs2
    have e1 : (l.filter (· ≠ 0)).map ((fun x : K => -x) ∘ fun x => -x) = l.filter (· ≠ 0) := by
      conv_rhs => rw [← List.map_id (l.filter (· ≠ 0))]
      exact List.map_congr_left fun a _ => by simp
    rw [e1] at hs2
    simp only [List.map_cons, List.map_nil] at hs2
    rcases h.lonely _ _ _ hs2 with h1 | h1
    · left
      simpa using wn h1
    · right
      simpa using wn h1

theorem Holds.negated {p n : Nat} {v : K} {e : Res (List K)} (he : Holds p n v e) : Holds p n (-v) (negated e) := by
  obtain ⟨e, rfl, e0, el, ef, en, es⟩ := he
  refine ⟨e.map fun x => -x, rfl, by simpa using e0, by rw [List.length_map]; exact el, ?_, nearly_neg en, ?_⟩
  · intro a ha
    obtain ⟨b, hb, rfl⟩ := List.mem_map.1 ha
    exact (ef b hb).neg
  · rw [← es]
    clear el e0 ef en es
    induction e with
    | nil => simp
    | cons a l ih => rw [List.map_cons, List.sum_cons, List.sum_cons, ih]; ring

theorem Holds.prodDiff {p : Nat} (hp : 6 ≤ p) {a b c d : K} (ha : IsFloat p a) (hb : IsFloat p b) (hc : IsFloat p c)
    (hd : IsFloat p d) : Holds p 4 (a * b - c * d) (prodDiff (roundBits p) (exactConsts K p).splitter a b c d) := by
  obtain ⟨h1, h2, h3, h4⟩ := prodDiff_spec hp ha hb hc hd
  exact ⟨_, rfl, h3, by simp [twoTwoDiff], h2, h4.nearly, h1⟩

/-- The last component of a sum. -/
theorem Holds.lastOf {p m n k : Nat} (hp : 6 ≤ p) {v w : K} {e f : Res (List K)} (he : Holds p m v e) (hf : Holds p n w f)
    (hk : m + n ≤ k) : ∃ d, lastOf (Geometrix.sumInto (roundBits p) true k e f) = .ok d ∧ |(v + w) - d| ≤ 3 / 4 * |d| ∧
      SignType.sign d = SignType.sign (v + w) := by
  obtain ⟨e, rfl, e0, el, ef, en, es⟩ := he
  obtain ⟨f, rfl, f0, fl, ff, fn, fs⟩ := hf
  obtain ⟨h, h1, h2, h3, h4, h5, h6, -⟩ := fastExpansionSumZ_spec hp e0 f0 ef ff en fn
  have hl : h.length ≤ k := by omega
  obtain ⟨d, d1, d2, d3⟩ := lastOf_fastZ hp e0 f0 ef ff en fn
  rw [es, fs] at d2 d3
  refine ⟨d, ?_, d2, d3⟩
  rw [h1] at d1
  simp only [Geometrix.sumInto, h1, into]
  rwa [if_pos hl]

theorem minors12_spec {p : Nat} (hp : 6 ≤ p) {ax ay bx b_y cx cy dx dy : K} (hax : IsFloat p ax) (hay : IsFloat p ay)
    (hbx : IsFloat p bx) (hby : IsFloat p b_y) (hcx : IsFloat p cx) (hcy : IsFloat p cy) (hdx : IsFloat p dx)
    (hdy : IsFloat p dy) :
    let m := minors12 (roundBits p) true (exactConsts K p).splitter ax ay bx b_y cx cy dx dy
    Holds p 12 ((ax * b_y - bx * ay) + (bx * cy - cx * b_y) + -(ax * cy - cx * ay)) m.1 ∧
    Holds p 12 ((bx * cy - cx * b_y) + (cx * dy - dx * cy) + -(bx * dy - dx * b_y)) m.2.1 ∧
    Holds p 12 ((cx * dy - dx * cy) + (dx * ay - ax * dy) + (ax * cy - cx * ay)) m.2.2.1 ∧
    Holds p 12 ((dx * ay - ax * dy) + (ax * b_y - bx * ay) + (bx * dy - dx * b_y)) m.2.2.2 := by
  have ab := Holds.prodDiff hp hax hby hbx hay
  have bc := Holds.prodDiff hp hbx hcy hcx hby
  have cd := Holds.prodDiff hp hcx hdy hdx hcy
  have da := Holds.prodDiff hp hdx hay hax hdy
  have ac := Holds.prodDiff hp hax hcy hcx hay
  have bd := Holds.prodDiff hp hbx hdy hdx hby
  exact ⟨((ab.sumInto hp bc le_rfl).sumInto hp ac.negated le_rfl), ((bc.sumInto hp cd le_rfl).sumInto hp bd.negated le_rfl),
    ((cd.sumInto hp da le_rfl).sumInto hp ac le_rfl), ((da.sumInto hp ab le_rfl).sumInto hp bd le_rfl)⟩


theorem orient3dExact_sign {p : Nat} (hp : 6 ≤ p) {a b c d : P3 K} (ha : FloatPoint3 p a) (hb : FloatPoint3 p b)
    (hc : FloatPoint3 p c) (hd : FloatPoint3 p d) :
    ∃ r, orient3dExact (roundBits p) true (exactConsts K p).splitter a b c d = .ok r ∧
      |det3 (a - d) (b - d) (c - d) - r| ≤ 3 / 4 * |r| ∧ SignType.sign r = SignType.sign (det3 (a - d) (b - d) (c - d)) := by
  obtain ⟨m1, m2, m3, m4⟩ := minors12_spec hp ha.1 ha.2.1 hb.1 hb.2.1 hc.1 hc.2.1 hd.1 hd.2.1
  have A := m2.scaleInto hp ha.2.2 (k := 24) (by norm_num)
  have B := m3.scaleInto hp hb.2.2.neg (k := 24) (by norm_num)
  have C := m4.scaleInto hp hc.2.2 (k := 24) (by norm_num)
  have D := m1.scaleInto hp hd.2.2.neg (k := 24) (by norm_num)
  have key := Holds.lastOf hp (A.sumInto hp B (k := 48) (by norm_num)) (C.sumInto hp D (k := 48) (by norm_num)) (k := 96)
    (by norm_num)
  have e1 : det3 (a - d) (b - d) (c - d) = ((b.x * c.y - c.x * b.y + (c.x * d.y - d.x * c.y) + -(b.x * d.y - d.x * b.y)) * a.z +
      (c.x * d.y - d.x * c.y + (d.x * a.y - a.x * d.y) + (a.x * c.y - c.x * a.y)) * -b.z) +
      ((d.x * a.y - a.x * d.y + (a.x * b.y - b.x * a.y) + (b.x * d.y - d.x * b.y)) * c.z +
      (a.x * b.y - b.x * a.y + (b.x * c.y - c.x * b.y) + -(a.x * c.y - c.x * a.y)) * -d.z) := by
    simp only [det3, P3.sub_x, P3.sub_y, P3.sub_z]
    ring
  rw [e1]
  exact key

theorem lift96_spec {p : Nat} (hp : 6 ≤ p) {v x x' y y' : K} {e : Res (List K)} (he : Holds p 12 v e) (hx : IsFloat p x)
    (hx' : IsFloat p x') (hy : IsFloat p y) (hy' : IsFloat p y') :
    Holds p 96 (v * x * x' + v * y * y') (lift96 (roundBits p) true (exactConsts K p).splitter e x x' y y') :=
  (((he.scaleInto hp hx (by norm_num)).scaleInto hp hx' (by norm_num)).sumInto hp
    ((he.scaleInto hp hy (by norm_num)).scaleInto hp hy' (by norm_num)) (by norm_num))

theorem incircleExact_sign {p : Nat} (hp : 6 ≤ p) {a b c d : P2 K} (ha : FloatPoint p a) (hb : FloatPoint p b)
    (hc : FloatPoint p c) (hd : FloatPoint p d) :
    ∃ r, incircleExact (roundBits p) true (exactConsts K p).splitter a b c d = .ok r ∧
      |circleDet a b c d - r| ≤ 3 / 4 * |r| ∧ SignType.sign r = SignType.sign (circleDet a b c d) := by
  obtain ⟨m1, m2, m3, m4⟩ := minors12_spec hp ha.1 ha.2 hb.1 hb.2 hc.1 hc.2 hd.1 hd.2
  have A := lift96_spec hp m2 ha.1 ha.1 ha.2 ha.2
  have B := lift96_spec hp m3 hb.1 hb.1.neg hb.2 hb.2.neg
  have C := lift96_spec hp m4 hc.1 hc.1 hc.2 hc.2
  have D := lift96_spec hp m1 hd.1 hd.1.neg hd.2 hd.2.neg
  obtain ⟨r, h1, h2, h3⟩ := Holds.lastOf hp (A.sumInto hp B (k := 192) (by norm_num)) (C.sumInto hp D (k := 192) (by norm_num))
    (k := 384) (by norm_num)
  refine ⟨r, h1, ?_, ?_⟩
  · convert h2 using 3
    simp only [circleDet, det3, sqDist]
    ring
  · rw [h3]
    congr 1
    simp only [circleDet, det3, sqDist]
    ring

theorem minor24_spec {p : Nat} (hp : 6 ≤ p) {u v w x y z : K} {eu ev ew : Res (List K)} (hu : Holds p 4 u eu)
    (hv : Holds p 4 v ev) (hw : Holds p 4 w ew) (hx : IsFloat p x) (hy : IsFloat p y) (hz : IsFloat p z) :
    Holds p 24 (w * z + (u * x + v * y)) (minor24 (roundBits p) true (exactConsts K p).splitter eu x ev y ew z) :=
  ((hw.scaleInto hp hz (by norm_num)).sumInto hp
    ((hu.scaleInto hp hx (by norm_num)).sumInto hp (hv.scaleInto hp hy (by norm_num)) (by norm_num)) (by norm_num))

theorem lift1152_spec {p : Nat} (hp : 6 ≤ p) {u v w t : K} {eu ev ew et : Res (List K)} (hu : Holds p 24 u eu)
    (hv : Holds p 24 v ev) (hw : Holds p 24 w ew) (ht : Holds p 24 t et) {a : P3 K} (ha : FloatPoint3 p a) :
    Holds p 1152 (((u + v) + -(w + t)) * (a.x * a.x + a.y * a.y + a.z * a.z))
      (lift1152 (roundBits p) true (exactConsts K p).splitter eu ev ew et a) := by
  have hb := (hu.sumInto hp hv (k := 48) (by norm_num)).sumInto hp (hw.sumInto hp ht (k := 48) (by norm_num)).negated (k := 96)
    (by norm_num)
  have hs (x : K) (hx : IsFloat p x) := (hb.scaleInto hp hx (k := 192) (by norm_num)).scaleInto hp hx (k := 384) (by norm_num)
  refine Holds.val (((hs _ ha.1).sumInto hp (hs _ ha.2.1) (k := 768) (by norm_num)).sumInto hp (hs _ ha.2.2) (k := 1152)
    (by norm_num)) ?_
  ring

theorem insphere_identity (a b c d e : P3 K) : sphereDet a b c d e =
    (((det3 c d e + det3 b c e) + -(det3 d e b + det3 b c d)) * (a.x * a.x + a.y * a.y + a.z * a.z) +
     ((det3 d e a + det3 c d a) + -(det3 e a c + det3 c d e)) * (b.x * b.x + b.y * b.y + b.z * b.z)) +
    ((((det3 e a b + det3 d e b) + -(det3 a b d + det3 d e a)) * (c.x * c.x + c.y * c.y + c.z * c.z) +
     ((det3 a b c + det3 e a c) + -(det3 b c e + det3 e a b)) * (d.x * d.x + d.y * d.y + d.z * d.z)) +
     ((det3 b c d + det3 a b d) + -(det3 c d a + det3 a b c)) * (e.x * e.x + e.y * e.y + e.z * e.z)) := by
  simp only [sphereDet, det3, sqDist3, P3.sub_x, P3.sub_y, P3.sub_z]
  ring

theorem insphereExact_sign {p : Nat} (hp : 6 ≤ p) {a b c d e : P3 K} (ha : FloatPoint3 p a) (hb : FloatPoint3 p b)
    (hc : FloatPoint3 p c) (hd : FloatPoint3 p d) (he : FloatPoint3 p e) :
    ∃ r, insphereExact (roundBits p) true (exactConsts K p).splitter a b c d e = .ok r ∧
      |sphereDet a b c d e - r| ≤ 3 / 4 * |r| ∧ SignType.sign r = SignType.sign (sphereDet a b c d e) := by
  obtain ⟨hax, hay, haz⟩ := ha
  obtain ⟨hbx, hby, hbz⟩ := hb
  obtain ⟨hcx, hcy, hcz⟩ := hc
  obtain ⟨hdx, hdy, hdz⟩ := hd
  obtain ⟨hex, hey, hez⟩ := he
  have ab := Holds.prodDiff hp hax hby hbx hay
  have bc := Holds.prodDiff hp hbx hcy hcx hby
  have cd := Holds.prodDiff hp hcx hdy hdx hcy
  have de := Holds.prodDiff hp hdx hey hex hdy
  have ea := Holds.prodDiff hp hex hay hax hey
  have ac := Holds.prodDiff hp hax hcy hcx hay
  have bd := Holds.prodDiff hp hbx hdy hdx hby
  have ce := Holds.prodDiff hp hcx hey hex hcy
  have da := Holds.prodDiff hp hdx hay hax hdy
  have eb := Holds.prodDiff hp hex hby hbx hey
  have abc := (minor24_spec hp bc ac ab haz hbz.neg hcz).val (w := det3 a b c) (by simp only [det3]; ring)
  have bcd := (minor24_spec hp cd bd bc hbz hcz.neg hdz).val (w := det3 b c d) (by simp only [det3]; ring)
  have cde := (minor24_spec hp de ce cd hcz hdz.neg hez).val (w := det3 c d e) (by simp only [det3]; ring)
  have dea := (minor24_spec hp ea da de hdz hez.neg haz).val (w := det3 d e a) (by simp only [det3]; ring)
  have eab := (minor24_spec hp ab eb ea hez haz.neg hbz).val (w := det3 e a b) (by simp only [det3]; ring)
  have abd := (minor24_spec hp bd da ab haz hbz hdz).val (w := det3 a b d) (by simp only [det3]; ring)
  have bce := (minor24_spec hp ce eb bc hbz hcz hez).val (w := det3 b c e) (by simp only [det3]; ring)
  have cda := (minor24_spec hp da ac cd hcz hdz haz).val (w := det3 c d a) (by simp only [det3]; ring)
  have deb := (minor24_spec hp eb bd de hdz hez hbz).val (w := det3 d e b) (by simp only [det3]; ring)
  have eac := (minor24_spec hp ac ce ea hez haz hcz).val (w := det3 e a c) (by simp only [det3]; ring)
  have A := lift1152_spec hp cde bce deb bcd ⟨hax, hay, haz⟩
  have B := lift1152_spec hp dea cda eac cde ⟨hbx, hby, hbz⟩
  have C := lift1152_spec hp eab deb abd dea ⟨hcx, hcy, hcz⟩
  have D := lift1152_spec hp abc eac bce eab ⟨hdx, hdy, hdz⟩
  have E := lift1152_spec hp bcd abd cda abc ⟨hex, hey, hez⟩
  obtain ⟨r, h1, h2, h3⟩ := Holds.lastOf hp (A.sumInto hp B (k := 2304) (by norm_num))
    ((C.sumInto hp D (k := 2304) (by norm_num)).sumInto hp E (k := 3456) (by norm_num)) (k := 5760) (by norm_num)
  refine ⟨r, h1, ?_⟩
  rw [insphere_identity a b c d e]
  exact ⟨h2, h3⟩

end Geometrix
