import Verif.Lemmas.Convex
import Verif.Lemmas.PolygonBox
import Mathlib.Data.Finset.Max

/-!
# The parity rule for convex polygons
-/

set_option linter.unusedSectionVars false

namespace Geometrix

open Spec

variable {K : Type*} [Field K] [LinearOrder K] [IsStrictOrderedRing K]

/-- Every vertex but the ends is strictly on the left of a side. -/
theorem convex_vertex_strict {poly : List (P2 K)} (hc : StrictlyConvex poly) {i k : Nat} {p q v : P2 K}
    (he : IsPolygonEdge poly i p q) (hk : poly[k]? = some v) (h1 : k ≠ i) (h2 : k ≠ (i + 1) % poly.length) :
    0 < area2 p q v := by
  obtain ⟨hp, hq⟩ := he
  have hi : i < poly.length := (List.getElem?_eq_some_iff.1 hp).1
  have hkl : k < poly.length := (List.getElem?_eq_some_iff.1 hk).1
  rcases Nat.lt_or_ge (i + 1) poly.length with hlt | hge
  · rw [Nat.mod_eq_of_lt hlt] at hq h2
    rcases Nat.lt_or_ge k i with h | h
    · have := hc k i (i + 1) v p q h (by omega) hk hp hq
      have e1 : area2 p q v = area2 v p q := by unfold area2; ring
      rw [e1]; exact this
    · exact hc i (i + 1) k p q v (by omega) (by omega) hp hq hk
  · have hin : i + 1 = poly.length := by omega
    rw [hin, Nat.mod_self] at hq h2
    have := hc 0 k i q v p (by omega) (by omega) hq hk hp
    have e1 : area2 p q v = area2 q v p := by unfold area2; ring
    rw [e1]; exact this

/-- What passes from each vertex to the next holds for all of them if it holds for one. -/
theorem ring_all {poly : List (P2 K)} (φ : P2 K → Prop) (h : ∀ e ∈ sides poly, φ e.1 → φ e.2) {v w : P2 K}
    (hv : v ∈ poly) (hφ : φ v) (hw : w ∈ poly) : φ w := by
  obtain ⟨i, hi, rfl⟩ := List.mem_iff_getElem.1 hv
  obtain ⟨j, hj, rfl⟩ := List.mem_iff_getElem.1 hw
  have hn : 0 < poly.length := by omega
  have key : ∀ k, φ (poly[(i + k) % poly.length]'(Nat.mod_lt _ hn)) := by
    intro k
    induction k with
    | zero =>
      have : (i + 0) % poly.length = i := Nat.mod_eq_of_lt hi
      simp only [this]; exact hφ
    | succ k ih =>
      refine h (poly[(i + k) % poly.length]'(Nat.mod_lt _ hn), poly[(i + (k + 1)) % poly.length]'(Nat.mod_lt _ hn)) ?_ ih
      refine (mem_sides_iff poly _).2 ⟨(i + k) % poly.length, List.getElem?_eq_getElem _, ?_⟩
      rw [Nat.mod_add_mod]
      exact List.getElem?_eq_getElem _
  have := key (poly.length - i + j)
  have e : (i + (poly.length - i + j)) % poly.length = j := by
    rw [show i + (poly.length - i + j) = j + poly.length by omega, Nat.add_mod_right, Nat.mod_eq_of_lt hj]
  simpa only [e] using this

/-- A point strictly on the left of all sides is not beyond all the vertices. -/
theorem strict_inside_beyond {poly : List (P2 K)} (hn : 2 < poly.length) (hc : StrictlyConvex poly) {X : P2 K}
    (hX : ∀ e ∈ sides poly, 0 < area2 e.1 e.2 X) {c : K} (hc0 : c ≠ 0) : ∃ v ∈ poly, c * X.y < c * v.y := by
  classical
  obtain ⟨v, hv, hmax⟩ := Finset.exists_max_image poly.toFinset (fun v => c * v.y)
    ⟨poly[0], List.mem_toFinset.2 (List.getElem_mem _)⟩
  rw [List.mem_toFinset] at hv
  refine ⟨v, hv, ?_⟩
  by_contra hcon
  push Not at hcon
  obtain ⟨i, hi, hiv⟩ := List.mem_iff_getElem.1 hv
  have hpos : 0 < poly.length := by omega
  have hv' : poly[i]? = some v := by rw [List.getElem?_eq_getElem hi, hiv]
  obtain ⟨w, hw⟩ : ∃ w, poly[(i + 1) % poly.length]? = some w := ⟨_, List.getElem?_eq_getElem (Nat.mod_lt _ hpos)⟩
  obtain ⟨u, hu⟩ : ∃ u, poly[(i + (poly.length - 1)) % poly.length]? = some u :=
    ⟨_, List.getElem?_eq_getElem (Nat.mod_lt _ hpos)⟩
  have hnext : ((i + (poly.length - 1)) % poly.length + 1) % poly.length = i := by
    rw [Nat.mod_add_mod, show i + (poly.length - 1) + 1 = i + poly.length by omega, Nat.add_mod_right,
      Nat.mod_eq_of_lt hi]
  have hvw : IsPolygonEdge poly i v w := ⟨hv', hw⟩
  have huv : IsPolygonEdge poly ((i + (poly.length - 1)) % poly.length) u v := ⟨hu, by rw [hnext]; exact hv'⟩
  have a1 := hX (v, w) ((mem_sides_iff _ _).2 ⟨_, hvw⟩)
  have a2 := hX (u, v) ((mem_sides_iff _ _).2 ⟨_, huv⟩)
  have hd1 : (i + 1) % poly.length ≠ i := by
    rcases Nat.lt_or_ge (i + 1) poly.length with h | h
    · rw [Nat.mod_eq_of_lt h]; omega
    · rw [show i + 1 = poly.length by omega, Nat.mod_self]; omega
  have hd2 : (i + 1) % poly.length ≠ (i + (poly.length - 1)) % poly.length := by
    intro h
    have := congrArg (fun x => (x + 1) % poly.length) h
    simp only [hnext] at this
    rw [Nat.mod_add_mod] at this
    rcases Nat.lt_or_ge (i + 1 + 1) poly.length with h' | h'
    · rw [Nat.mod_eq_of_lt h'] at this; omega
    · rw [Nat.mod_eq_sub_mod h', Nat.mod_eq_of_lt (by omega)] at this; omega
  have a3 := convex_vertex_strict hc huv hw hd2 (by rw [hnext]; exact hd1)
  have mw : c * w.y ≤ c * v.y := hmax w (List.mem_toFinset.2 (List.mem_of_getElem? hw))
  have mu : c * u.y ≤ c * v.y := hmax u (List.mem_toFinset.2 (List.mem_of_getElem? hu))
  simp only at a1 a2
  unfold area2 at a1 a2 a3
  -- α, β and d are the drops from the vertex, scaled by c
  have hα : 0 ≤ c * v.y - c * w.y := by linarith
  have hβ : 0 ≤ c * v.y - c * u.y := by linarith
  have hd : 0 ≤ c * X.y - c * v.y := by linarith
  have hcc : 0 < c * c := mul_self_pos.2 hc0
  have b3 := mul_pos hcc a3
  have b1 := mul_pos hcc a1
  have b2 := mul_pos hcc a2
  have key : (c * v.y - c * u.y) * (c * c * ((w.x - v.x) * (X.y - v.y) - (w.y - v.y) * (X.x - v.x))) +
      (c * v.y - c * w.y) * (c * c * ((v.x - u.x) * (X.y - u.y) - (v.y - u.y) * (X.x - u.x))) =
      -((c * X.y - c * v.y) * (c * c * ((v.x - u.x) * (w.y - u.y) - (v.y - u.y) * (w.x - u.x)))) := by ring
  have p1 := mul_nonneg hβ b1.le
  have p2 := mul_nonneg hα b2.le
  have p3 := mul_nonneg hd b3.le
  rcases hα.eq_or_lt with hα0 | hα0
  · rcases hβ.eq_or_lt with hβ0 | hβ0
    · have h1 : v.y = w.y := mul_left_cancel₀ hc0 (by linarith)
      have h2 : v.y = u.y := mul_left_cancel₀ hc0 (by linarith)
      rw [← h1, ← h2] at a3
      simp at a3
    · have := mul_pos hβ0 b1
      linarith
  · have := mul_pos hα0 b2
    linarith

/-- At most one side rises through a given height. -/
theorem one_up {poly : List (P2 K)} (hn : 2 < poly.length) (hc : StrictlyConvex poly) {h : K} {i j : Nat} {p q r s : P2 K}
    (h1 : IsPolygonEdge poly i p q) (h2 : IsPolygonEdge poly j r s) (hp : p.y ≤ h) (hq : h < q.y) (hr : r.y ≤ h)
    (hs : h < s.y) : i = j := by
  by_contra hij
  have hjl : j < poly.length := (List.getElem?_eq_some_iff.1 h2.1).1
  have hjq : j ≠ (i + 1) % poly.length := by
    rintro rfl
    have : r = q := Option.some.inj (h2.1.symm.trans h1.2)
    rw [this] at hr
    linarith
  obtain ⟨E, hE, hE1, -, -, -, hE2⟩ := cutAt (h := h) (by linarith : p.y < q.y) hp hq.le
  obtain ⟨F, hF, hF1, -, -, -, hF2⟩ := cutAt (h := h) (by linarith : r.y < s.y) hr hs.le
  have m1 := (mem_sides_iff poly (p, q)).2 ⟨i, h1⟩
  have m2 := (mem_sides_iff poly (r, s)).2 ⟨j, h2⟩
  have ar := convex_vertex_strict hc h1 h2.1 (Ne.symm hij) hjq
  have as := convex_vertex hc m1 (vertex_of_side m2).2
  have bp := convex_vertex hc m2 (vertex_of_side m1).1
  have bq := convex_vertex hc m2 (vertex_of_side m1).2
  simp only at as bp bq
  have hFE : 0 < area2 p q F := by
    obtain ⟨t, t0, t1, rfl⟩ := hF1
    have ht : t < 1 := by
      rcases t1.eq_or_lt with rfl | h'
      · simp at hF; rw [hF] at hs; exact absurd hs (lt_irrefl _)
      · exact h'
    have e : area2 p q (r + t • (s - r)) = (1 - t) * area2 p q r + t * area2 p q s := by
      unfold area2; simp only [P2.add_x, P2.add_y, P2.smul_x, P2.smul_y, P2.sub_x, P2.sub_y]; ring
    rw [e]
    have := mul_pos (by linarith : (0 : K) < 1 - t) ar
    have := mul_nonneg t0 as
    linarith
  have hEF : 0 ≤ area2 r s E := by
    obtain ⟨t, t0, t1, rfl⟩ := hE1
    have e : area2 r s (p + t • (q - p)) = (1 - t) * area2 r s p + t * area2 r s q := by
      unfold area2; simp only [P2.add_x, P2.add_y, P2.smul_x, P2.smul_y, P2.sub_x, P2.sub_y]; ring
    rw [e]
    have := mul_nonneg (by linarith : (0 : K) ≤ 1 - t) bp
    have := mul_nonneg t0 bq
    linarith
  rw [hE2 F hF] at hFE
  rw [hF2 E hE] at hEF
  have := pos_of_mul_pos_right hFE (by linarith)
  have := nonneg_of_mul_nonneg_right hEF (by linarith : 0 < s.y - r.y)
  linarith

/-- At most one side falls through a given height. The lower end counts as below. -/
theorem one_down {poly : List (P2 K)} (hc : StrictlyConvex poly) {h : K} {i j : Nat} {p q r s : P2 K}
    (h1 : IsPolygonEdge poly i p q) (h2 : IsPolygonEdge poly j r s) (hp : h < p.y) (hq : q.y ≤ h) (hr : h < r.y)
    (hs : s.y ≤ h) : i = j := by
  by_contra hij
  have hil : i < poly.length := (List.getElem?_eq_some_iff.1 h1.1).1
  have hjl : j < poly.length := (List.getElem?_eq_some_iff.1 h2.1).1
  have hne : (j + 1) % poly.length ≠ (i + 1) % poly.length := by
    intro h
    rcases Nat.lt_or_ge (i + 1) poly.length with h' | h' <;> rcases Nat.lt_or_ge (j + 1) poly.length with h'' | h''
    · rw [Nat.mod_eq_of_lt h', Nat.mod_eq_of_lt h''] at h; omega
    · rw [Nat.mod_eq_of_lt h', show j + 1 = poly.length by omega, Nat.mod_self] at h; omega
    · rw [Nat.mod_eq_of_lt h'', show i + 1 = poly.length by omega, Nat.mod_self] at h; omega
    · omega
  have hsi : (j + 1) % poly.length ≠ i := by
    rintro rfl
    have : p = s := Option.some.inj (h1.1.symm.trans h2.2)
    rw [this] at hp
    linarith
  obtain ⟨E, hE, hE1, -, -, -, hE2⟩ := cutAt (h := h) (by linarith : q.y < p.y) hq hp.le
  obtain ⟨F, hF, hF1, -, -, -, hF2⟩ := cutAt (h := h) (by linarith : s.y < r.y) hs hr.le
  have m1 := (mem_sides_iff poly (p, q)).2 ⟨i, h1⟩
  have m2 := (mem_sides_iff poly (r, s)).2 ⟨j, h2⟩
  have as := convex_vertex_strict hc h1 h2.2 hsi hne
  have ar := convex_vertex hc m1 (vertex_of_side m2).1
  have bp := convex_vertex hc m2 (vertex_of_side m1).1
  have bq := convex_vertex hc m2 (vertex_of_side m1).2
  simp only at ar bp bq
  have hFE : 0 < area2 p q F := by
    obtain ⟨t, t0, t1, rfl⟩ := hF1
    have ht : t < 1 := by
      rcases t1.eq_or_lt with rfl | h'
      · simp at hF; rw [hF] at hr; exact absurd hr (lt_irrefl _)
      · exact h'
    have e : area2 p q (s + t • (r - s)) = (1 - t) * area2 p q s + t * area2 p q r := by
      unfold area2; simp only [P2.add_x, P2.add_y, P2.smul_x, P2.smul_y, P2.sub_x, P2.sub_y]; ring
    rw [e]
    have := mul_pos (by linarith : (0 : K) < 1 - t) as
    have := mul_nonneg t0 ar
    linarith
  have hEF : 0 ≤ area2 r s E := by
    obtain ⟨t, t0, t1, rfl⟩ := hE1
    have e : area2 r s (q + t • (p - q)) = (1 - t) * area2 r s q + t * area2 r s p := by
      unfold area2; simp only [P2.add_x, P2.add_y, P2.smul_x, P2.smul_y, P2.sub_x, P2.sub_y]; ring
    rw [e]
    have := mul_nonneg (by linarith : (0 : K) ≤ 1 - t) bq
    have := mul_nonneg t0 bp
    linarith
  have e1 : area2 p q F = -area2 q p F := by unfold area2; ring
  have e2 : area2 r s E = -area2 s r E := by unfold area2; ring
  rw [e1, hE2 F hF] at hFE
  rw [e2, hF2 E hE] at hEF
  have hEp : (0 : K) < p.y - q.y := by linarith
  have hFp : (0 : K) < r.y - s.y := by linarith
  have : E.x - F.x < 0 := by
    by_contra h'
    push Not at h'
    have := mul_nonneg hEp.le h'
    linarith
  have : F.x - E.x ≤ 0 := by
    by_contra h'
    push Not at h'
    have := mul_pos hFp h'
    linarith
  linarith

/-- Some side rises through a height between those of two vertices. -/
theorem some_up {poly : List (P2 K)} {h : K} {v w : P2 K} (hv : v ∈ poly) (hw : w ∈ poly) (h1 : v.y ≤ h) (h2 : h < w.y) :
    ∃ i p q, IsPolygonEdge poly i p q ∧ p.y ≤ h ∧ h < q.y := by
  by_contra hcon
  push Not at hcon
  have := ring_all (poly := poly) (fun v => v.y ≤ h) (fun e he h' => by
    obtain ⟨i, hi⟩ := (mem_sides_iff poly e).1 he
    exact hcon i _ _ hi h') hv h1 hw
  linarith

/-- Some side falls through a height between those of two vertices. -/
theorem some_down {poly : List (P2 K)} {h : K} {v w : P2 K} (hv : v ∈ poly) (hw : w ∈ poly) (h1 : v.y ≤ h) (h2 : h < w.y) :
    ∃ i p q, IsPolygonEdge poly i p q ∧ q.y ≤ h ∧ h < p.y := by
  by_contra hcon
  push Not at hcon
  have := ring_all (poly := poly) (fun v => h < v.y) (fun e he h' => by
    obtain ⟨i, hi⟩ := (mem_sides_iff poly e).1 he
    by_contra h''
    push Not at h''
    exact absurd h' (not_lt.2 (hcon i _ _ hi h''))) hw h2 hv
  linarith

theorem countP_one {α : Type*} (f : α → Bool) (l : List α)
    (h : ∀ (i j : Nat) (a b : α), l[i]? = some a → l[j]? = some b → f a = true → f b = true → i = j)
    (hex : ∃ a ∈ l, f a = true) : l.countP f = 1 := by
  have h1 := countP_le_one f l h
  have h2 : 0 < l.countP f := List.countP_pos_iff.2 hex
  omega

theorem inside_segment {poly : List (P2 K)} {P Q X : P2 K} (hP : InsideAllSides poly P) (hQ : InsideAllSides poly Q)
    (hX : OnSegment P Q X) : InsideAllSides poly X := by
  obtain ⟨t, t0, t1, rfl⟩ := hX
  intro e he
  have e1 : area2 e.1 e.2 (P + t • (Q - P)) = (1 - t) * area2 e.1 e.2 P + t * area2 e.1 e.2 Q := by
    unfold area2; simp only [P2.add_x, P2.add_y, P2.smul_x, P2.smul_y, P2.sub_x, P2.sub_y]; ring
  rw [e1]
  have := mul_nonneg (by linarith : (0 : K) ≤ 1 - t) (hP e he)
  have := mul_nonneg t0 (hQ e he)
  linarith

theorem inside_boundary {poly : List (P2 K)} (hc : StrictlyConvex poly) {X : P2 K} (hX : OnBoundary poly X) :
    InsideAllSides poly X := by
  obtain ⟨i, A, B, h1, h2⟩ := hX
  have hm := vertex_of_side ((mem_sides_iff poly (A, B)).2 ⟨i, h1⟩)
  exact inside_segment (fun e he => convex_vertex hc he hm.1) (fun e he => convex_vertex hc he hm.2) h2

/-- A side that falls crosses the ray exactly if the point is on the right of it. -/
theorem crossesRay_down {A p q : P2 K} (hpq : q.y ≤ p.y) :
    CrossesRay A p q ↔ q.y ≤ A.y ∧ A.y < p.y ∧ area2 p q A < 0 := by
  rw [crossesRay_swap, crossesRay_iff hpq]
  have : area2 p q A = -area2 q p A := by unfold area2; ring
  rw [this, neg_neg_iff_pos]

/-- The number of sides that cross the ray: the rising ones and the falling ones. -/
theorem crossing_split (poly : List (P2 K)) (X : P2 K) : sideCount poly (CrossesRay X) =
    (sides poly).countP (fun e => decide (e.1.y ≤ X.y ∧ X.y < e.2.y ∧ 0 < area2 e.1 e.2 X)) +
    (sides poly).countP (fun e => decide (e.2.y ≤ X.y ∧ X.y < e.1.y ∧ area2 e.1 e.2 X < 0)) := by
  classical
  unfold sideCount
  induction sides poly with
  | nil => simp
  | cons e l ih =>
    rw [List.countP_cons, List.countP_cons, List.countP_cons, ih]
    have key : (if decide (CrossesRay X e.1 e.2) = true then 1 else 0) =
        (if decide (e.1.y ≤ X.y ∧ X.y < e.2.y ∧ 0 < area2 e.1 e.2 X) = true then 1 else 0) +
        (if decide (e.2.y ≤ X.y ∧ X.y < e.1.y ∧ area2 e.1 e.2 X < 0) = true then 1 else 0) := by
      simp only [decide_eq_true_eq]
      rcases le_total e.1.y e.2.y with h | h
      · rw [if_neg (c := e.2.y ≤ X.y ∧ X.y < e.1.y ∧ area2 e.1 e.2 X < 0) (by
          rintro ⟨h1, h2, -⟩; linarith)]
        simp only [crossesRay_iff h, add_zero]
      · rw [if_neg (c := e.1.y ≤ X.y ∧ X.y < e.2.y ∧ 0 < area2 e.1 e.2 X) (by
          rintro ⟨h1, h2, -⟩; linarith)]
        simp only [crossesRay_down h, zero_add]
    rw [key]
    omega

/-- A point on the line of a side between the heights of its ends is on the side. -/
theorem on_side_of_area {p q X : P2 K} (h0 : area2 p q X = 0) (h : p.y ≤ X.y ∧ X.y < q.y ∨ q.y ≤ X.y ∧ X.y < p.y) :
    OnSegment p q X := by
  rcases h with ⟨h1, h2⟩ | ⟨h1, h2⟩
  · obtain ⟨E, hE, hE1, -, -, -, hE2⟩ := cutAt (h := X.y) (by linarith : p.y < q.y) h1 h2.le
    rw [hE2 X rfl] at h0
    rcases mul_eq_zero.1 h0 with h | h
    · linarith
    · have : X = E := by ext; linarith; exact hE.symm
      rw [this]; exact hE1
  · obtain ⟨E, hE, hE1, -, -, -, hE2⟩ := cutAt (h := X.y) (by linarith : q.y < p.y) h1 h2.le
    have e1 : area2 p q X = -area2 q p X := by unfold area2; ring
    rw [e1, hE2 X rfl] at h0
    rcases mul_eq_zero.1 (neg_eq_zero.1 h0) with h | h
    · linarith
    · have : X = E := by ext; linarith; exact hE.symm
      rw [this, onSegment_swap]; exact hE1

/-- The vertices before and after a side. -/
theorem side_neighbours {poly : List (P2 K)} (hn : 2 < poly.length) (hc : StrictlyConvex poly) {i : Nat} {p q : P2 K}
    (h : IsPolygonEdge poly i p q) : ∃ u w, (u, p) ∈ sides poly ∧ (q, w) ∈ sides poly ∧ 0 < area2 u p q ∧
      0 < area2 q w p := by
  have hi : i < poly.length := (List.getElem?_eq_some_iff.1 h.1).1
  have hpos : 0 < poly.length := by omega
  obtain ⟨w, hw⟩ : ∃ w, poly[((i + 1) % poly.length + 1) % poly.length]? = some w :=
    ⟨_, List.getElem?_eq_getElem (Nat.mod_lt _ hpos)⟩
  obtain ⟨u, hu⟩ : ∃ u, poly[(i + (poly.length - 1)) % poly.length]? = some u :=
    ⟨_, List.getElem?_eq_getElem (Nat.mod_lt _ hpos)⟩
  have hnext : ((i + (poly.length - 1)) % poly.length + 1) % poly.length = i := by
    rw [Nat.mod_add_mod, show i + (poly.length - 1) + 1 = i + poly.length by omega, Nat.add_mod_right,
      Nat.mod_eq_of_lt hi]
  have hup : IsPolygonEdge poly ((i + (poly.length - 1)) % poly.length) u p := ⟨hu, by rw [hnext]; exact h.1⟩
  have hqw : IsPolygonEdge poly ((i + 1) % poly.length) q w := ⟨h.2, hw⟩
  have hd1 : (i + 1) % poly.length ≠ i := by
    rcases Nat.lt_or_ge (i + 1) poly.length with h | h
    · rw [Nat.mod_eq_of_lt h]; omega
    · rw [show i + 1 = poly.length by omega, Nat.mod_self]; omega
  have hd3 : i ≠ ((i + 1) % poly.length + 1) % poly.length := by
    rw [Nat.mod_add_mod]
    rcases Nat.lt_or_ge (i + 1 + 1) poly.length with h' | h'
    · rw [Nat.mod_eq_of_lt h']; omega
    · rw [Nat.mod_eq_sub_mod h', Nat.mod_eq_of_lt (by omega)]; omega
  have hd2 : (i + 1) % poly.length ≠ (i + (poly.length - 1)) % poly.length := by
    intro h
    have := congrArg (fun x => (x + 1) % poly.length) h
    simp only [hnext] at this
    exact hd3 this.symm
  refine ⟨u, w, (mem_sides_iff _ _).2 ⟨_, hup⟩, (mem_sides_iff _ _).2 ⟨_, hqw⟩, ?_, ?_⟩
  · exact convex_vertex_strict hc hup h.2 hd2 (by rw [hnext]; exact hd1)
  · exact convex_vertex_strict hc hqw h.1 (Ne.symm hd1) hd3

/-- A point of the polygon on the line of a side is on the side. -/
theorem on_side_of_inside {poly : List (P2 K)} (hn : 2 < poly.length) (hc : StrictlyConvex poly) {i : Nat} {p q X : P2 K}
    (h : IsPolygonEdge poly i p q) (hX : InsideAllSides poly X) (h0 : area2 p q X = 0) : OnSegment p q X := by
  obtain ⟨u, w, hu, hw, a1, a2⟩ := side_neighbours hn hc h
  have b1 := hX _ hu
  have b2 := hX _ hw
  simp only at b1 b2
  have hD : 0 < (q.x - p.x) * (q.x - p.x) + (q.y - p.y) * (q.y - p.y) := by
    by_contra hcon
    have e1 : q.x - p.x = 0 := by nlinarith [mul_self_nonneg (q.x - p.x), mul_self_nonneg (q.y - p.y)]
    have e2 : q.y - p.y = 0 := by nlinarith [mul_self_nonneg (q.x - p.x), mul_self_nonneg (q.y - p.y)]
    have : area2 u p q = (p.x - u.x) * (q.y - p.y) - (p.y - u.y) * (q.x - p.x) := by unfold area2; ring
    rw [this, e1, e2] at a1
    simp at a1
  obtain ⟨t, ht⟩ : ∃ t, t = ((X.x - p.x) * (q.x - p.x) + (X.y - p.y) * (q.y - p.y)) /
    ((q.x - p.x) * (q.x - p.x) + (q.y - p.y) * (q.y - p.y)) := ⟨_, rfl⟩
  have ht' : t * ((q.x - p.x) * (q.x - p.x) + (q.y - p.y) * (q.y - p.y)) =
      (X.x - p.x) * (q.x - p.x) + (X.y - p.y) * (q.y - p.y) := by rw [ht]; exact div_mul_cancel₀ _ hD.ne'
  have hXt : X = p + t • (q - p) := by
    unfold area2 at h0
    ext
    · simp only [P2.add_x, P2.smul_x, P2.sub_x]
      apply mul_left_cancel₀ hD.ne'
      linear_combination (-(q.x - p.x)) * ht' - (q.y - p.y) * h0
    · simp only [P2.add_y, P2.smul_y, P2.sub_y]
      apply mul_left_cancel₀ hD.ne'
      linear_combination (-(q.y - p.y)) * ht' + (q.x - p.x) * h0
  have c1 : area2 u p X = t * area2 u p q := by
    rw [hXt]; unfold area2; simp only [P2.add_x, P2.add_y, P2.smul_x, P2.smul_y, P2.sub_x, P2.sub_y]; ring
  have c2 : area2 q w X = (1 - t) * area2 q w p := by
    rw [hXt]; unfold area2; simp only [P2.add_x, P2.add_y, P2.smul_x, P2.smul_y, P2.sub_x, P2.sub_y]; ring
  rw [c1] at b1
  rw [c2] at b2
  have := nonneg_of_mul_nonneg_left b1 a1
  have := nonneg_of_mul_nonneg_left b2 a2
  exact ⟨t, by linarith, by linarith, hXt⟩

/-- Off the border, the parity rule says whether the point is on the left of all sides. -/
theorem convex_parity {poly : List (P2 K)} (hn : 2 < poly.length) (hc : StrictlyConvex poly) {X : P2 K}
    (hX : ¬ OnBoundary poly X) : Odd (sideCount poly (CrossesRay X)) ↔ InsideAllSides poly X := by
  classical
  have hup : ∀ (i j : Nat) (a b : P2 K × P2 K), (sides poly)[i]? = some a → (sides poly)[j]? = some b →
      decide (a.1.y ≤ X.y ∧ X.y < a.2.y ∧ 0 < area2 a.1 a.2 X) = true →
      decide (b.1.y ≤ X.y ∧ X.y < b.2.y ∧ 0 < area2 b.1 b.2 X) = true → i = j := by
    intro i j a b ha hb h1 h2
    rw [decide_eq_true_eq] at h1 h2
    exact one_up hn hc (sides_get.1 ha) (sides_get.1 hb) h1.1 h1.2.1 h2.1 h2.2.1
  have hdown : ∀ (i j : Nat) (a b : P2 K × P2 K), (sides poly)[i]? = some a → (sides poly)[j]? = some b →
      decide (a.2.y ≤ X.y ∧ X.y < a.1.y ∧ area2 a.1 a.2 X < 0) = true →
      decide (b.2.y ≤ X.y ∧ X.y < b.1.y ∧ area2 b.1 b.2 X < 0) = true → i = j := by
    intro i j a b ha hb h1 h2
    rw [decide_eq_true_eq] at h1 h2
    exact one_down hc (sides_get.1 ha) (sides_get.1 hb) h1.2.1 h1.1 h2.2.1 h2.1
  rw [crossing_split]
  constructor
  · intro hodd
    -- some side passes the height of the point
    have hex : ∃ v ∈ poly, ∃ w ∈ poly, v.y ≤ X.y ∧ X.y < w.y := by
      by_contra hcon
      push Not at hcon
      have z1 : (sides poly).countP (fun e => decide (e.1.y ≤ X.y ∧ X.y < e.2.y ∧ 0 < area2 e.1 e.2 X)) = 0 := by
        rw [List.countP_eq_zero]
        intro e he h
        rw [decide_eq_true_eq] at h
        exact absurd h.2.1 (not_lt.2 (hcon _ (vertex_of_side he).1 _ (vertex_of_side he).2 h.1))
      have z2 : (sides poly).countP (fun e => decide (e.2.y ≤ X.y ∧ X.y < e.1.y ∧ area2 e.1 e.2 X < 0)) = 0 := by
        rw [List.countP_eq_zero]
        intro e he h
        rw [decide_eq_true_eq] at h
        exact absurd h.2.1 (not_lt.2 (hcon _ (vertex_of_side he).2 _ (vertex_of_side he).1 h.1))
      rw [z1, z2] at hodd
      simp at hodd
    obtain ⟨v, hv, w, hw, hvX, hwX⟩ := hex
    obtain ⟨i, p, q, hpq, hp, hq⟩ := some_up hv hw hvX hwX
    obtain ⟨j, r, s, hrs, hs, hr⟩ := some_down hv hw hvX hwX
    have m1 := (mem_sides_iff poly (p, q)).2 ⟨i, hpq⟩
    have m2 := (mem_sides_iff poly (r, s)).2 ⟨j, hrs⟩
    obtain ⟨E, hE, hE1, -, -, -, hE2⟩ := cutAt (h := X.y) (by linarith : p.y < q.y) hp hq.le
    obtain ⟨D, hD, hD1, -, -, -, hD2⟩ := cutAt (h := X.y) (by linarith : s.y < r.y) hs hr.le
    rw [onSegment_swap] at hD1
    have iE : InsideAllSides poly E := inside_boundary hc ⟨i, p, q, hpq, hE1⟩
    have iD : InsideAllSides poly D := inside_boundary hc ⟨j, r, s, hrs, hD1⟩
    have e1 := hE2 X rfl
    have e2 : area2 r s X = -((r.y - s.y) * (D.x - X.x)) := by
      rw [← hD2 X rfl]; unfold area2; ring
    have hqp : (0 : K) < q.y - p.y := by linarith
    have hrs' : (0 : K) < r.y - s.y := by linarith
    have hDE : D.x ≤ E.x := by
      have h := iD (p, q) m1
      simp only at h
      rw [hE2 D hD] at h
      have := nonneg_of_mul_nonneg_right h hqp
      linarith
    have n1 : area2 p q X ≠ 0 := fun h => hX ⟨i, p, q, hpq, on_side_of_area h (Or.inl ⟨hp, hq⟩)⟩
    have n2 : area2 r s X ≠ 0 := fun h => hX ⟨j, r, s, hrs, on_side_of_area h (Or.inr ⟨hs, hr⟩)⟩
    have n1' : E.x ≠ X.x := fun h => n1 (by rw [e1, h, sub_self, mul_zero])
    have n2' : D.x ≠ X.x := fun h => n2 (by rw [e2, h, sub_self, mul_zero, neg_zero])
    rcases lt_or_gt_of_ne n1' with hEX | hEX
    · -- the point is to the right of both
      exfalso
      have z1 : (sides poly).countP (fun e => decide (e.1.y ≤ X.y ∧ X.y < e.2.y ∧ 0 < area2 e.1 e.2 X)) = 0 := by
        rw [List.countP_eq_zero]
        intro e he h
        rw [decide_eq_true_eq] at h
        obtain ⟨k, hk⟩ := (mem_sides_iff poly e).1 he
        have := one_up hn hc hpq hk hp hq h.1 h.2.1
        subst this
        have a1 : p = e.1 := Option.some.inj (hpq.1.symm.trans hk.1)
        have a2 : q = e.2 := Option.some.inj (hpq.2.symm.trans hk.2)
        have h3 := h.2.2
        rw [← a1, ← a2, e1] at h3
        have := pos_of_mul_pos_right h3 hqp.le
        linarith
      have z2 : (sides poly).countP (fun e => decide (e.2.y ≤ X.y ∧ X.y < e.1.y ∧ area2 e.1 e.2 X < 0)) = 0 := by
        rw [List.countP_eq_zero]
        intro e he h
        rw [decide_eq_true_eq] at h
        obtain ⟨k, hk⟩ := (mem_sides_iff poly e).1 he
        have := one_down hc hrs hk hr hs h.2.1 h.1
        subst this
        have a1 : r = e.1 := Option.some.inj (hrs.1.symm.trans hk.1)
        have a2 : s = e.2 := Option.some.inj (hrs.2.symm.trans hk.2)
        have h3 := h.2.2
        rw [← a1, ← a2, e2, neg_neg_iff_pos] at h3
        have := pos_of_mul_pos_right h3 hrs'.le
        linarith
      rw [z1, z2] at hodd
      simp at hodd
    · rcases lt_or_gt_of_ne n2' with hDX | hDX
      · -- between the two
        have hon : OnSegment D E X := by
          rw [onSegment_level (by rw [hD, hE])]
          refine ⟨by rw [hD], ?_⟩
          rw [min_eq_left hDE, max_eq_right hDE]
          exact ⟨hDX.le, hEX.le⟩
        exact inside_segment iD iE hon
      · exfalso
        have z1 : (sides poly).countP (fun e => decide (e.1.y ≤ X.y ∧ X.y < e.2.y ∧ 0 < area2 e.1 e.2 X)) = 1 :=
          countP_one _ _ hup ⟨(p, q), m1, by
            rw [decide_eq_true_eq]
            exact ⟨hp, hq, by simp only; rw [e1]; exact mul_pos hqp (by linarith)⟩⟩
        have z2 : (sides poly).countP (fun e => decide (e.2.y ≤ X.y ∧ X.y < e.1.y ∧ area2 e.1 e.2 X < 0)) = 1 :=
          countP_one _ _ hdown ⟨(r, s), m2, by
            rw [decide_eq_true_eq]
            exact ⟨hs, hr, by simp only; rw [e2, neg_neg_iff_pos]; exact mul_pos hrs' (by linarith)⟩⟩
        rw [z1, z2] at hodd
        exact absurd hodd (by decide)
  · intro hin
    have z2 : (sides poly).countP (fun e => decide (e.2.y ≤ X.y ∧ X.y < e.1.y ∧ area2 e.1 e.2 X < 0)) = 0 := by
      rw [List.countP_eq_zero]
      intro e he h
      rw [decide_eq_true_eq] at h
      exact absurd h.2.2 (not_lt.2 (hin e he))
    by_cases hst : ∀ e ∈ sides poly, 0 < area2 e.1 e.2 X
    · obtain ⟨w, hw, hwX⟩ := strict_inside_beyond hn hc hst one_ne_zero
      obtain ⟨v, hv, hvX⟩ := strict_inside_beyond hn hc hst (c := -1) (by norm_num)
      obtain ⟨i, p, q, hpq, hp, hq⟩ := some_up (h := X.y) hv hw (by linarith) (by linarith)
      have m1 := (mem_sides_iff poly (p, q)).2 ⟨i, hpq⟩
      have z1 : (sides poly).countP (fun e => decide (e.1.y ≤ X.y ∧ X.y < e.2.y ∧ 0 < area2 e.1 e.2 X)) = 1 :=
        countP_one _ _ hup ⟨(p, q), m1, by
          rw [decide_eq_true_eq]
          exact ⟨hp, hq, hst _ m1⟩⟩
      rw [z1, z2]
      decide
    · exfalso
      push Not at hst
      obtain ⟨e, he, h⟩ := hst
      obtain ⟨k, hk⟩ := (mem_sides_iff poly e).1 he
      exact hX ⟨k, e.1, e.2, hk, on_side_of_inside hn hc hk hin (le_antisymm h (hin e he))⟩

/-- The closed polygon by the parity rule is the common part of the left sides. -/
theorem convex_closed {poly : List (P2 K)} (hn : 2 < poly.length) (hc : StrictlyConvex poly) (X : P2 K) :
    InClosed poly X ↔ InsideAllSides poly X := by
  by_cases hX : OnBoundary poly X
  · exact ⟨fun _ => inside_boundary hc hX, fun _ => Or.inl hX⟩
  · unfold InClosed
    rw [convex_parity hn hc hX]
    simp [hX]

theorem strictlyConvex_triangle {A B C : P2 K} (h : 0 < area2 A B C) : StrictlyConvex [A, B, C] := by
  intro i j k a b c hij hjk ha hb hc
  have hk : k < 3 := by
    have := (List.getElem?_eq_some_iff.1 hc).1
    simpa using this
  obtain ⟨rfl, rfl, rfl⟩ : i = 0 ∧ j = 1 ∧ k = 2 := by omega
  simp at ha hb hc
  rw [← ha, ← hb, ← hc]
  exact h

end Geometrix
