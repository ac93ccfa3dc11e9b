import Verif.Lemmas.SimpleArea

/-!
# The sign of the area of a simple polygon, continued
-/

set_option linter.unusedSectionVars false

namespace Geometrix

open Spec

variable {K : Type*} [Field K] [LinearOrder K] [IsStrictOrderedRing K]

theorem passes_inside {m : K} {e : P2 K × P2 K} (h : PassesAt m e) : InsideSegment e.1 e.2 ⟨sideX m e.1 e.2, m⟩ := by
  rcases h with ⟨h1, h2⟩ | ⟨h1, h2⟩
  · have h0 : 0 < e.2.y - e.1.y := by linarith
    refine ⟨(m - e.1.y) / (e.2.y - e.1.y), div_pos (by linarith) h0, (div_lt_one h0).2 (by linarith), ?_⟩
    ext
    · simp only [sideX, P2.add_x, P2.smul_x, P2.sub_x]
    · simp only [P2.add_y, P2.smul_y, P2.sub_y]
      rw [div_mul_cancel₀ _ h0.ne']; ring
  · have h0 : 0 < e.1.y - e.2.y := by linarith
    have hq : (m - e.1.y) / (e.2.y - e.1.y) = (e.1.y - m) / (e.1.y - e.2.y) := by
      rw [← neg_sub e.1.y e.2.y, ← neg_sub e.1.y m, neg_div_neg_eq]
    refine ⟨(e.1.y - m) / (e.1.y - e.2.y), div_pos (by linarith) h0, (div_lt_one h0).2 (by linarith), ?_⟩
    ext
    · simp only [sideX, P2.add_x, P2.smul_x, P2.sub_x, hq]
    · simp only [P2.add_y, P2.smul_y, P2.sub_y]
      have : (e.1.y - m) / (e.1.y - e.2.y) * (e.2.y - e.1.y) = -(e.1.y - m) := by
        rw [← neg_sub e.1.y e.2.y, mul_neg, div_mul_cancel₀ _ h0.ne']
      rw [this]; ring

theorem crossesRay_passes {x m : K} {e : P2 K × P2 K} (h1 : e.1.y ≠ m) (h2 : e.2.y ≠ m) :
    CrossesRay ⟨x, m⟩ e.1 e.2 ↔ PassesAt m e ∧ x < sideX m e.1 e.2 := by
  constructor
  · rintro ⟨h, X, hX, t, t0, t1, ht⟩
    have hP : PassesAt m e := by
      rcases h with ⟨k1, k2⟩ | ⟨k1, k2⟩
      · exact Or.inl ⟨lt_of_le_of_ne k1 h1, k2⟩
      · exact Or.inr ⟨lt_of_le_of_ne k1 h2, k2⟩
    refine ⟨hP, ?_⟩
    have hne : e.2.y - e.1.y ≠ 0 := by
      rcases hP with ⟨k1, k2⟩ | ⟨k1, k2⟩
      · exact (sub_pos.2 (k1.trans k2)).ne'
      · exact (sub_neg.2 (k1.trans k2)).ne
    have hx := congrArg P2.x ht
    have hy := congrArg P2.y ht
    simp only [P2.add_x, P2.add_y, P2.smul_x, P2.smul_y, P2.sub_x, P2.sub_y] at hx hy
    have : t = (m - e.1.y) / (e.2.y - e.1.y) := by rw [eq_div_iff hne]; linarith
    unfold sideX
    rw [← this, ← hx]; exact hX
  · rintro ⟨hP, hx⟩
    obtain ⟨t, t0, t1, ht⟩ := passes_inside hP
    refine ⟨?_, _, hx, t, t0.le, t1.le, ht⟩
    rcases hP with ⟨k1, k2⟩ | ⟨k1, k2⟩
    · exact Or.inl ⟨k1.le, k2⟩
    · exact Or.inr ⟨k1.le, k2⟩

theorem gap_below (T : Finset K) (x : K) : ∃ d : K, 0 < d ∧ ∀ y ∈ T, y < x → y ≤ x - d := by
  rcases (T.filter (fun y => y < x)).eq_empty_or_nonempty with h | h
  · refine ⟨1, one_pos, fun y hy hyx => ?_⟩
    have : y ∈ T.filter (fun y => y < x) := Finset.mem_filter.2 ⟨hy, hyx⟩
    rw [h] at this
    simp at this
  · refine ⟨x - (T.filter (fun y => y < x)).max' h, sub_pos.2 (Finset.mem_filter.1 (Finset.max'_mem _ h)).2, fun y hy hyx => ?_⟩
    rw [sub_sub_cancel]
    exact Finset.le_max' _ _ (Finset.mem_filter.2 ⟨hy, hyx⟩)

section simple

variable {poly : List (P2 K)} (hn : 2 < poly.length) (hp : ProperPolygon poly) (hs : SimplePolygon poly)
include hn hp hs

/-- West of a rising side is its left, west of a falling side its right. -/
theorem west_side {i : Nat} {p q x : P2 K} (h : IsPolygonEdge poly i p q) (hx : InsideSegment p q x) (hy : p.y ≠ q.y) {b : Bool}
    (hb : EvLeft poly (p, q) b) : ∃ e0 : K, 0 < e0 ∧ ∀ δ, 0 < δ → δ < e0 →
      pointInPolygon ⟨x.x - δ, x.y⟩ poly = if p.y < q.y then b else !b := by
  obtain ⟨ρ, ρ0, hρ⟩ := keep_away x x (sides poly)
  have hball : ∀ Y, OnBorder (sides poly) Y → sqDist x Y < ρ → OnSegment p q Y := by
    rintro Y ⟨s, hs', hY⟩ hd
    obtain ⟨k, hk⟩ := (mem_sides_iff poly s).1 hs'
    by_cases hk1 : k = i
    · subst hk1
      have e1 := Option.some.inj (hk.1.symm.trans h.1)
      have e2 := Option.some.inj (hk.2.symm.trans h.2)
      rw [e1, e2] at hY
      exact hY
    exfalso
    refine absurd hd (not_lt.2 (hρ s hs' ?_ x Y (onSegment_left _ _) hY))
    rintro ⟨P, ⟨t, -, -, rfl⟩, hP⟩
    have e : x + t • (x - x) = x := by ext <;> simp
    rw [e] at hP
    exact simple_inner hn hp hs h hk (Ne.symm hk1) hx hP
  have hL : 0 < dot (toLeft (p, q)) (toLeft (p, q)) := toLeft_pos (s := (p, q)) (hp i p q h)
  have hx0 : area2 p q x = 0 := by
    obtain ⟨t, -, -, rfl⟩ := hx
    unfold area2; simp only [P2.add_x, P2.add_y, P2.smul_x, P2.smul_y, P2.sub_x, P2.sub_y]; ring
  obtain ⟨ε, ε0, hε⟩ := ball_small x (toLeft (p, q)) ⟨-1, 0⟩ ⟨0, 0⟩ ρ0
  obtain ⟨e1, e1p, he1⟩ := hb x hx
  obtain ⟨e2, e2p, he2⟩ := pip_flip hn hp hs h hx
  obtain ⟨e, ep, he⟩ := exists_between (lt_min ε0 (lt_min e1p e2p))
  have k0 : e < ε := lt_of_lt_of_le he (min_le_left _ _)
  have k1 : e < e1 := lt_of_lt_of_le he ((min_le_right _ _).trans (min_le_left _ _))
  have k2 : e < e2 := lt_of_lt_of_le he ((min_le_right _ _).trans (min_le_right _ _))
  refine ⟨ε, ε0, fun δ δ0 δ1 => ?_⟩
  have z1 : area2 p q p = 0 := by unfold area2; ring
  have z2 : area2 p q q = 0 := by unfold area2; ring
  have bQ : sqDist x ⟨x.x - δ, x.y⟩ < ρ := by
    have := hε 0 δ 0 (by simpa using ε0.le) (by rw [abs_of_pos δ0]; exact δ1.le) (by simpa using ε0.le)
    convert this using 2
    ext <;> simp <;> ring
  have bP : ∀ f, |f| ≤ ε → sqDist x (x + f • toLeft (p, q)) < ρ := by
    intro f hf
    have := hε f 0 0 hf (by simpa using ε0.le) (by simpa using ε0.le)
    convert this using 2
    ext <;> simp
  have aQ : area2 p q ⟨x.x - δ, x.y⟩ = (q.y - p.y) * δ := by
    have : area2 p q ⟨x.x - δ, x.y⟩ = area2 p q x + (q.y - p.y) * δ := by unfold area2; ring
    rw [this, hx0, zero_add]
  have aP : ∀ f, area2 p q (x + f • toLeft (p, q)) = f * dot (toLeft (p, q)) (toLeft (p, q)) := by
    intro f
    have : area2 p q (x + f • toLeft (p, q)) = area2 p q x + f * dot (toLeft (p, q)) (toLeft (p, q)) := by
      unfold area2 dot toLeft; simp only [P2.add_x, P2.add_y, P2.smul_x, P2.smul_y]; ring
    rw [this, hx0, zero_add]
  have key : ∀ (c f : K), |f| ≤ ε → 0 < c * f → 0 < c * (q.y - p.y) →
      pointInPolygon (x + f • toLeft (p, q)) poly = pointInPolygon ⟨x.x - δ, x.y⟩ poly := by
    intro c f hf h1 h2
    refine pip_along fun t t0 t1 hbd => ?_
    refine way_misses (a := p) (b := q) (c := c) (by rw [z1]; simp) (by rw [z2]; simp) ?_ ?_ t t0 t1
      (hball _ hbd (ball_convex (bP f hf) bQ t0 t1))
    · rw [aP, ← mul_assoc]; exact mul_pos h1 hL
    · rw [aQ, ← mul_assoc]; exact mul_pos h2 δ0
  rcases lt_or_gt_of_ne hy with hlt | hlt
  · rw [if_pos hlt, ← he1 e ep k1]
    exact (key 1 e (by rw [abs_of_pos ep]; exact k0.le) (by linarith) (by linarith)).symm
  · rw [if_neg hlt.le.not_gt, ← he1 e ep k1, ← he2 e ep k2]
    have hm : x - e • toLeft (p, q) = x + (-e) • toLeft (p, q) := by
      ext <;> simp only [P2.add_x, P2.add_y, P2.smul_x, P2.smul_y, P2.sub_x, P2.sub_y] <;> ring
    rw [hm]
    exact (key (-1) (-e) (by rw [abs_neg, abs_of_pos ep]; exact k0.le) (by linarith) (by linarith)).symm

end simple

/-- The sum of the crossings of the sides with a level line, rising ones counted positive. -/
def levelSum (poly : List (P2 K)) (m : K) : K :=
  ((sides poly).map fun e => if PassesAt m e then upSign e * sideX m e.1 e.2 else 0).sum

section simple

variable {poly : List (P2 K)} (hn : 2 < poly.length) (hp : ProperPolygon poly) (hs : SimplePolygon poly)
include hn hp hs

/-- A level line crosses the sides in an even number of places, the inside is where an odd number of them is further east, and
the signs alternate. -/
theorem level_slice {b : Bool} (hall : ∀ s ∈ sides poly, EvLeft poly s b) {m : K} (hm : ∀ v ∈ poly, v.y ≠ m) :
    ∃ T : Finset K, Even T.card ∧ (∀ x, pointInPolygon ⟨x, m⟩ poly = true ↔ Odd (T.filter (fun y => x < y)).card) ∧
      (∀ G : K → K, ((sides poly).map fun e => if PassesAt m e then upSign e * G (sideX m e.1 e.2) else 0).sum =
        (if b then 1 else -1) * ∑ x ∈ T, (if Odd (T.filter (fun y => x ≤ y)).card then 1 else -1) * G x) ∧
      ((∃ e ∈ sides poly, PassesAt m e) → T.Nonempty) := by
  classical
  have hmem : ∀ e ∈ sides poly, e.1.y ≠ m ∧ e.2.y ≠ m := by
    intro e he
    obtain ⟨i, hi⟩ := (mem_sides_iff poly e).1 he
    exact ⟨hm _ (List.mem_of_getElem? hi.1), hm _ (List.mem_of_getElem? hi.2)⟩
  set E : Fin (sides poly).length → P2 K × P2 K := fun i => (sides poly)[i] with hE
  have hEm : ∀ i, E i ∈ sides poly := fun i => List.getElem_mem _
  have hEe : ∀ i : Fin (sides poly).length, IsPolygonEdge poly i (E i).1 (E i).2 := fun i =>
    sides_getElem (List.getElem?_eq_getElem i.2)
  set X : Fin (sides poly).length → K := fun i => sideX m (E i).1 (E i).2 with hX
  set F : Finset (Fin (sides poly).length) := Finset.univ.filter (fun i => PassesAt m (E i)) with hF
  have hin : Set.InjOn X F := by
    intro i hi j hj hij
    by_contra hne
    have hi' := passes_inside (Finset.mem_filter.1 hi).2
    have hj' := passes_inside (Finset.mem_filter.1 hj).2
    obtain ⟨t, t0, t1, ht⟩ := hj'
    refine simple_inner hn hp hs (hEe i) (hEe j) (fun h => hne (Fin.ext h)) hi' ⟨t, t0.le, t1.le, ?_⟩
    rw [← ht]
    congr 1
  have hcount : ∀ x, pointInPolygon ⟨x, m⟩ poly = true ↔ Odd (F.filter (fun i => x < X i)).card := by
    intro x
    rw [pointInPolygon_iff]
    unfold sideCount
    rw [countP_fin, hF, Finset.filter_filter]
    have : ∀ i : Fin (sides poly).length, (decide (CrossesRay ⟨x, m⟩ (sides poly)[i].1 (sides poly)[i].2) = true) ↔
        (PassesAt m (E i) ∧ x < X i) := by
      intro i
      rw [decide_eq_true_iff]
      exact crossesRay_passes (hmem _ (hEm i)).1 (hmem _ (hEm i)).2
    simp only [this]
  set T := F.image X with hT
  have hTF : T.card = F.card := Finset.card_image_of_injOn hin
  have hTx : ∀ x, (T.filter (fun y => x ≤ y)).card = (F.filter (fun i => x ≤ X i)).card := by
    intro x
    rw [hT, Finset.filter_image]
    exact Finset.card_image_of_injOn (hin.mono (by exact_mod_cast Finset.filter_subset _ _))
  -- far in the west
  have heven : Even T.card := by
    obtain ⟨M, hM⟩ := (T ∪ (poly.map P2.x).toFinset).bddBelow
    have h1 := pip_outside (A := ⟨M - 1, m⟩) (poly := poly) (Or.inr (Or.inl fun v hv => by
      have := hM (Finset.mem_coe.2 (Finset.mem_union_right _ (List.mem_toFinset.2 (List.mem_map_of_mem (f := P2.x) hv))))
      show M - 1 < v.x
      linarith))
    have h2 := mt (hcount (M - 1)).2 (by rw [h1]; simp)
    rw [Finset.filter_true_of_mem, ← hTF, Nat.not_odd_iff_even] at h2
    · exact h2
    · intro i hi
      have := hM (Finset.mem_coe.2 (Finset.mem_union_left _ (Finset.mem_image_of_mem X hi)))
      linarith
  set w : K → K := fun x => if Odd (T.filter (fun y => x ≤ y)).card then 1 else -1 with hw
  have hsign : ∀ i ∈ F, upSign (E i) = (if b then 1 else -1) * w (X i) := by
    intro i hi
    have hpi := (Finset.mem_filter.1 hi).2
    have hy : (E i).1.y ≠ (E i).2.y := by
      rcases hpi with ⟨k1, k2⟩ | ⟨k1, k2⟩
      · exact (k1.trans k2).ne
      · exact (k1.trans k2).ne'
    obtain ⟨e0, e0p, he0⟩ := west_side hn hp hs (hEe i) (passes_inside hpi) hy (hall _ (hEm i))
    obtain ⟨d, d0, hd⟩ := gap_below T (X i)
    obtain ⟨δ, δ0, hδ⟩ := exists_between (lt_min e0p d0)
    have h1 := he0 δ δ0 (lt_of_lt_of_le hδ (min_le_left _ _))
    have h2 := hcount (X i - δ)
    have h3 : F.filter (fun j => X i - δ < X j) = F.filter (fun j => X i ≤ X j) := by
      refine Finset.filter_congr fun j hj => ⟨fun h => ?_, fun h => by linarith⟩
      by_contra hlt
      have := hd (X j) (Finset.mem_image_of_mem X hj) (not_le.1 hlt)
      have := lt_of_lt_of_le hδ (min_le_right _ _)
      linarith
    rw [h3, ← hTx] at h2
    have h1' : pointInPolygon ⟨X i - δ, m⟩ poly = if (E i).1.y < (E i).2.y then b else !b := h1
    rw [h1'] at h2
    unfold upSign
    simp only [hw]
    by_cases hup : (E i).1.y < (E i).2.y
    · rw [if_pos hup] at h2
      rw [if_pos hup]
      cases b
      · rw [if_neg (mt h2.2 (by simp))]; simp
      · rw [if_pos (h2.1 rfl)]; simp
    · rw [if_neg hup] at h2
      rw [if_neg hup]
      cases b
      · rw [if_pos (h2.1 rfl)]; simp
      · rw [if_neg (mt h2.2 (by simp))]; simp
  have hsum : ∀ G : K → K, ((sides poly).map fun e => if PassesAt m e then upSign e * G (sideX m e.1 e.2) else 0).sum =
      (if b then 1 else -1) * ∑ x ∈ T, w x * G x := by
    intro G
    rw [sum_map_fin, hT, Finset.sum_image hin, Finset.mul_sum, hF, Finset.sum_filter]
    refine Finset.sum_congr rfl fun i _ => ?_
    by_cases hpi : PassesAt m (E i)
    · rw [if_pos hpi, if_pos hpi]
      show upSign (E i) * G (X i) = _
      rw [hsign i (Finset.mem_filter.2 ⟨Finset.mem_univ _, hpi⟩), mul_assoc]
    · rw [if_neg hpi, if_neg hpi]
  have hTx' : ∀ x, (T.filter (fun y => x < y)).card = (F.filter (fun i => x < X i)).card := by
    intro x
    rw [hT, Finset.filter_image]
    exact Finset.card_image_of_injOn (hin.mono (by exact_mod_cast Finset.filter_subset _ _))
  refine ⟨T, heven, fun x => by rw [hTx']; exact hcount x, hsum, ?_⟩
  rintro ⟨e, he, hpe⟩
  obtain ⟨k, hk, hke⟩ := List.mem_iff_getElem.1 he
  refine ⟨X ⟨k, hk⟩, Finset.mem_image_of_mem X (Finset.mem_filter.2 ⟨Finset.mem_univ _, ?_⟩)⟩
  show PassesAt m (sides poly)[k]
  rw [hke]; exact hpe

theorem levelSum_pos {b : Bool} (hall : ∀ s ∈ sides poly, EvLeft poly s b) {m : K} (hm : ∀ v ∈ poly, v.y ≠ m)
    (hpass : ∃ e ∈ sides poly, PassesAt m e) : 0 < (if b then 1 else -1) * levelSum poly m := by
  obtain ⟨T, ⟨n, h1⟩, -, h2, h3⟩ := level_slice hn hp hs hall hm
  have hpos := (alternating_pos n T (by omega) (fun x => if Odd (T.filter (fun y => x ≤ y)).card then 1 else -1)
    (fun x _ => rfl)).2 (h3 hpass)
  have h2' : levelSum poly m = _ := h2 id
  simp only [id] at h2'
  rw [h2', ← mul_assoc]
  have : ((if b then 1 else -1) * (if b then 1 else -1) : K) = 1 := by cases b <;> simp
  rw [this, one_mul]; exact hpos

end simple

/-- Twice the area below a height. -/
def belowSum (poly : List (P2 K)) (h : K) : K := ((sides poly).map (below h)).sum

theorem belowSum_slab {poly : List (P2 K)} {h1 h2 : K} (h : h1 < h2) (hv : ∀ v ∈ poly, v.y ≤ h1 ∨ h2 ≤ v.y) :
    belowSum poly h2 - belowSum poly h1 = 2 * (h2 - h1) * levelSum poly ((h1 + h2) / 2) := by
  unfold belowSum levelSum
  rw [sum_map_fin, sum_map_fin, sum_map_fin, ← Finset.sum_sub_distrib, Finset.mul_sum]
  refine Finset.sum_congr rfl fun i _ => ?_
  obtain ⟨k, hk⟩ := (mem_sides_iff poly (sides poly)[i]).1 (List.getElem_mem _)
  exact below_slab h (hv _ (List.mem_of_getElem? hk.1)) (hv _ (List.mem_of_getElem? hk.2))

section simple

variable {poly : List (P2 K)} (hn : 2 < poly.length) (hp : ProperPolygon poly) (hs : SimplePolygon poly)
include hn hp hs

theorem belowSum_mono {b : Bool} (hall : ∀ s ∈ sides poly, EvLeft poly s b) : ∀ (n : Nat) (h1 h2 : K), h1 < h2 →
    ((poly.map P2.y).toFinset.filter (fun y => h1 < y ∧ y < h2)).card ≤ n → (∃ v ∈ poly, v.y ≤ h1) → (∃ v ∈ poly, h2 ≤ v.y) →
      0 < (if b then 1 else -1) * (belowSum poly h2 - belowSum poly h1) := by
  have hnone : ∀ h1 h2 : K, h1 < h2 → (∀ v ∈ poly, v.y ≤ h1 ∨ h2 ≤ v.y) → (∃ v ∈ poly, v.y ≤ h1) → (∃ v ∈ poly, h2 ≤ v.y) →
      0 < (if b then 1 else -1) * (belowSum poly h2 - belowSum poly h1) := by
    rintro h1 h2 h hv ⟨v, hv1, hv2⟩ ⟨w, hw1, hw2⟩
    rw [belowSum_slab h hv]
    have hm : ∀ v ∈ poly, v.y ≠ (h1 + h2) / 2 := by
      intro u hu hu'
      rcases hv u hu with k | k <;> linarith
    obtain ⟨i, p, q, hi, k1, k2⟩ := some_up hv1 hw1 (h := (h1 + h2) / 2) (by linarith) (by linarith)
    have := levelSum_pos hn hp hs hall hm ⟨(p, q), (mem_sides_iff poly _).2 ⟨i, hi⟩,
      Or.inl ⟨lt_of_le_of_ne k1 (hm p (List.mem_of_getElem? hi.1)), k2⟩⟩
    have h0 : 0 < 2 * (h2 - h1) := by linarith
    calc 0 < 2 * (h2 - h1) * ((if b then 1 else -1) * levelSum poly ((h1 + h2) / 2)) := mul_pos h0 this
      _ = _ := by ring
  intro n
  induction n with
  | zero =>
    intro h1 h2 h hc hl hu
    refine hnone h1 h2 h (fun v hv => ?_) hl hu
    by_contra hcon
    push Not at hcon
    have : v.y ∈ (poly.map P2.y).toFinset.filter (fun y => h1 < y ∧ y < h2) :=
      Finset.mem_filter.2 ⟨List.mem_toFinset.2 (List.mem_map_of_mem hv), hcon⟩
    rw [Finset.card_eq_zero.1 (Nat.le_zero.1 hc)] at this
    simp at this
  | succ n ih =>
    intro h1 h2 h hc hl hu
    by_cases hex : ∃ v ∈ poly, h1 < v.y ∧ v.y < h2
    · obtain ⟨v, hv, k1, k2⟩ := hex
      have hmem : v.y ∈ (poly.map P2.y).toFinset.filter (fun y => h1 < y ∧ y < h2) :=
        Finset.mem_filter.2 ⟨List.mem_toFinset.2 (List.mem_map_of_mem hv), k1, k2⟩
      have c1 : ((poly.map P2.y).toFinset.filter (fun y => h1 < y ∧ y < v.y)).card <
          ((poly.map P2.y).toFinset.filter (fun y => h1 < y ∧ y < h2)).card := by
        refine Finset.card_lt_card ((Finset.ssubset_iff_of_subset ?_).2 ⟨v.y, hmem, ?_⟩)
        · intro y hy
          obtain ⟨a, a1, a2⟩ := Finset.mem_filter.1 hy
          exact Finset.mem_filter.2 ⟨a, a1, a2.trans k2⟩
        · exact fun hy => lt_irrefl _ (Finset.mem_filter.1 hy).2.2
      have c2 : ((poly.map P2.y).toFinset.filter (fun y => v.y < y ∧ y < h2)).card <
          ((poly.map P2.y).toFinset.filter (fun y => h1 < y ∧ y < h2)).card := by
        refine Finset.card_lt_card ((Finset.ssubset_iff_of_subset ?_).2 ⟨v.y, hmem, ?_⟩)
        · intro y hy
          obtain ⟨a, a1, a2⟩ := Finset.mem_filter.1 hy
          exact Finset.mem_filter.2 ⟨a, k1.trans a1, a2⟩
        · exact fun hy => lt_irrefl _ (Finset.mem_filter.1 hy).2.1
      have r1 := ih h1 v.y k1 (by omega) hl ⟨v, hv, le_rfl⟩
      have r2 := ih v.y h2 k2 (by omega) ⟨v, hv, le_rfl⟩ hu
      calc 0 < _ := add_pos r1 r2
        _ = _ := by ring
    · refine hnone h1 h2 h (fun v hv => ?_) hl hu
      by_contra hcon
      push Not at hcon
      exact hex ⟨v, hv, hcon⟩

theorem area_sign {u v w : P2 K} (hbot : Bottom poly u v w) (ha : area2 u v w ≠ 0) {b : Bool} (hall : ∀ s ∈ sides poly, EvLeft poly s b) :
    0 < (if b then 1 else -1) * cyclicSum cross poly := by
  classical
  obtain ⟨⟨i, h1, h2⟩, hlow⟩ := hbot
  have hu := List.mem_of_getElem? h1.1
  have hv := List.mem_of_getElem? h1.2
  have hw := List.mem_of_getElem? h2.2
  have hle : ∀ x ∈ poly, v.y ≤ x.y := fun x hx => (hlow x hx).elim le_of_lt fun h => h.1.le
  obtain ⟨t, ht, hmax⟩ := Finset.exists_max_image poly.toFinset P2.y ⟨v, List.mem_toFinset.2 hv⟩
  have hmax' : ∀ x ∈ poly, x.y ≤ t.y := fun x hx => hmax x (List.mem_toFinset.2 hx)
  have hlt : v.y < t.y := by
    by_contra hcon
    apply ha
    have e1 : u.y = v.y := le_antisymm ((hmax' u hu).trans (not_lt.1 hcon)) (hle u hu)
    have e2 : w.y = v.y := le_antisymm ((hmax' w hw).trans (not_lt.1 hcon)) (hle w hw)
    unfold area2; rw [e1, e2]; ring
  have hmono := belowSum_mono hn hp hs hall _ v.y t.y hlt le_rfl ⟨v, hv, le_rfl⟩ ⟨t, List.mem_toFinset.1 ht, le_rfl⟩
  have hb0 : belowSum poly v.y = 0 := by
    unfold belowSum
    rw [sum_map_fin]
    refine Finset.sum_eq_zero fun k _ => ?_
    obtain ⟨j, hj⟩ := (mem_sides_iff poly (sides poly)[k]).1 (List.getElem_mem _)
    exact below_bottom (hle _ (List.mem_of_getElem? hj.1)) (hle _ (List.mem_of_getElem? hj.2))
  have hb1 : belowSum poly t.y = cyclicSum (fun a b : P2 K => (b.y - a.y) * (a.x + b.x)) poly := by
    unfold belowSum cyclicSum
    rw [← List.map_uncurry_zip_eq_zipWith]
    congr 1
    refine List.map_congr_left fun e he => ?_
    obtain ⟨j, hj⟩ := (mem_sides_iff poly e).1 he
    exact below_top (hmax' _ (List.mem_of_getElem? hj.1)) (hmax' _ (List.mem_of_getElem? hj.2))
  have hcr : cyclicSum cross poly = cyclicSum (fun a b : P2 K => (b.y - a.y) * (a.x + b.x)) poly := by
    have e1 : ∀ a b : P2 K, (b.y - a.y) * (a.x + b.x) = cross a b + (b.x * b.y - a.x * a.y) := by
      intro a b; unfold cross; ring
    rw [cyclicSum_congr e1, cyclicSum_add, cyclicSum_telescope (fun a : P2 K => a.x * a.y), add_zero]
  rw [hcr, ← hb1]
  rwa [hb0, sub_zero] at hmono

theorem area_pos (ho : BottomLeftTurn poly) : 0 < cyclicSum cross poly := by
  obtain ⟨u, v, w, hb, ha⟩ := ho
  have hall : ∀ s ∈ sides poly, EvLeft poly s true := by
    obtain ⟨i, h1, -⟩ := hb.1
    exact evLeft_all hn hp hs h1 ((evLeft_bottom hn hp hs hb).1 ha)
  have := area_sign hn hp hs hb ha.ne' hall
  simpa using this

theorem area_neg (ho : BottomRightTurn poly) : cyclicSum cross poly < 0 := by
  obtain ⟨u, v, w, hb, ha⟩ := ho
  have hall : ∀ s ∈ sides poly, EvLeft poly s false := by
    obtain ⟨i, h1, -⟩ := hb.1
    exact evLeft_all hn hp hs h1 ((evLeft_bottom hn hp hs hb).2 ha)
  have := area_sign hn hp hs hb ha.ne hall
  simpa using this

/-- The inside is not on both hands. -/
theorem not_both_borders (hl : LeftBorderOf (sides poly) (fun x => pointInPolygon x poly = true))
    (hr : BorderOf (sides poly) (fun x => pointInPolygon x poly = true)) : False := by
  have h0 : IsPolygonEdge poly 0 poly[0] (poly[(0 + 1) % poly.length]'(Nat.mod_lt _ (by omega))) :=
    ⟨List.getElem?_eq_getElem _, List.getElem?_eq_getElem _⟩
  set p := poly[0]
  set q := poly[(0 + 1) % poly.length]'(Nat.mod_lt _ (by omega))
  have hm : (p, q) ∈ sides poly := (mem_sides_iff poly _).2 ⟨0, h0⟩
  have hx : InsideSegment p q (p + (1 / 2 : K) • (q - p)) := ⟨1 / 2, by norm_num, by norm_num, rfl⟩
  have key : ∀ b : Bool, (∀ s ∈ sides poly, EvLeft poly s b) → False := by
    intro b hall
    obtain ⟨e0, e1, e2⟩ := hall _ hm _ hx
    obtain ⟨e, k0, k1, -, k3⟩ := hl.left (p, q) hm _ hx e0 e1
    obtain ⟨f, l0, l1, -, l3⟩ := hr.left (p, q) hm _ hx e0 e1
    have m1 := e2 e k0 k1
    have m2 := e2 f l0 l1
    simp only [m1, m2] at k3 l3
    cases b <;> simp at k3 l3
  rcases bottom_turn hn hp hs with ⟨u, v, w, hb, ha⟩ | ⟨u, v, w, hb, ha⟩ <;> obtain ⟨i, h1, -⟩ := hb.1
  · exact key true (evLeft_all hn hp hs h1 ((evLeft_bottom hn hp hs hb).1 ha))
  · exact key false (evLeft_all hn hp hs h1 ((evLeft_bottom hn hp hs hb).2 ha))

end simple

end Geometrix
