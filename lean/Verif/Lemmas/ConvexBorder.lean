import Verif.Lemmas.ConvexParity
import Verif.Lemmas.NodeBspTri
import Verif.Lemmas.SolidBspRect

/-!
# The sides of a strictly convex polygon are the border of its inside
-/

set_option linter.unusedSectionVars false

namespace Geometrix

open Spec

variable {K : Type*} [Field K] [LinearOrder K] [IsStrictOrderedRing K]

/-- One step is short enough for finitely many linear functions which are positive at the start. -/
theorem short_step (l : List (K × K)) (h : ∀ x ∈ l, 0 < x.1) :
    ∃ e0 : K, 0 < e0 ∧ ∀ x ∈ l, ∀ e, 0 < e → e ≤ e0 → 0 < x.1 + e * x.2 := by
  induction l with
  | nil => exact ⟨1, one_pos, by simp⟩
  | cons a l ih =>
    obtain ⟨e0, h0, h1⟩ := ih fun x hx => h x (List.mem_cons_of_mem _ hx)
    have ha : 0 < a.1 := h a List.mem_cons_self
    have hd : 0 < |a.2| + 1 := by positivity
    refine ⟨min e0 (a.1 / (|a.2| + 1)), lt_min h0 (div_pos ha hd), ?_⟩
    intro x hx e e1 e2
    rcases List.mem_cons.1 hx with rfl | hx
    · have h3 := (le_div_iff₀ hd).1 (e2.trans (min_le_right _ _))
      have h4 := neg_abs_le x.2
      nlinarith
    · exact h1 x hx e e1 (e2.trans (min_le_left _ _))

/-- Two sides of a strictly convex polygon: one end of the second is strictly on the left of the first. -/
theorem convex_two_sides {poly : List (P2 K)} (hn : 2 < poly.length) (hc : StrictlyConvex poly) {i j : Nat} {p q r s : P2 K}
    (h1 : IsPolygonEdge poly i p q) (h2 : IsPolygonEdge poly j r s) (hij : i ≠ j) : 0 < area2 p q r ∨ 0 < area2 p q s := by
  have hi : i < poly.length := (List.getElem?_eq_some_iff.1 h1.1).1
  have hj : j < poly.length := (List.getElem?_eq_some_iff.1 h2.1).1
  by_cases hj1 : j = (i + 1) % poly.length
  · refine Or.inr (convex_vertex_strict hc h1 h2.2 ?_ ?_)
    · rw [hj1, Nat.mod_add_mod]
      rcases Nat.lt_or_ge (i + 1 + 1) poly.length with h' | h'
      · rw [Nat.mod_eq_of_lt h']; omega
      · rw [Nat.mod_eq_sub_mod h', Nat.mod_eq_of_lt (by omega)]; omega
    · rw [← hj1]
      rcases Nat.lt_or_ge (j + 1) poly.length with h' | h'
      · rw [Nat.mod_eq_of_lt h']; omega
      · rw [show j + 1 = poly.length by omega, Nat.mod_self]; omega
  · exact Or.inl (convex_vertex_strict hc h1 h2.1 (Ne.symm hij) hj1)

theorem area2_along (a b p q : P2 K) (t : K) :
    area2 a b (p + t • (q - p)) = (1 - t) * area2 a b p + t * area2 a b q := by
  unfold area2; simp only [P2.add_x, P2.add_y, P2.smul_x, P2.smul_y, P2.sub_x, P2.sub_y]; ring

/-- A point inside a side is strictly on the left of the other sides. -/
theorem convex_inner_strict {poly : List (P2 K)} (hn : 2 < poly.length) (hc : StrictlyConvex poly) {i j : Nat} {p q r s x : P2 K}
    (h1 : IsPolygonEdge poly i p q) (h2 : IsPolygonEdge poly j r s) (hij : i ≠ j) (hx : InsideSegment r s x) :
    0 < area2 p q x := by
  obtain ⟨t, t0, t1, rfl⟩ := hx
  have hm := vertex_of_side ((mem_sides_iff poly (r, s)).2 ⟨j, h2⟩)
  have hs : (p, q) ∈ sides poly := (mem_sides_iff poly _).2 ⟨i, h1⟩
  have a1 := convex_vertex hc hs hm.1
  have a2 := convex_vertex hc hs hm.2
  simp only at a1 a2
  have t2 : (0 : K) < 1 - t := by linarith
  rw [area2_along]
  rcases convex_two_sides hn hc h1 h2 hij with h | h
  · have := mul_pos t2 h
    have := mul_nonneg t0.le a2
    linarith
  · have := mul_pos t0 h
    have := mul_nonneg t2.le a1
    linarith

theorem convex_side_ne {poly : List (P2 K)} (hn : 2 < poly.length) (hc : StrictlyConvex poly) {s : P2 K × P2 K}
    (hs : s ∈ sides poly) : s.1 ≠ s.2 := by
  obtain ⟨i, hi⟩ := (mem_sides_iff poly s).1 hs
  obtain ⟨u, -, -, -, a1, -⟩ := side_neighbours hn hc hi
  intro h
  rw [h] at a1
  apply absurd a1
  unfold area2
  rw [not_lt]
  apply le_of_eq
  ring

theorem onBorder_sides (poly : List (P2 K)) (x : P2 K) : OnBorder (sides poly) x ↔ OnBoundary poly x := by
  constructor
  · rintro ⟨e, he, h⟩
    obtain ⟨i, hi⟩ := (mem_sides_iff poly e).1 he
    exact ⟨i, e.1, e.2, hi, h⟩
  · rintro ⟨i, p, q, hi, h⟩
    exact ⟨(p, q), (mem_sides_iff poly _).2 ⟨i, hi⟩, h⟩

/-- The border of a strictly convex polygon: the points of the polygon which are not strictly on the left of all sides. -/
theorem convex_boundary_iff {poly : List (P2 K)} (hn : 2 < poly.length) (hc : StrictlyConvex poly) (x : P2 K) :
    OnBoundary poly x ↔ InsideAllSides poly x ∧ ¬ ∀ e ∈ sides poly, 0 < area2 e.1 e.2 x := by
  constructor
  · intro h
    refine ⟨inside_boundary hc h, fun h' => ?_⟩
    obtain ⟨i, A, B, h1, t, t0, t1, rfl⟩ := h
    have := h' (A, B) ((mem_sides_iff poly _).2 ⟨i, h1⟩)
    have e : area2 A B (A + t • (B - A)) = 0 := by
      unfold area2; simp only [P2.add_x, P2.add_y, P2.smul_x, P2.smul_y, P2.sub_x, P2.sub_y]; ring
    exact absurd this (by rw [e]; exact lt_irrefl _)
  · rintro ⟨h1, h2⟩
    push Not at h2
    obtain ⟨e, he, h3⟩ := h2
    obtain ⟨i, hi⟩ := (mem_sides_iff poly e).1 he
    exact ⟨i, e.1, e.2, hi, on_side_of_inside hn hc hi h1 (le_antisymm h3 (h1 e he))⟩

/-- The sides of a strictly convex polygon are the border of the points strictly on the left of all of them. -/
theorem leftBorderOf_convex {poly : List (P2 K)} (hn : 2 < poly.length) (hc : StrictlyConvex poly) :
    LeftBorderOf (sides poly) (fun x => ∀ e ∈ sides poly, 0 < area2 e.1 e.2 x) := by
  classical
  have hoff : ∀ x, ¬ OnBoundary poly x → ((∀ e ∈ sides poly, 0 < area2 e.1 e.2 x) ↔ InsideAllSides poly x) := by
    intro x hx
    constructor
    · exact fun h e he => (h e he).le
    · intro h
      by_contra h'
      exact hx ((convex_boundary_iff hn hc x).2 ⟨h, h'⟩)
  refine ⟨?_, ?_, ?_⟩
  · intro p q hw
    have hp : ¬ OnBoundary poly p := by
      have := hw 0 le_rfl zero_le_one
      rwa [onBorder_sides, P2.add_zero_param] at this
    have hq : ¬ OnBoundary poly q := by
      have := hw 1 zero_le_one le_rfl
      rwa [onBorder_sides, P2.add_sub_cancel_param] at this
    have hv : ∀ v ∈ poly, ¬ OnSegment p q v := by
      rintro v hv ⟨t, t0, t1, rfl⟩
      obtain ⟨i, hi, hiv⟩ := List.mem_iff_getElem.1 hv
      refine hw t t0 t1 ((onBorder_sides _ _).2 ⟨i, poly[i], _, ⟨List.getElem?_eq_getElem hi,
        List.getElem?_eq_getElem (Nat.mod_lt _ (by omega))⟩, ?_⟩)
      rw [hiv]
      exact onSegment_left _ _
    have h := crossing_parity' hv hp hq
    have h0 : ¬ Odd (sideCount poly (SegmentsMeet p q)) := by
      have : sideCount poly (SegmentsMeet p q) = 0 := by
        unfold sideCount
        rw [List.countP_eq_zero]
        intro e he hm
        rw [decide_eq_true_iff] at hm
        obtain ⟨P, ⟨t, t0, t1, rfl⟩, hP⟩ := hm
        exact hw t t0 t1 ⟨e, he, hP⟩
      rw [this]; simp
    have h1 := not_not.1 (mt h.1 h0)
    rw [convex_parity hn hc hp, convex_parity hn hc hq] at h1
    exact not_congr ((hoff p hp).trans (h1.trans (hoff q hq).symm))
  · intro s hs x hx δ hδ
    obtain ⟨e, h0, h1⟩ := exists_between hδ
    have hne := convex_side_ne hn hc hs
    have hneg := area2_right hne hx h0
    refine ⟨e, h0, h1, ?_, ?_⟩
    · rw [onBorder_sides, convex_boundary_iff hn hc]
      exact fun k => absurd (k.1 s hs) (not_le.2 hneg)
    · exact fun k => absurd (k s hs) (not_lt.2 hneg.le)
  · intro s hs x hx δ hδ
    obtain ⟨i, hi⟩ := (mem_sides_iff poly s).1 hs
    have hne := convex_side_ne hn hc hs
    obtain ⟨e0, h0, h1⟩ := short_step (((sides poly).filter (fun u => decide (0 < area2 u.1 u.2 x))).map
      fun u => (area2 u.1 u.2 x, cross (u.2 - u.1) (toLeft s))) (by
        intro y hy
        obtain ⟨u, hu, rfl⟩ := List.mem_map.1 hy
        exact of_decide_eq_true (List.mem_filter.1 hu).2)
    obtain ⟨e, e1, e2⟩ := exists_between (lt_min hδ h0)
    have hin : ∀ u ∈ sides poly, 0 < area2 u.1 u.2 (x + e • toLeft s) := by
      intro u hu
      obtain ⟨j, hj⟩ := (mem_sides_iff poly u).1 hu
      have hstep : area2 u.1 u.2 (x + e • toLeft s) = area2 u.1 u.2 x + e * cross (u.2 - u.1) (toLeft s) := by
        unfold area2 cross; simp only [P2.add_x, P2.add_y, P2.smul_x, P2.smul_y, P2.sub_x, P2.sub_y]; ring
      rw [hstep]
      by_cases hij : j = i
      · subst hij
        have hus : u = s := by
          have k1 := hj.1.symm.trans hi.1
          have k2 := hj.2.symm.trans hi.2
          exact Prod.ext (Option.some.inj k1) (Option.some.inj k2)
        subst hus
        obtain ⟨t, t0, t1, rfl⟩ := hx
        have k3 : area2 u.1 u.2 (u.1 + t • (u.2 - u.1)) = 0 := by
          unfold area2; simp only [P2.add_x, P2.add_y, P2.smul_x, P2.smul_y, P2.sub_x, P2.sub_y]; ring
        have k4 : cross (u.2 - u.1) (toLeft u) = dot (toLeft u) (toLeft u) := by
          unfold cross dot toLeft; simp only [P2.sub_x, P2.sub_y]; ring
        rw [k3, k4, zero_add]
        exact mul_pos e1 (toLeft_pos hne)
      · have k := convex_inner_strict hn hc hj hi hij hx
        exact h1 _ (List.mem_map.2 ⟨u, List.mem_filter.2 ⟨hu, decide_eq_true k⟩, rfl⟩) e e1
          (e2.le.trans (min_le_right _ _))
    refine ⟨e, e1, lt_of_lt_of_le e2 (min_le_left _ _), ?_, not_not.2 hin⟩
    rw [onBorder_sides, convex_boundary_iff hn hc]
    exact fun k => k.2 hin

theorem toLeft_swap (s : P2 K × P2 K) : toLeft s.swap = (-1 : K) • toLeft s := by
  unfold toLeft; ext <;> simp

theorem onBorder_perm {l m : List (P2 K × P2 K)} (h : l.Perm (m.map Prod.swap)) (x : P2 K) : OnBorder l x ↔ OnBorder m x := by
  constructor
  · rintro ⟨s, hs, hx⟩
    obtain ⟨u, hu, rfl⟩ := List.mem_map.1 (h.mem_iff.1 hs)
    exact ⟨u, hu, (onSegment_swap _ _ _).1 hx⟩
  · rintro ⟨s, hs, hx⟩
    exact ⟨s.swap, h.mem_iff.2 (List.mem_map.2 ⟨s, hs, rfl⟩), (onSegment_swap _ _ _).1 hx⟩

theorem insideSegment_swap' {a b x : P2 K} (h : InsideSegment a b x) : InsideSegment b a x := by
  obtain ⟨t, t0, t1, rfl⟩ := h
  refine ⟨1 - t, by linarith, by linarith, ?_⟩
  ext <;> simp only [P2.add_x, P2.add_y, P2.smul_x, P2.smul_y, P2.sub_x, P2.sub_y] <;> ring

/-- Sides run through backwards are the border of the same set, which is then on the other side of each. -/
theorem borderOf_swap {l m : List (P2 K × P2 K)} {inside : P2 K → Prop} (h : l.Perm (m.map Prod.swap))
    (hb : LeftBorderOf m inside) : BorderOf l inside := by
  have e1 : ∀ (x : P2 K) (s : P2 K × P2 K) (e : K), x - e • toLeft s.swap = x + e • toLeft s := by
    intro x s e; rw [toLeft_swap]; ext <;> simp
  have e2 : ∀ (x : P2 K) (s : P2 K × P2 K) (e : K), x + e • toLeft s.swap = x - e • toLeft s := by
    intro x s e; rw [toLeft_swap]; ext <;> simp <;> ring
  refine ⟨fun p q hw => ?_, fun s hs x hx δ hδ => ?_, fun s hs x hx δ hδ => ?_⟩
  · exact not_iff_not.1 (hb.across p q fun t t0 t1 => by rw [← onBorder_perm h]; exact hw t t0 t1)
  · obtain ⟨u, hu, rfl⟩ := List.mem_map.1 (h.mem_iff.1 hs)
    obtain ⟨e, h0, h1, h2, h3⟩ := hb.left u hu x (insideSegment_swap' hx) δ hδ
    exact ⟨e, h0, h1, by rw [onBorder_perm h, e1]; exact h2, by rw [e1]; exact not_not.1 h3⟩
  · obtain ⟨u, hu, rfl⟩ := List.mem_map.1 (h.mem_iff.1 hs)
    obtain ⟨e, h0, h1, h2, h3⟩ := hb.right u hu x (insideSegment_swap' hx) δ hδ
    exact ⟨e, h0, h1, by rw [onBorder_perm h, e2]; exact h2, by rw [e2]; exact h3⟩

/-- No two sides of a strictly convex polygon run through backwards are on a line. -/
theorem noTwoOnALine_convex {poly : List (P2 K)} (hn : 2 < poly.length) (hc : StrictlyConvex poly) :
    NoTwoOnALine (sides poly.reverse) := by
  have hR : ((sides poly).map Prod.swap).Pairwise fun s t : P2 K × P2 K =>
      (area2 s.1 s.2 t.1 ≠ 0 ∨ area2 s.1 s.2 t.2 ≠ 0) ∧ (area2 t.1 t.2 s.1 ≠ 0 ∨ area2 t.1 t.2 s.2 ≠ 0) := by
    have key : ∀ {i j : Nat} {s t : P2 K × P2 K}, IsPolygonEdge poly i s.1 s.2 → IsPolygonEdge poly j t.1 t.2 → i ≠ j →
        area2 s.2 s.1 t.2 ≠ 0 ∨ area2 s.2 s.1 t.1 ≠ 0 := by
      intro i j s t h1 h2 hij
      have e : ∀ a b c : P2 K, area2 b a c = -area2 a b c := by intro a b c; unfold area2; ring
      rw [e s.1 s.2 t.2, e s.1 s.2 t.1, neg_ne_zero, neg_ne_zero]
      rcases convex_two_sides hn hc h1 h2 hij with h | h
      · exact Or.inr h.ne'
      · exact Or.inl h.ne'
    rw [List.pairwise_map, List.pairwise_iff_getElem]
    intro i j hi hj hij
    have g : ∀ k (hk : k < (sides poly).length), IsPolygonEdge poly k (sides poly)[k].1 (sides poly)[k].2 := by
      intro k hk
      have hk' : k < poly.length := by simpa [sides] using hk
      constructor
      · simp [sides]
      · simp only [sides, List.getElem_zip, List.getElem_rotate]
        exact List.getElem?_eq_getElem _
    exact ⟨key (g i hi) (g j hj) hij.ne, key (g j hj) (g i hi) hij.ne'⟩
  refine ((List.Perm.pairwise_iff ?_ (sides_reverse poly)).2 hR).imp fun h => h.1
  exact fun h => ⟨h.2, h.1⟩

/-- A point which is no vertex is on one side of a strictly convex polygon at most. -/
theorem convex_one_side {poly : List (P2 K)} (hn : 2 < poly.length) (hc : StrictlyConvex poly) {x : P2 K} (hx : x ∉ poly) :
    sideCount poly (fun p q => OnSegment p q x) ≤ 1 := by
  classical
  refine countP_le_one _ _ ?_
  intro i j a b ha hb h1 h2
  rw [decide_eq_true_iff] at h1 h2
  by_contra hij
  have g : ∀ (k : Nat) (c : P2 K × P2 K), (sides poly)[k]? = some c → IsPolygonEdge poly k c.1 c.2 := by
    intro k c hk
    obtain ⟨hk', rfl⟩ := List.getElem?_eq_some_iff.1 hk
    constructor
    · simp [sides]
    · simp only [sides, List.getElem_zip, List.getElem_rotate]
      exact List.getElem?_eq_getElem _
  have hin : InsideSegment b.1 b.2 x := by
    obtain ⟨t, t0, t1, rfl⟩ := h2
    have hm := vertex_of_side (List.mem_of_getElem? hb)
    refine ⟨t, lt_of_le_of_ne t0 ?_, lt_of_le_of_ne t1 ?_, rfl⟩
    · rintro rfl
      rw [P2.add_zero_param] at hx
      exact hx hm.1
    · rintro rfl
      rw [P2.add_sub_cancel_param] at hx
      exact hx hm.2
  have h3 := convex_inner_strict hn hc (g i a ha) (g j b hb) hij hin
  obtain ⟨t, t0, t1, rfl⟩ := h1
  have e : area2 a.1 a.2 (a.1 + t • (a.2 - a.1)) = 0 := by
    unfold area2; simp only [P2.add_x, P2.add_y, P2.smul_x, P2.smul_y, P2.sub_x, P2.sub_y]; ring
  exact absurd h3 (by rw [e]; exact lt_irrefl _)

end Geometrix
