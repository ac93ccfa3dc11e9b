import Verif.Lemmas.PointInPolygon
import Verif.Spec.Convex
import Mathlib.Tactic.Linarith
import Mathlib.Tactic.LinearCombination
import Mathlib.Tactic.FieldSimp

/-!
# Lemmas on the tests for convex polygons and triangles
-/

set_option linter.unusedSectionVars false

namespace Geometrix

open Spec

variable {K : Type*} [Field K] [LinearOrder K] [IsStrictOrderedRing K]

theorem orient_right {A B C : P2 K} : (getOrientation Cmp.direct A B C == .right) = true ↔ area2 A B C < 0 := by
  rw [beq_iff_eq, (orientation_sign A B C).2.1]

theorem orient_not_right {A B C : P2 K} :
    (getOrientation Cmp.direct A B C == .left || getOrientation Cmp.direct A B C == .collinear) = true ↔
      0 ≤ area2 A B C := by
  rw [Bool.or_eq_true, beq_iff_eq, beq_iff_eq, (orientation_sign A B C).1, (orientation_sign A B C).2.2]
  constructor
  · rintro (h | h) <;> linarith
  · intro h
    rcases lt_or_eq_of_le h with h | h
    · exact Or.inl h
    · exact Or.inr h.symm

theorem area2_combo (u w A B C p : P2 K) (a b c : K) (hs : a + b + c = 1)
    (hp : p = a • A + b • B + c • C) :
    area2 u w p = a * area2 u w A + b * area2 u w B + c * area2 u w C := by
  subst hp
  have : a = 1 - b - c := by linear_combination hs
  subst this
  simp only [area2, P2.add_x, P2.add_y, P2.smul_x, P2.smul_y]
  ring

theorem inTriangle_iff {A B C p : P2 K} (h : 0 < area2 A B C) :
    InTriangle A B C p ↔ 0 ≤ area2 A B p ∧ 0 ≤ area2 B C p ∧ 0 ≤ area2 C A p := by
  constructor
  · rintro ⟨a, b, c, ha, hb, hc, hs, hp⟩
    rw [area2_combo A B A B C p a b c hs hp, area2_combo B C A B C p a b c hs hp,
      area2_combo C A A B C p a b c hs hp]
    have e1 : area2 A B A = 0 := by unfold area2; ring
    have e2 : area2 A B B = 0 := by unfold area2; ring
    have e3 : area2 B C B = 0 := by unfold area2; ring
    have e4 : area2 B C C = 0 := by unfold area2; ring
    have e5 : area2 C A C = 0 := by unfold area2; ring
    have e6 : area2 C A A = 0 := by unfold area2; ring
    have e7 : area2 B C A = area2 A B C := by unfold area2; ring
    have e8 : area2 C A B = area2 A B C := by unfold area2; ring
    rw [e1, e2, e3, e4, e5, e6, e7, e8]
    refine ⟨?_, ?_, ?_⟩ <;> nlinarith [mul_nonneg ha h.le, mul_nonneg hb h.le, mul_nonneg hc h.le]
  · rintro ⟨h1, h2, h3⟩
    have hne := h.ne'
    have hsum : area2 B C p + area2 C A p + area2 A B p = area2 A B C := by unfold area2; ring
    refine ⟨area2 B C p / area2 A B C, area2 C A p / area2 A B C, area2 A B p / area2 A B C,
      div_nonneg h2 h.le, div_nonneg h3 h.le, div_nonneg h1 h.le, ?_, ?_⟩
    · rw [← add_div, ← add_div, hsum, div_self hne]
    · ext
      · simp only [P2.add_x, P2.smul_x]
        rw [div_mul_eq_mul_div, div_mul_eq_mul_div, div_mul_eq_mul_div, ← add_div, ← add_div,
          eq_div_iff hne]
        unfold area2; ring
      · simp only [P2.add_y, P2.smul_y]
        rw [div_mul_eq_mul_div, div_mul_eq_mul_div, div_mul_eq_mul_div, ← add_div, ← add_div,
          eq_div_iff hne]
        unfold area2; ring

theorem pointInTriangle_iff (A B C p : P2 K) : pointInTriangle Cmp.direct p A B C = true ↔
    0 ≤ area2 A B p ∧ 0 ≤ area2 B C p ∧ 0 ≤ area2 C A p := by
  unfold pointInTriangle pseudoCross
  simp only [direct_lt, P2.sub_x, P2.sub_y]
  have e1 : (p.y - A.y) * (B.x - A.x) - (p.x - A.x) * (B.y - A.y) = area2 A B p := by unfold area2; ring
  have e2 : (p.y - B.y) * (C.x - B.x) - (p.x - B.x) * (C.y - B.y) = area2 B C p := by unfold area2; ring
  have e3 : (p.y - C.y) * (A.x - C.x) - (p.x - C.x) * (A.y - C.y) = area2 C A p := by unfold area2; ring
  rw [e1, e2, e3]
  grind

/-! ## Convex polygons -/

/-- Every vertex is on the left of every side. -/
theorem convex_vertex {poly : List (P2 K)} (hc : StrictlyConvex poly) {e : P2 K × P2 K}
    (he : e ∈ sides poly) {v : P2 K} (hv : v ∈ poly) : 0 ≤ area2 e.1 e.2 v := by
  obtain ⟨i, h1, h2⟩ := (mem_sides_iff poly e).1 he
  obtain ⟨k, hk⟩ := List.mem_iff_getElem?.1 hv
  have hi : i < poly.length := by
    by_contra hcon
    rw [List.getElem?_eq_none (by omega)] at h1; simp at h1
  have hkl : k < poly.length := by
    by_contra hcon
    rw [List.getElem?_eq_none (by omega)] at hk; simp at hk
  rcases Nat.lt_or_ge (i + 1) poly.length with hlt | hge
  · rw [Nat.mod_eq_of_lt hlt] at h2
    rcases lt_trichotomy k i with h | h | h
    · have := hc k i (i + 1) v e.1 e.2 h (by omega) hk h1 h2
      have e1 : area2 e.1 e.2 v = area2 v e.1 e.2 := by unfold area2; ring
      rw [e1]; exact this.le
    · subst h
      have : v = e.1 := by rw [hk] at h1; exact Option.some.inj h1
      rw [this]; unfold area2; apply le_of_eq; ring
    · rcases Nat.lt_or_ge (i + 1) k with h' | h'
      · exact (hc i (i + 1) k e.1 e.2 v (by omega) h' h1 h2 hk).le
      · have : k = i + 1 := by omega
        subst this
        have : v = e.2 := by rw [hk] at h2; exact Option.some.inj h2
        rw [this]; unfold area2; apply le_of_eq; ring
  · have hin : i + 1 = poly.length := by omega
    rw [hin, Nat.mod_self] at h2
    rcases Nat.eq_zero_or_pos k with h | h
    · subst h
      have : v = e.2 := by rw [hk] at h2; exact Option.some.inj h2
      rw [this]; unfold area2; apply le_of_eq; ring
    · rcases Nat.lt_or_ge k i with h' | h'
      · have := hc 0 k i e.2 v e.1 h h' h2 hk h1
        have e1 : area2 e.1 e.2 v = area2 e.2 v e.1 := by unfold area2; ring
        rw [e1]; exact this.le
      · have : k = i := by omega
        subst this
        have : v = e.1 := by rw [hk] at h1; exact Option.some.inj h1
        rw [this]; unfold area2; apply le_of_eq; ring

/-- A point of a triangle of vertices is in the polygon. -/
theorem inside_of_triangle {poly : List (P2 K)} (hc : StrictlyConvex poly) {a b c p : P2 K}
    (ha : a ∈ poly) (hb : b ∈ poly) (hcm : c ∈ poly) (h : 0 < area2 a b c)
    (h1 : 0 ≤ area2 a b p) (h2 : 0 ≤ area2 b c p) (h3 : 0 ≤ area2 c a p) : InsideAllSides poly p := by
  obtain ⟨x, y, z, hx, hy, hz, hs, hp⟩ := (inTriangle_iff h).2 ⟨h1, h2, h3⟩
  intro e he
  rw [area2_combo e.1 e.2 a b c p x y z hs hp]
  have := mul_nonneg hx (convex_vertex hc he ha)
  have := mul_nonneg hy (convex_vertex hc he hb)
  have := mul_nonneg hz (convex_vertex hc he hcm)
  linarith

theorem side_mem {poly : List (P2 K)} {i : Nat} {a b : P2 K} (ha : poly[i]? = some a)
    (hb : poly[(i + 1) % poly.length]? = some b) : (a, b) ∈ sides poly :=
  (mem_sides_iff poly (a, b)).2 ⟨i, ha, hb⟩

/-- The part of the search in which the second index is below the number of vertices. -/
theorem pointInSub_lower {poly : List (P2 K)} (hc : StrictlyConvex poly) (p : P2 K) :
    ∀ (fuel i0 i1 : Nat) (a v0 v1 : P2 K) (ia : Nat), i0 < i1 → i1 < poly.length → i1 - i0 ≤ fuel →
      ia ≤ i0 → poly[ia]? = some a → poly[i0]? = some v0 → poly[i1]? = some v1 →
      (InsideAllSides poly p ∨ (0 ≤ area2 a v0 p ∧ area2 a v1 p < 0)) →
      ∃ r, pointInSub Cmp.direct p poly fuel i0 i1 = .ok r ∧ (r = true ↔ InsideAllSides poly p) := by
  intro fuel
  induction fuel with
  | zero => intro i0 i1 a v0 v1 ia h1 h2 h3; omega
  | succ fuel ih =>
    intro i0 i1 a v0 v1 ia h1 h2 h3 h4 ha hv0 hv1 hinv
    have hmod : (i1 + poly.length - i0) % poly.length = i1 - i0 := by
      rw [show i1 + poly.length - i0 = (i1 - i0) + poly.length by omega, Nat.add_mod_right,
        Nat.mod_eq_of_lt (by omega)]
    rw [pointInSub, hv0, hv1]
    simp only
    rw [hmod]
    by_cases hone : i1 - i0 = 1
    · rw [if_pos hone]
      refine ⟨_, rfl, ?_⟩
      rw [orient_not_right]
      have hi1 : i1 = i0 + 1 := by omega
      constructor
      · intro hl
        rcases hinv with h | ⟨ha0, ha1⟩
        · exact h
        · have hne : ia ≠ i0 := by
            intro h; subst h
            rw [ha] at hv0
            have := Option.some.inj hv0; subst this
            linarith
          have htri := hc ia i0 i1 a v0 v1 (by omega) h1 ha hv0 hv1
          refine inside_of_triangle hc (List.mem_of_getElem? ha) (List.mem_of_getElem? hv0)
            (List.mem_of_getElem? hv1) htri ha0 hl ?_
          have : area2 v1 a p = -area2 a v1 p := by unfold area2; ring
          rw [this]; linarith
      · intro h
        refine h (v0, v1) (side_mem hv0 ?_)
        rw [← hi1, Nat.mod_eq_of_lt h2]; exact hv1
    · rw [if_neg hone]
      have hmid : middleIndex i0 i1 poly.length = (i0 + i1) / 2 := by
        unfold middleIndex
        rw [if_pos h1, Nat.mod_eq_of_lt (by omega)]
      rw [hmid]
      obtain ⟨m, hm⟩ : ∃ m, poly[(i0 + i1) / 2]? = some m :=
        ⟨_, List.getElem?_eq_getElem (show (i0 + i1) / 2 < poly.length by omega)⟩
      rw [hm]
      simp only
      by_cases hr : area2 v0 m p < 0
      · rw [if_pos (orient_right.2 hr)]
        refine ih i0 _ v0 v0 m i0 (by omega) (by omega) (by omega) le_rfl hv0 hv0 hm (Or.inr ⟨?_, hr⟩)
        unfold area2; apply le_of_eq; ring
      · rw [if_neg (mt orient_right.1 hr)]
        refine ih _ i1 a m v1 ia (by omega) h2 (by omega) (by omega) ha hm hv1 ?_
        rcases hinv with h | ⟨ha0, ha1⟩
        · exact Or.inl h
        · by_cases hs : 0 ≤ area2 a m p
          · exact Or.inr ⟨hs, ha1⟩
          · left
            have hne : ia ≠ i0 := by
              intro h; subst h
              rw [ha] at hv0
              have := Option.some.inj hv0; subst this
              exact hs (not_lt.1 hr)
            have htri := hc ia i0 ((i0 + i1) / 2) a v0 m (by omega) (by omega) ha hv0 hm
            refine inside_of_triangle hc (List.mem_of_getElem? ha) (List.mem_of_getElem? hv0)
              (List.mem_of_getElem? hm) htri ha0 (not_lt.1 hr) ?_
            have : area2 m a p = -area2 a m p := by unfold area2; ring
            rw [this]; linarith

/-- The part of the search in which the second index is 0, standing for the number of vertices. -/
theorem pointInSub_upper {poly : List (P2 K)} (hc : StrictlyConvex poly) (p : P2 K)
    (hn : 2 < poly.length) {a : P2 K} (ha : poly[0]? = some a) :
    ∀ (fuel i0 : Nat) (v0 : P2 K), i0 < poly.length → poly.length - i0 ≤ fuel → poly[i0]? = some v0 →
      (i0 = 0 ∨ InsideAllSides poly p ∨ (0 ≤ area2 a v0 p ∧ (i0 = poly.length / 2 ∨
        ∃ m w, 0 < m ∧ m < i0 ∧ poly[m]? = some w ∧ 0 ≤ area2 a w p ∧ 0 ≤ area2 w v0 p))) →
      ∃ r, pointInSub Cmp.direct p poly fuel i0 0 = .ok r ∧ (r = true ↔ InsideAllSides poly p) := by
  intro fuel
  induction fuel with
  | zero => intro i0 v0 h1 h2; omega
  | succ fuel ih =>
    intro i0 v0 h1 h2 hv0 hinv
    rw [pointInSub, hv0, ha]
    simp only [Nat.zero_add]
    by_cases hone : (poly.length - i0) % poly.length = 1
    · rw [if_pos hone]
      have hi0 : i0 + 1 = poly.length := by
        rcases Nat.eq_zero_or_pos i0 with h | h
        · subst h; rw [Nat.sub_zero, Nat.mod_self] at hone; omega
        · rw [Nat.mod_eq_of_lt (by omega)] at hone; omega
      refine ⟨_, rfl, ?_⟩
      rw [orient_not_right]
      constructor
      · intro hl
        rcases hinv with h | h | ⟨-, h | ⟨m, w, hm0, hm1, hw, hw1, hw2⟩⟩
        · omega
        · exact h
        · omega
        · have htri := hc 0 m i0 a w v0 hm0 hm1 ha hw hv0
          exact inside_of_triangle hc (List.mem_of_getElem? ha) (List.mem_of_getElem? hw)
            (List.mem_of_getElem? hv0) htri hw1 hw2 hl
      · intro h
        refine h (v0, a) (side_mem hv0 ?_)
        rw [hi0, Nat.mod_self]; exact ha
    · rw [if_neg hone]
      have hlt : i0 + 1 < poly.length := by
        rcases Nat.lt_or_ge (i0 + 1) poly.length with h | h
        · exact h
        · exfalso; apply hone
          rw [show poly.length - i0 = 1 by omega, Nat.mod_eq_of_lt (by omega)]
      have hmid : middleIndex i0 0 poly.length = (i0 + poly.length) / 2 := by
        unfold middleIndex
        rw [if_neg (by omega), Nat.add_zero, Nat.mod_eq_of_lt (by omega)]
      rw [hmid]
      obtain ⟨m, hm⟩ : ∃ m, poly[(i0 + poly.length) / 2]? = some m :=
        ⟨_, List.getElem?_eq_getElem (show (i0 + poly.length) / 2 < poly.length by omega)⟩
      rw [hm]
      simp only
      by_cases hr : area2 v0 m p < 0
      · rw [if_pos (orient_right.2 hr)]
        refine pointInSub_lower hc p fuel i0 _ v0 v0 m i0 (by omega) (by omega) (by omega) le_rfl hv0
          hv0 hm (Or.inr ⟨?_, hr⟩)
        unfold area2; apply le_of_eq; ring
      · rw [if_neg (mt orient_right.1 hr)]
        refine ih _ m (by omega) (by omega) hm (Or.inr ?_)
        rcases hinv with h | h | ⟨ha0, -⟩
        · subst h
          right
          rw [hv0] at ha
          have := Option.some.inj ha; subst this
          exact ⟨not_lt.1 hr, Or.inl (by omega)⟩
        · exact Or.inl h
        · rcases Nat.eq_zero_or_pos i0 with h0 | h0
          · subst h0
            right
            rw [hv0] at ha
            have := Option.some.inj ha; subst this
            exact ⟨not_lt.1 hr, Or.inl (by omega)⟩
          · by_cases hs : 0 ≤ area2 a m p
            · exact Or.inr ⟨hs, Or.inr ⟨i0, v0, h0, by omega, hv0, ha0, not_lt.1 hr⟩⟩
            · left
              have htri := hc 0 i0 ((i0 + poly.length) / 2) a v0 m h0 (by omega) ha hv0 hm
              refine inside_of_triangle hc (List.mem_of_getElem? ha) (List.mem_of_getElem? hv0)
                (List.mem_of_getElem? hm) htri ha0 (not_lt.1 hr) ?_
              have : area2 m a p = -area2 a m p := by unfold area2; ring
              rw [this]; linarith

theorem pointInConvex_spec {poly : List (P2 K)} (hc : StrictlyConvex poly) (hn : 2 < poly.length)
    (p : P2 K) {fuel : Nat} (hf : poly.length ≤ fuel) :
    ∃ r, pointInConvex Cmp.direct fuel p poly = .ok r ∧ (r = true ↔ InsideAllSides poly p) := by
  unfold pointInConvex
  rw [if_neg (by omega)]
  have h0 : poly[0]? = some poly[0] := List.getElem?_eq_getElem (by omega)
  exact pointInSub_upper hc p hn h0 fuel 0 _ (by omega) (by omega) h0 (Or.inl rfl)

theorem pointInConvexQuad_spec {v0 v1 v2 v3 : P2 K} (hc : StrictlyConvex [v0, v1, v2, v3]) (p : P2 K) :
    ∃ r, pointInConvexQuad Cmp.direct p [v0, v1, v2, v3] = .ok r ∧
      (r = true ↔ InsideAllSides [v0, v1, v2, v3] p) := by
  have s0 : (v0, v1) ∈ sides [v0, v1, v2, v3] := by simp [sides]
  have s1 : (v1, v2) ∈ sides [v0, v1, v2, v3] := by simp [sides]
  have s2 : (v2, v3) ∈ sides [v0, v1, v2, v3] := by simp [sides]
  have s3 : (v3, v0) ∈ sides [v0, v1, v2, v3] := by simp [sides]
  unfold pointInConvexQuad
  have hsw : area2 v2 v0 p = -area2 v0 v2 p := by unfold area2; ring
  have hl : (getOrientation Cmp.direct v0 v2 p != .left) = true ↔ area2 v0 v2 p ≤ 0 := by
    rw [bne_iff_ne, ne_eq, (orientation_sign v0 v2 p).1, not_lt]
  simp only
  by_cases h : area2 v0 v2 p ≤ 0
  · rw [if_pos (hl.2 h)]
    by_cases h1 : area2 v0 v1 p < 0
    · rw [if_pos (orient_right.2 h1)]
      exact ⟨_, rfl, by simp only [Bool.false_eq_true, false_iff]; intro hi; linarith [hi _ s0]⟩
    · rw [if_neg (mt orient_right.1 h1)]
      by_cases h2 : area2 v1 v2 p < 0
      · rw [if_pos (orient_right.2 h2)]
        exact ⟨_, rfl, by simp only [Bool.false_eq_true, false_iff]; intro hi; linarith [hi _ s1]⟩
      · rw [if_neg (mt orient_right.1 h2)]
        refine ⟨_, rfl, iff_of_true rfl ?_⟩
        exact inside_of_triangle hc (by simp) (by simp) (by simp)
          (hc 0 1 2 v0 v1 v2 (by omega) (by omega) rfl rfl rfl) (not_lt.1 h1) (not_lt.1 h2)
          (by rw [hsw]; linarith)
  · rw [if_neg (mt hl.1 h)]
    by_cases h1 : area2 v2 v3 p < 0
    · rw [if_pos (orient_right.2 h1)]
      exact ⟨_, rfl, by simp only [Bool.false_eq_true, false_iff]; intro hi; linarith [hi _ s2]⟩
    · rw [if_neg (mt orient_right.1 h1)]
      by_cases h2 : area2 v3 v0 p < 0
      · rw [if_pos (orient_right.2 h2)]
        exact ⟨_, rfl, by simp only [Bool.false_eq_true, false_iff]; intro hi; linarith [hi _ s3]⟩
      · rw [if_neg (mt orient_right.1 h2)]
        refine ⟨_, rfl, iff_of_true rfl ?_⟩
        exact inside_of_triangle hc (by simp) (by simp) (by simp)
          (hc 0 2 3 v0 v2 v3 (by omega) (by omega) rfl rfl rfl) (by linarith [not_le.1 h]) (not_lt.1 h1)
          (not_lt.1 h2)

/-! ## Triangles in space -/

theorem cross3_combo (A B C p : P3 K) (a b c : K) (hs : a + b + c = 1) (hp : p = a • A + b • B + c • C) :
    cross3 (B - p) (C - p) = a • cross3 (B - A) (C - A) ∧
    cross3 (C - p) (A - p) = b • cross3 (B - A) (C - A) ∧
    cross3 (A - p) (B - p) = c • cross3 (B - A) (C - A) := by
  subst hp
  have : a = 1 - b - c := by linear_combination hs
  subst this
  refine ⟨?_, ?_, ?_⟩ <;> ext <;>
    simp only [cross3, P3.add_x, P3.add_y, P3.add_z, P3.sub_x, P3.sub_y, P3.sub_z, P3.smul_x,
      P3.smul_y, P3.smul_z] <;> ring

theorem dot3_pos {n : P3 K} (h : n ≠ 0) : 0 < dot3 n n := by
  have h0 : 0 ≤ dot3 n n := by unfold dot3; nlinarith [mul_self_nonneg n.x, mul_self_nonneg n.y, mul_self_nonneg n.z]
  rcases lt_or_eq_of_le h0 with h1 | h1
  · exact h1
  · exfalso; apply h
    unfold dot3 at h1
    have hx : n.x * n.x = 0 := by
      nlinarith [mul_self_nonneg n.x, mul_self_nonneg n.y, mul_self_nonneg n.z]
    have hy : n.y * n.y = 0 := by
      nlinarith [mul_self_nonneg n.x, mul_self_nonneg n.y, mul_self_nonneg n.z]
    have hz : n.z * n.z = 0 := by
      nlinarith [mul_self_nonneg n.x, mul_self_nonneg n.y, mul_self_nonneg n.z]
    ext
    · simpa using hx
    · simpa using hy
    · simpa using hz

theorem smul3_cancel {n : P3 K} (hn : n ≠ 0) {a b : K} (h : a • n = b • n) : a = b := by
  have := congrArg (fun v => dot3 v n) h
  simp only [dot3, P3.smul_x, P3.smul_y, P3.smul_z] at this
  have hp := dot3_pos hn
  unfold dot3 at hp
  have h2 : (a - b) * (n.x * n.x + n.y * n.y + n.z * n.z) = 0 := by linear_combination this
  rcases mul_eq_zero.1 h2 with h3 | h3
  · linarith
  · linarith

theorem dot3_smul (n : P3 K) (a b : K) : dot3 (a • n) (b • n) = a * b * dot3 n n := by
  simp only [dot3, P3.smul_x, P3.smul_y, P3.smul_z]; ring

theorem pointInTriangle3_iff {A B C p : P3 K} (hn : cross3 (B - A) (C - A) ≠ 0)
    (hp : InPlane3 A B C p) (hl : ¬ OnLine3 B C p) :
    pointInTriangle3 Cmp.direct p A B C = true ↔ InTriangle3 A B C p := by
  obtain ⟨a, b, c, hs, hpe⟩ := hp
  obtain ⟨e1, e2, e3⟩ := cross3_combo A B C p a b c hs hpe
  have hpos := dot3_pos hn
  have ha : a ≠ 0 := by
    intro ha
    apply hl
    refine ⟨c, ?_⟩
    have : b = 1 - c := by rw [ha] at hs; linear_combination hs
    rw [hpe, ha, this]
    ext <;> simp
  have htest : pointInTriangle3 Cmp.direct p A B C = true ↔ 0 ≤ a * b ∧ 0 ≤ a * c := by
    unfold pointInTriangle3
    simp only [e1, e2, e3, dot3_smul, direct_lt]
    simp only [show (a * b * dot3 (cross3 (B - A) (C - A)) (cross3 (B - A) (C - A)) < 0) ↔ a * b < 0 from
        ⟨fun h => by
          rcases lt_or_ge (a * b) 0 with h1 | h1
          · exact h1
          · linarith [mul_nonneg h1 hpos.le], fun h => mul_neg_of_neg_of_pos h hpos⟩,
      show (a * c * dot3 (cross3 (B - A) (C - A)) (cross3 (B - A) (C - A)) < 0) ↔ a * c < 0 from
        ⟨fun h => by
          rcases lt_or_ge (a * c) 0 with h1 | h1
          · exact h1
          · linarith [mul_nonneg h1 hpos.le], fun h => mul_neg_of_neg_of_pos h hpos⟩]
    grind
  rw [htest]
  constructor
  · rintro ⟨h1, h2⟩
    rcases lt_or_gt_of_ne ha with h | h
    · exfalso
      have hb : b ≤ 0 := by
        by_contra hb; push Not at hb; linarith [mul_neg_of_neg_of_pos h hb]
      have hc : c ≤ 0 := by
        by_contra hc; push Not at hc; linarith [mul_neg_of_neg_of_pos h hc]
      linarith
    · exact ⟨a, b, c, h.le, nonneg_of_mul_nonneg_right h1 h, nonneg_of_mul_nonneg_right h2 h, hs, hpe⟩
  · rintro ⟨a', b', c', ha', hb', hc', hs', hpe'⟩
    obtain ⟨e1', e2', e3'⟩ := cross3_combo A B C p a' b' c' hs' hpe'
    have q1 : a = a' := smul3_cancel hn (e1.symm.trans e1')
    have q2 : b = b' := smul3_cancel hn (e2.symm.trans e2')
    have q3 : c = c' := smul3_cancel hn (e3.symm.trans e3')
    rw [q1, q2, q3]
    exact ⟨mul_nonneg ha' hb', mul_nonneg ha' hc'⟩

/-- On the line through the second and third corner the test always succeeds. -/
theorem pointInTriangle3_line {A B C p : P3 K} (hl : OnLine3 B C p) :
    pointInTriangle3 Cmp.direct p A B C = true := by
  obtain ⟨t, rfl⟩ := hl
  have hu : cross3 (B - ((1 - t) • B + t • C)) (C - ((1 - t) • B + t • C)) = 0 := by
    ext <;> simp only [cross3, P3.add_x, P3.add_y, P3.add_z, P3.sub_x, P3.sub_y, P3.sub_z, P3.smul_x,
      P3.smul_y, P3.smul_z, P3.zero_x, P3.zero_y, P3.zero_z] <;> ring
  unfold pointInTriangle3
  simp only [hu]
  simp [dot3]

end Geometrix
