import Verif.Model.PolylineSide
import Verif.Spec.PolylineSide
import Verif.Props.Distance
import Verif.Lemmas.SegmentRange
import Verif.Lemmas.PolylineDistance

set_option linter.unusedSectionVars false

namespace Geometrix

open Spec

variable {K : Type*} [Field K] [LinearOrder K] [IsStrictOrderedRing K]

theorem param_cases (p A B : P2 K) (h : A ≠ B) : ∃ c t, pointSegClosestParam p A B = .ok (c, t) ∧
    IsClosest (OnSegment A B) p c ∧ t * dot (B - A) (B - A) = dot (p - A) (B - A) ∧ (t ≤ 0 → c = A) ∧
      (1 ≤ t → c = B) ∧ (0 < t → t < 1 → c = A + t • (B - A)) := by
  obtain ⟨c, t, e, h1, -, -⟩ := C17_param_partial p A B h
  refine ⟨c, t, e, h1, ?_⟩
  have hpos : 0 < dot (B - A) (B - A) := normSq_pos (sub_ne_zero_P2 h)
  unfold pointSegClosestParam at e
  simp only [cdiv_ok hpos.ne'] at e
  split_ifs at e with g1 g2
  · cases e
    exact ⟨div_mul_cancel₀ _ hpos.ne', fun _ => rfl, fun h => by linarith, fun h => by linarith⟩
  · cases e
    exact ⟨div_mul_cancel₀ _ hpos.ne', fun h => absurd h g1, fun _ => rfl, fun _ h => absurd g2 (not_le.2 h)⟩
  · cases e
    exact ⟨div_mul_cancel₀ _ hpos.ne', fun h => absurd h g1, fun h => absurd h g2, fun _ _ => rfl⟩

/-- The start of a segment is its closest point only if the point is not in front of it. -/
theorem closest_start {p B C : P2 K} (h : ∀ X, OnSegment B C X → sqDist p B ≤ sqDist p X) :
    dot (p - B) (C - B) ≤ 0 := by
  by_contra hc
  push Not at hc
  have hl : 0 ≤ dot (C - B) (C - B) := normSq_nonneg _
  set d := dot (p - B) (C - B) with hd
  set l := dot (C - B) (C - B) with hl'
  have hs : 0 < d + l := by linarith
  have h1 := h (B + (d / (d + l)) • (C - B)) ⟨_, by positivity, (div_le_one hs).2 (by linarith), rfl⟩
  have e : sqDist p (B + (d / (d + l)) • (C - B)) = sqDist p B - 2 * (d / (d + l)) * d + (d / (d + l)) ^ 2 * l := by
    rw [hd, hl']; simp only [sqDist, dot, P2.add_x, P2.add_y, P2.sub_x, P2.sub_y, P2.smul_x, P2.smul_y]; ring
  rw [e] at h1
  have hq : 0 < d / (d + l) := by positivity
  have hq2 : d / (d + l) * (d + l) = d := div_mul_cancel₀ _ hs.ne'
  set q := d / (d + l)
  have : q * (q * l - 2 * d) < 0 := by
    apply mul_neg_of_pos_of_neg hq
    have : 0 < q * d := by positivity
    nlinarith
  nlinarith

theorem polar_cone {a b v : P2 K} (hv : v ≠ 0) (h1 : dot v a ≤ 0) (h2 : dot v b ≤ 0) : ¬ InConeOf 0 a b v := by
  rintro ⟨s, t, hs, ht, e⟩
  have hn : 0 < dot v v := normSq_pos hv
  have hx := congrArg P2.x e
  have hy := congrArg P2.y e
  simp at hx hy
  have : dot v v = s * dot v a + t * dot v b := by
    simp only [dot]
    linear_combination v.x * hx + v.y * hy
  have := mul_nonpos_of_nonneg_of_nonpos hs h1
  have := mul_nonpos_of_nonneg_of_nonpos ht h2
  linarith

theorem inCone_closed {a b v : P2 K} (h : InCone a b v) : InConeOf 0 a b v := by
  obtain ⟨s, t, hs, ht, rfl⟩ := h
  exact ⟨s, t, hs.le, ht.le, by ext <;> simp⟩

theorem between_polar {a b v : P2 K} (hab : 0 < cross a b) (hv : v ≠ 0) (h1 : dot v a ≤ 0) (h2 : dot v b ≤ 0) :
    isVectorBetween Cmp.direct a b v false = false := by
  have hnot := polar_cone hv h1 h2
  rw [inConeOf_iff hab] at hnot
  have e : v - 0 = v := by ext <;> simp
  rw [e] at hnot
  have hsw : cross b v = -cross v b := by simp [cross]; ring
  unfold isVectorBetween
  simp only [Cmp.direct]
  by_contra hc
  simp at hc
  obtain ⟨-, -, -, hc⟩ := hc
  split_ifs at hc with g
  · exact hnot ⟨nonneg_of_mul_nonneg_left g hab, by rw [hsw]; linarith⟩
  · have := mul_pos (not_le.1 hc) hab
    linarith

theorem sqDist_zero {p q : P2 K} : sqDist p q = 0 ↔ p = q := by
  have e : sqDist p q = normSq (p - q) := by simp [sqDist, normSq, dot]; ring
  rw [e, normSq_eq_zero, sub_eq_zero_P2]
  exact eq_comm

theorem inSector_zero {a b : P2 K} : ¬ InSector a b 0 := by
  rintro (⟨h, s, t, hs, ht, e⟩ | ⟨-, h⟩ | ⟨-, h⟩)
  · have hx := congrArg P2.x e
    have hy := congrArg P2.y e
    simp at hx hy
    have : s * cross a b = 0 := by simp only [cross]; linear_combination b.x * hy - b.y * hx
    have := mul_pos hs h
    linarith
  · exact h ⟨0, 0, le_rfl, le_rfl, by ext <;> simp⟩
  · simp [cross] at h

/-- Sectors of a straight polyline. -/
theorem straight_sector {A B p Q out back : P2 K} {k l m : K} (hk : 0 < k) (hl : 0 < l) (ho : out = k • (B - A))
    (hb : back = -l • (B - A)) (hQ : Q = A + m • (B - A)) :
    (getOrientation Cmp.direct A B p = .left ↔ InSector out back (p - Q)) ∧
    (getOrientation Cmp.direct A B p = .right ↔ InSector back out (p - Q)) := by
  subst ho hb hQ
  have z1 : cross (k • (B - A)) (-l • (B - A)) = 0 := by simp [cross]; ring
  have z2 : cross (-l • (B - A)) (k • (B - A)) = 0 := by simp [cross]; ring
  have e1 : cross (k • (B - A)) (p - (A + m • (B - A))) = k * area2 A B p := by simp [cross, area2]; ring
  have e2 : cross (-l • (B - A)) (p - (A + m • (B - A))) = l * -area2 A B p := by simp [cross, area2]; ring
  obtain ⟨o1, o2, -⟩ := orientation_sign A B p
  rw [o1, o2]
  unfold InSector
  rw [z1, z2, e1, e2]
  simp only [lt_irrefl, false_and, true_and, false_or]
  rw [mul_pos_iff_of_pos_left hk, mul_pos_iff_of_pos_left hl]
  exact ⟨Iff.rfl, by rw [neg_pos]⟩

/-- Sectors at a turn when the vertex is the closest point. -/
theorem turn_sector {a b v : P2 K} (hab : 0 < cross a b) (hv : v ≠ 0) (h1 : dot v a ≤ 0) (h2 : dot v b ≤ 0) :
    ¬ InSector a b v ∧ InSector b a v := by
  have hn := polar_cone hv h1 h2
  have e : cross b a = -cross a b := by simp [cross]; ring
  constructor
  · rintro (⟨-, h⟩ | ⟨h, -⟩ | ⟨h, -⟩)
    · exact hn (inCone_closed h)
    · linarith
    · linarith
  · exact Or.inr (Or.inl ⟨by linarith, hn⟩)

/-- The decision at a vertex that is the closest point. -/
theorem vertexSide_spec {A B C p : P2 K} (hAB : A ≠ B) (hback : cross (B - A) (C - B) = 0 → 0 < dot (B - A) (C - B))
    (hv : p ≠ B) (h1 : dot (p - B) (C - B) ≤ 0) (h2 : dot (p - B) (A - B) ≤ 0) :
    (vertexSide Cmp.direct A B C A B p = .left ↔ InSector (C - B) (A - B) (p - B)) ∧
    (vertexSide Cmp.direct A B C A B p = .right ↔ InSector (A - B) (C - B) (p - B)) := by
  have hv0 : p - B ≠ 0 := sub_ne_zero_P2 hv.symm
  obtain ⟨o1, o2, o3⟩ := orientation_sign A B C
  have ea : area2 A B C = cross (C - B) (A - B) := by simp [area2, cross]; ring
  have eb : cross (A - B) (C - B) = -area2 A B C := by simp [area2, cross]; ring
  unfold vertexSide
  rcases ho : getOrientation Cmp.direct A B C with _ | _ | _
  · have hs : 0 < cross (A - B) (C - B) := by rw [eb]; linarith [o2.1 ho]
    obtain ⟨t1, t2⟩ := turn_sector hs hv0 h2 h1
    simp [between_polar hs hv0 h2 h1, t1, t2]
  · have hs := o3.1 ho
    have hc : cross (B - A) (C - B) = 0 := by rw [← hs]; simp [area2, cross]; ring
    obtain ⟨k, hk⟩ := (cross_eq_zero_iff (sub_ne_zero_P2 hAB)).1 hc
    have hd := hback hc
    have hl : 0 < dot (B - A) (B - A) := normSq_pos (sub_ne_zero_P2 hAB)
    have ek : dot (B - A) (C - B) = k * dot (B - A) (B - A) := by rw [hk]; simp [dot]; ring
    rw [ek] at hd
    have k0 : 0 < k := pos_of_mul_pos_left hd hl.le
    exact straight_sector (m := 1) k0 zero_lt_one hk (by ext <;> simp) (by ext <;> simp)
  · have hs : 0 < cross (C - B) (A - B) := by rw [← ea]; exact o1.1 ho
    obtain ⟨t1, t2⟩ := turn_sector hs hv0 h1 h2
    simp [between_polar hs hv0 h1 h2, t1, t2]

theorem onPolyline_passes {pts : List (P2 K)} {Q : P2 K} (h : OnPolyline pts Q) :
    ∃ back out, PassesThrough pts Q back out := by
  obtain ⟨i, A, B, he, t, t0, t1, rfl⟩ := h
  have hend : ∀ {i A B}, IsEdge pts i A B → ∃ back out, PassesThrough pts B back out := by
    intro i A B he
    cases hC : pts[i + 2]? with
    | none => exact ⟨_, _, i, A, B, he, Or.inr (Or.inr (Or.inl ⟨rfl, rfl, hC, rfl⟩))⟩
    | some C => exact ⟨_, _, i, A, B, he, Or.inr (Or.inl ⟨rfl, rfl, C, hC, rfl⟩)⟩
  rcases t0.eq_or_lt with rfl | t0
  · have e : A + (0 : K) • (B - A) = A := by ext <;> simp
    rw [e]
    cases i with
    | zero => exact ⟨_, _, 0, A, B, he, Or.inr (Or.inr (Or.inr ⟨rfl, rfl, rfl, rfl⟩))⟩
    | succ j =>
      have hj : j < pts.length := by
        have := (List.getElem?_eq_some_iff.1 he.1).1
        omega
      exact hend (i := j) ⟨List.getElem?_eq_getElem hj, he.1⟩
  rcases t1.eq_or_lt with rfl | t1
  · have e : A + (1 : K) • (B - A) = B := by ext <;> simp
    rw [e]
    exact hend he
  · exact ⟨_, _, i, A, B, he, Or.inl ⟨⟨t, t0, t1, rfl⟩, rfl, rfl⟩⟩

theorem polylineSide_spec (p : P2 K) (pts : List (P2 K)) (h : 2 ≤ pts.length)
    (hne : ∀ i A B, IsEdge pts i A B → A ≠ B)
    (hback : ∀ i A B C, IsEdge pts i A B → pts[i + 2]? = some C → cross (B - A) (C - B) = 0 → 0 < dot (B - A) (C - B))
    (hstart : ∀ A B, IsEdge pts 0 A B → 2 < pts.length → IsClosest (OnPolyline pts) p A → 0 ≤ dot (p - A) (B - A)) :
    ∃ r Q back out, polylineSide Cmp.direct p pts = .ok r ∧ IsClosest (OnPolyline pts) p Q ∧
      PassesThrough pts Q back out ∧ (r = .left ↔ InSector out back (p - Q)) ∧
      (r = .right ↔ InSector back out (p - Q)) := by
  choose g hg using fun e : Nat × P2 K × P2 K => pointSegDistSq_spec p e.2.1 e.2.2
  obtain ⟨⟨i', A, B⟩, i, e1, e2, e3, e4⟩ := minLoop_none (fun e : Nat × P2 K × P2 K => pointSegDistSq p e.2.1 e.2.2) g id
    (openEdgesIdx pts) (fun x _ => (hg x).1) (openEdgesIdx_ne_nil h)
  obtain ⟨hi, he⟩ := (openEdgesIdx_get _ _ _).1 e2
  simp only at hi he
  subst hi
  set d := g (i', A, B) with hd
  have hmin := (hg (i', A, B)).2
  rw [← hd] at hmin
  have hall : ∀ X, OnPolyline pts X → d ≤ sqDist p X := by
    rintro X ⟨j, U, V, hUV, hX⟩
    have hm := List.mem_of_getElem? ((openEdgesIdx_get pts j (j, U, V)).2 ⟨rfl, hUV⟩)
    exact (e3 _ hm).trans ((hg (j, U, V)).2.2 X hX)
  have hl : ¬ pts.length ≤ 1 := by omega
  have hS : polylineSide Cmp.direct p pts = polylineSideAt Cmp.direct p pts d i' := by
    unfold polylineSide
    rw [if_neg hl, e1]
  rw [hS]
  have hAB := hne _ _ _ he
  have hd0 : 0 ≤ d := by
    obtain ⟨X, -, hX⟩ := hmin.1
    rw [← hX]
    simp only [sqDist]
    positivity
  rcases hd0.eq_or_lt with hd0 | hd0
  · -- on the polyline
    obtain ⟨X, hX, hX'⟩ := hmin.1
    rw [← hd0] at hX'
    have := sqDist_zero.1 hX'
    subst this
    obtain ⟨back, out, hp⟩ := onPolyline_passes ⟨i', A, B, he, hX⟩
    refine ⟨.collinear, p, back, out, ?_, ⟨⟨i', A, B, he, hX⟩, fun Y hY => ?_⟩, hp, ?_, ?_⟩
    · unfold polylineSideAt
      rw [if_neg hl, if_neg (by simp [Cmp.direct, ← hd0])]
    · rw [hX', hd0]
      exact hall Y hY
    · have e : p - p = 0 := by ext <;> simp
      rw [e]; simp [inSector_zero]
    · have e : p - p = 0 := by ext <;> simp
      rw [e]; simp [inSector_zero]
  · obtain ⟨c, t, t1, t2, t3, t4, t5, t6⟩ := param_cases p A B hAB
    have hcd : sqDist p c = d := by
      obtain ⟨X, hX, hX'⟩ := hmin.1
      exact le_antisymm (hX' ▸ t2.2 X hX) (hmin.2 c t2.1)
    have hclose : IsClosest (OnPolyline pts) p c := ⟨⟨i', A, B, he, t2.1⟩, fun Y hY => by rw [hcd]; exact hall Y hY⟩
    have hpc : p ≠ c := by
      intro e
      rw [e, sqDist_zero.2 rfl] at hcd
      linarith
    have hpos : 0 < dot (B - A) (B - A) := normSq_pos (sub_ne_zero_P2 hAB)
    unfold polylineSideAt
    rw [if_neg hl, if_pos (by simp [Cmp.direct, hd0])]
    simp only [he.1, he.2, t1]
    have hstraight : ∀ (m : K), c = A + m • (B - A) →
        (getOrientation Cmp.direct A B p = .left ↔ InSector (B - A) (A - B) (p - c)) ∧
        (getOrientation Cmp.direct A B p = .right ↔ InSector (A - B) (B - A) (p - c)) := fun m hm =>
      straight_sector zero_lt_one zero_lt_one (by ext <;> simp) (by ext <;> simp) hm
    by_cases g1 : t > 0 ∧ t < 1
    · rw [if_pos g1]
      have hc := t6 g1.1 g1.2
      exact ⟨_, c, A - B, B - A, rfl, hclose, ⟨i', A, B, he, Or.inl ⟨⟨t, g1.1, g1.2, hc⟩, rfl, rfl⟩⟩, hstraight t hc⟩
    rw [if_neg g1]
    by_cases g2 : t ≤ 0
    · have hc := t4 g2
      subst hc
      have hi0 : i' = 0 := by
        by_contra hn
        obtain ⟨j, rfl⟩ := Nat.exists_eq_succ_of_ne_zero hn
        have hj : j < pts.length := by
          have := (List.getElem?_eq_some_iff.1 he.1).1
          omega
        have hE : IsEdge pts j pts[j] c := ⟨List.getElem?_eq_getElem hj, he.1⟩
        have hlt := e4 j (by omega) _ ((openEdgesIdx_get pts j (j, pts[j], c)).2 ⟨rfl, hE⟩)
        have hle := (hg (j, pts[j], c)).2.2 c (onSegment_right _ _)
        simp only [id] at hlt
        rw [hcd] at hle
        linarith
      subst hi0
      have hP : PassesThrough pts c (c - B) (B - c) := ⟨0, c, B, he, Or.inr (Or.inr (Or.inr ⟨rfl, rfl, rfl, rfl⟩))⟩
      have hs := hstraight 0 (by ext <;> simp)
      by_cases g3 : t = 0
      · rw [if_pos (by simp [Cmp.direct, g3]), if_neg (by simp)]
        exact ⟨_, c, _, _, rfl, hclose, hP, hs⟩
      · rw [if_neg (by simp [Cmp.direct, g3])]
        cases hC : pts[0 + 2]? with
        | none => exact ⟨_, c, _, _, rfl, hclose, hP, hs⟩
        | some C =>
          have hlen := (List.getElem?_eq_some_iff.1 hC).1
          have := hstart c B he (by omega) hclose
          have hneg : t * dot (B - c) (B - c) < 0 := mul_neg_of_neg_of_pos (lt_of_le_of_ne g2 g3) hpos
          rw [t3] at hneg
          linarith
    · have g3 : 1 ≤ t := by
        by_contra hn
        exact g1 ⟨not_le.1 g2, not_le.1 hn⟩
      have hc := t5 g3
      subst hc
      rw [if_neg (by simp [Cmp.direct]; intro e; exact g2 e.le)]
      cases hC : pts[i' + 2]? with
      | none =>
        refine ⟨_, c, _, _, rfl, hclose, ⟨i', A, c, he, Or.inr (Or.inr (Or.inl ⟨rfl, rfl, hC, rfl⟩))⟩, ?_⟩
        exact hstraight 1 (by ext <;> simp)
      | some C =>
        refine ⟨_, c, _, _, rfl, hclose, ⟨i', A, c, he, Or.inr (Or.inl ⟨rfl, rfl, C, hC, rfl⟩)⟩, ?_⟩
        refine vertexSide_spec hAB (hback _ _ _ _ he hC) hpc ?_ ?_
        · exact closest_start fun X hX => hclose.2 X ⟨i' + 1, c, C, ⟨he.2, hC⟩, hX⟩
        · exact closest_start fun X hX => hclose.2 X ⟨i', A, c, he, (onSegment_swap _ _ _).1 hX⟩

theorem polylineSide_on (p : P2 K) (pts : List (P2 K)) (hp : OnPolyline pts p) :
    polylineSide Cmp.direct p pts = .ok .collinear := by
  obtain ⟨j, U, V, hE, hX⟩ := hp
  have h : 2 ≤ pts.length := by
    have := (List.getElem?_eq_some_iff.1 hE.2).1
    omega
  choose g hg using fun e : Nat × P2 K × P2 K => pointSegDistSq_spec p e.2.1 e.2.2
  obtain ⟨x, i, e1, e2, e3, e4⟩ := minLoop_none (fun e : Nat × P2 K × P2 K => pointSegDistSq p e.2.1 e.2.2) g id
    (openEdgesIdx pts) (fun x _ => (hg x).1) (openEdgesIdx_ne_nil h)
  have hm := List.mem_of_getElem? ((openEdgesIdx_get pts j (j, U, V)).2 ⟨rfl, hE⟩)
  have h1 : g x ≤ 0 := by
    have := (e3 _ hm).trans ((hg (j, U, V)).2.2 p hX)
    rwa [sqDist_zero.2 rfl] at this
  have hl : ¬ pts.length ≤ 1 := by omega
  unfold polylineSide
  rw [if_neg hl, e1]
  dsimp only
  unfold polylineSideAt
  rw [if_neg hl, if_neg (by simpa [Cmp.direct] using h1)]

end Geometrix
