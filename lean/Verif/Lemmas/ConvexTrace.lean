import Verif.Lemmas.ConvexCross
import Verif.Lemmas.PolylineCut

/-!
# What the walk along two convex polygons visits
-/

set_option linter.unusedSectionVars false

namespace Geometrix

open Spec

variable {K : Type*} [Field K] [LinearOrder K] [IsStrictOrderedRing K]

/-! ## One turn -/

theorem orientationV_right (A B : P2 K) : getOrientationV Cmp.direct A B = .right ↔ cross A B < 0 := by
  unfold getOrientationV orientationOf cross
  simp only [direct_lt, direct_gt]
  rcases lt_trichotomy (A.x * B.y) (A.y * B.x) with h | h | h
  · simp [h, sub_neg]
  · simp [h]
  · simp [h, not_lt.2 h.le, h.le]

theorem advance_go {p q : List (P2 K)} {a b : Nat} (s : Trav K) (n m : Nat) :
    let s2 := s.advance n m (vertexAt p (a + 1)) (vertexAt q (b + 1))
      (getOrientationV Cmp.direct (vertexAt p (a + 1) - vertexAt p a) (vertexAt q (b + 1) - vertexAt q b))
      (getOrientation Cmp.direct (vertexAt q b) (vertexAt q (b + 1)) (vertexAt p (a + 1)))
      (getOrientation Cmp.direct (vertexAt p a) (vertexAt p (a + 1)) (vertexAt q (b + 1)))
    (Go p q s.flag a b → s2 = (if s.flag = .in1 then s.visit (vertexAt p (a + 1)) else s).stepA n) ∧
    (¬ Go p q s.flag a b → s2 = (if s.flag = .in2 then s.visit (vertexAt q (b + 1)) else s).stepB m) := by
  intro s2
  have h2 : s2 = s.advance n m (vertexAt p (a + 1)) (vertexAt q (b + 1))
      (getOrientationV Cmp.direct (vertexAt p (a + 1) - vertexAt p a) (vertexAt q (b + 1) - vertexAt q b))
      (getOrientation Cmp.direct (vertexAt q b) (vertexAt q (b + 1)) (vertexAt p (a + 1)))
      (getOrientation Cmp.direct (vertexAt p a) (vertexAt p (a + 1)) (vertexAt q (b + 1))) := rfl
  unfold Trav.advance at h2
  simp only [getOrientationV_collinear, (orientation_sign _ _ _).2.2, ne_eq, orientationV_right,
    (orientation_sign _ _ _).1, not_lt] at h2
  unfold Go GoA sideVec
  by_cases hsp : cross (vertexAt p (a + 1) - vertexAt p a) (vertexAt q (b + 1) - vertexAt q b) = 0 ∧
      area2 (vertexAt q b) (vertexAt q (b + 1)) (vertexAt p (a + 1)) = 0 ∧
      area2 (vertexAt p a) (vertexAt p (a + 1)) (vertexAt q (b + 1)) = 0
  · rw [if_pos hsp] at h2 ⊢
    by_cases hf : s.flag = .in1
    · rw [if_pos hf] at h2
      refine ⟨fun h => absurd hf h, fun _ => ?_⟩
      rw [h2, if_neg (by rw [hf]; decide)]
    · rw [if_neg hf] at h2
      refine ⟨fun _ => ?_, fun h => absurd hf h⟩
      rw [h2, if_neg hf]
  · rw [if_neg hsp] at h2 ⊢
    by_cases ho : 0 ≤ cross (vertexAt p (a + 1) - vertexAt p a) (vertexAt q (b + 1) - vertexAt q b)
    · rw [if_pos ho] at h2 ⊢
      refine ⟨fun h => ?_, fun h => ?_⟩
      · rw [h2, if_pos h]
      · rw [h2, if_neg h]
    · rw [if_neg ho] at h2 ⊢
      refine ⟨fun h => ?_, fun h => ?_⟩
      · rw [h2, if_neg h]
      · rw [h2, if_pos (not_not.1 h)]

/-- The state after the look at the sides `a` and `b`. -/
def Looked (p q : List (P2 K)) (θ β : Nat → K) (a b : Nat) (s s1 : Trav K) : Prop :=
  (s1 = s ∧ ∀ X, ¬ Cell p q θ β a b X) ∨
  ∃ X, Cell p q θ β a b X ∧ s1.a = s.a ∧ s1.b = s.b ∧ s1.out = s.out ++ [X] ∧ s1.visited = s.visited + 1 ∧
    (s1.flag = if β b < θ a then .in1 else .in2) ∧
    (if s.flag = .unknown ∧ s.visited = 0 then s1.aa = 0 ∧ s1.ba = 0 else s1.aa = s.aa ∧ s1.ba = s.ba)

theorem cell_strict {p q : List (P2 K)} {θ β : Nat → K} (S : Setting p q θ β) {a b : Nat} {X : P2 K}
    (h1 : OnSegment (vertexAt p a) (vertexAt p (a + 1)) X) (h2 : OnSegment (vertexAt q b) (vertexAt q (b + 1)) X) :
    θ a ≠ β b ∧ β b ≠ θ a + 2 ∧ θ a ≠ β b + 2 := by
  obtain ⟨s, t, -, -, -, -, -, -, hne⟩ := S.meet h1 h2
  refine ⟨fun e => ?_, fun e => ?_, fun e => ?_⟩
  · have := S.tq.ang b
    rw [← e] at this
    exact hne ((S.tp.ang a).same this).1
  · have := S.tq.ang b
    rw [e] at this
    exact hne ((S.tp.ang a).against this).1
  · have := S.tp.ang a
    rw [e] at this
    have h0 := ((S.tq.ang b).against this).1
    apply hne
    have e0 : cross (sideVec p a) (sideVec q b) = -cross (sideVec q b) (sideVec p a) := by unfold cross; ring
    rw [e0, h0, neg_zero]

theorem Setting.turn {p q : List (P2 K)} {θ β : Nat → K} (S : Setting p q θ β) {a b : Nat} {s : Trav K}
    (ha : s.a = a % p.length) (hb : s.b = b % q.length) (hn : NearTurn θ β a b) :
    ∃ s1, Looked p q θ β a b s s1 ∧
      (Go p q s1.flag a b → travBody Cmp.direct p q s =
        .ok (.inr ((if s1.flag = .in1 then s1.visit (vertexAt p (a + 1)) else s1).stepA p.length))) ∧
      (¬ Go p q s1.flag a b → travBody Cmp.direct p q s =
        .ok (.inr ((if s1.flag = .in2 then s1.visit (vertexAt q (b + 1)) else s1).stepB q.length))) := by
  have p0 : 0 < p.length := by have := S.np; omega
  have q0 : 0 < q.length := by have := S.nq; omega
  have hA := vertexAt_ne S.np S.hp a
  have hB := vertexAt_ne S.nq S.hq b
  have ht : Turn p q s (vertexAt p a) (vertexAt p (a + 1)) (vertexAt q b) (vertexAt q (b + 1)) := by
    refine ⟨by rw [ha]; exact Nat.mod_lt _ p0, by rw [hb]; exact Nat.mod_lt _ q0, ?_, ?_⟩
    · have := vertexAt_edge p0 a
      rw [ha, Nat.add_sub_assoc (by omega), Nat.mod_add_mod, ← Nat.add_sub_assoc (by omega)]
      exact this
    · have := vertexAt_edge q0 b
      rw [hb, Nat.add_sub_assoc (by omega), Nat.mod_add_mod, ← Nat.add_sub_assoc (by omega)]
      exact this
  obtain ⟨ty, pts, hseg, hcor⟩ := C09_segment_segment (vertexAt p a) (vertexAt p (a + 1)) (vertexAt q b) (vertexAt q (b + 1)) hA hB
  have hnov : ty ≠ .overlapping := by
    intro h
    obtain ⟨⟨c, hc⟩, ⟨d, hd⟩, X, hX⟩ := hcor.overlapping.1 h
    obtain ⟨-, -, -, -, -, -, -, -, hne⟩ := S.meet hX.1 hX.2
    apply hne
    unfold cross sideVec
    rw [hc, hd]
    simp only [P2.add_x, P2.add_y, P2.smul_x, P2.smul_y, P2.sub_x, P2.sub_y]
    ring
  refine ⟨s.look ty pts (getOrientation Cmp.direct (vertexAt q b) (vertexAt q (b + 1)) (vertexAt p (a + 1)))
    (getOrientation Cmp.direct (vertexAt p a) (vertexAt p (a + 1)) (vertexAt q (b + 1))), ?_, ?_⟩
  · by_cases hcom : ∃ X, Common (vertexAt p a) (vertexAt p (a + 1)) (vertexAt q b) (vertexAt q (b + 1)) X
    · right
      have hty : ty = .crossing ∨ ty = .endpoint := by
        rcases answer_type hcor hA hcom with h | h | h
        · exact Or.inl h
        · exact Or.inr h
        · exact absurd h hnov
      obtain ⟨X, hpts, hX⟩ := hcor.point hty
      have hXc := (hX X).2 rfl
      obtain ⟨n1, n2, n3⟩ := cell_strict S hXc.1 hXc.2
      have hcell : Cell p q θ β a b X := ⟨hXc.1, hXc.2, hn.1, lt_of_le_of_ne hn.2 n2⟩
      refine ⟨X, hcell, ?_⟩
      unfold Trav.look
      rw [if_pos hty, hpts]
      dsimp only
      obtain ⟨f1, f2, f3, f4, -⟩ := found_facts s X (getOrientation Cmp.direct (vertexAt q b) (vertexAt q (b + 1)) (vertexAt p (a + 1)))
        (getOrientation Cmp.direct (vertexAt p a) (vertexAt p (a + 1)) (vertexAt q (b + 1)))
      refine ⟨f1, f2, f3, f4, ?_⟩
      obtain ⟨u, t, u0, u1, t0, t1, hs, htt, hne⟩ := S.meet hXc.1 hXc.2
      obtain ⟨-, e2, -, e4⟩ := cross_ends (A0 := vertexAt p a) (A1 := vertexAt p (a + 1)) (B0 := vertexAt q b) (B1 := vertexAt q (b + 1)) hs htt
      have o1 := (orientation_sign (vertexAt q b) (vertexAt q (b + 1)) (vertexAt p (a + 1))).1
      have o2 := (orientation_sign (vertexAt p a) (vertexAt p (a + 1)) (vertexAt q (b + 1))).1
      rw [e4] at o1
      rw [e2] at o2
      by_cases hlt : β b < θ a
      · have hneg := (S.tp.ang a).neg (S.tq.ang b) hlt hn.1
        have hl := o1.2 (by
          have := mul_neg_of_pos_of_neg (by linarith : 0 < 1 - u) hneg
          change 0 < -((1 - u) * cross (sideVec p a) (sideVec q b))
          linarith)
        rw [if_pos hlt]
        unfold Trav.found Trav.visit
        rw [if_pos hl]
        dsimp only
        refine ⟨rfl, ?_⟩
        split_ifs with h1 h2 h3
        · exact ⟨rfl, rfl⟩
        · exact absurd ⟨h1.1, by omega⟩ h2
        · exact absurd ⟨h3.1, by omega⟩ h1
        · exact ⟨rfl, rfl⟩
      · have hgt : θ a < β b := lt_of_le_of_ne (not_lt.1 hlt) n1
        have hpos := (S.tp.ang a).pos (S.tq.ang b) hgt hcell.lt2
        have hnl : ¬ getOrientation Cmp.direct (vertexAt q b) (vertexAt q (b + 1)) (vertexAt p (a + 1)) = .left := by
          rw [o1]
          have := mul_pos (by linarith : 0 < 1 - u) hpos
          change ¬ 0 < -((1 - u) * cross (sideVec p a) (sideVec q b))
          linarith
        have hl := o2.2 (mul_pos (by linarith : 0 < 1 - t) hpos)
        rw [if_neg hlt]
        unfold Trav.found Trav.visit
        rw [if_neg hnl, if_pos hl]
        dsimp only
        refine ⟨rfl, ?_⟩
        split_ifs with h1 h2 h3
        · exact ⟨rfl, rfl⟩
        · exact absurd ⟨h1.1, by omega⟩ h2
        · exact absurd ⟨h3.1, by omega⟩ h1
        · exact ⟨rfl, rfl⟩
    · left
      have hty := hcor.nonCrossing.2 hcom
      refine ⟨?_, fun X hX => hcom ⟨X, hX.onP, hX.onQ⟩⟩
      unfold Trav.look
      rw [hty, if_neg (by decide)]
  · rw [travBody_eq ht hseg, if_neg fun h => hnov h.1]
    dsimp only
    rw [if_neg]
    · obtain ⟨g1, g2⟩ := advance_go (p := p) (q := q) (a := a) (b := b) (s.look ty pts (getOrientation Cmp.direct (vertexAt q b) (vertexAt q (b + 1)) (vertexAt p (a + 1)))
        (getOrientation Cmp.direct (vertexAt p a) (vertexAt p (a + 1)) (vertexAt q (b + 1)))) p.length q.length
      exact ⟨fun h => by rw [g1 h], fun h => by rw [g2 h]⟩
    · rintro ⟨h1, h2, h3⟩
      obtain ⟨Z, z1, z2⟩ := S.common
      exact parallel_separate (vertexAt_edge p0 a) (vertexAt_edge q0 b) hA ((getOrientationV_collinear _ _).1 h1)
        ((orientation_sign _ _ _).2.1.1 h2) ((orientation_sign _ _ _).2.1.1 h3) z1 z2

/-! ## Inside and outside along a side -/

theorem exists_number {m b i : Nat} (hi : i < m) (hb : m ≤ b) : ∃ j, b < j + m ∧ j ≤ b ∧ (j + m - 1) % m = i := by
  have hlt := Nat.mod_lt (b + m - 1 - i) (by omega : 0 < m)
  have hdm := Nat.mod_add_div (b + m - 1 - i) m
  refine ⟨b - (b + m - 1 - i) % m, by omega, by omega, ?_⟩
  have : b - (b + m - 1 - i) % m + m - 1 = i + m * ((b + m - 1 - i) / m) := by omega
  rw [this, Nat.add_mul_mod_self_left, Nat.mod_eq_of_lt hi]

theorem edge_corner {q : List (P2 K)} (q0 : 0 < q.length) {i j : Nat} {A B : P2 K} (h : IsPolygonEdge q i A B)
    (hj : (j + q.length - 1) % q.length = i) : A = vertexAt q j ∧ B = vertexAt q (j + 1) := by
  have := vertexAt_edge q0 j
  rw [hj] at this
  exact ⟨Option.some.inj (h.1.symm.trans this.1), Option.some.inj (h.2.symm.trans this.2)⟩

theorem sides_corner {q : List (P2 K)} {e : P2 K × P2 K} (he : e ∈ sides q) :
    ∃ k, e = (vertexAt q k, vertexAt q (k + 1)) := by
  obtain ⟨i, hi⟩ := (mem_sides_iff q e).1 he
  have hlt : i < q.length := (List.getElem?_eq_some_iff.1 hi.1).1
  obtain ⟨j, -, -, hj⟩ := exists_number (b := q.length) hlt le_rfl
  obtain ⟨h1, h2⟩ := edge_corner (by omega) hi hj
  exact ⟨j, Prod.ext h1 h2⟩

/-- A point of the other border on a side is a crossing. -/
theorem Setting.lift {p q : List (P2 K)} {θ β : Nat → K} (S : Setting p q θ β) {a b : Nat} {X : P2 K} (h1 : θ a ≤ β b + 2)
    (h2 : β b ≤ θ a + 2) (hb : q.length ≤ b) (hX : OnSegment (vertexAt p a) (vertexAt p (a + 1)) X) (hq : OnBoundary q X) :
    ∃ j, Cell p q θ β a j X := by
  have q0 : 0 < q.length := by have := S.nq; omega
  obtain ⟨i, A, B, hAB, hXs⟩ := hq
  have hlt : i < q.length := (List.getElem?_eq_some_iff.1 hAB.1).1
  obtain ⟨j, j1, j2, hj⟩ := exists_number hlt hb
  obtain ⟨rfl, rfl⟩ := edge_corner q0 hAB hj
  have up : β j ≤ β b := S.tq.mono.monotone j2
  have lo : β b < β j + 4 := by rw [← S.tq.period j]; exact S.tq.mono j1
  obtain ⟨n1, n2, n3⟩ := cell_strict S hX hXs
  by_cases hc : θ a < β j + 2
  · exact ⟨j, hX, hXs, hc, lt_of_le_of_ne (by linarith) n2⟩
  · have e1 := vertexAt_period q0 j
    have e2 := vertexAt_period q0 (j + 1)
    rw [show j + 1 + q.length = j + q.length + 1 by omega] at e2
    refine ⟨j + q.length, hX, by rw [e1, e2]; exact hXs, ?_, ?_⟩
    · rw [S.tq.period]; linarith
    · rw [S.tq.period]
      have : β j + 2 ≠ θ a := fun e => n3 e.symm
      have := lt_of_le_of_ne (not_lt.1 hc) this
      linarith

theorem exists_eps {α : Type*} (f g : α → K) (L : List α) (h : ∀ e ∈ L, 0 ≤ f e ∧ (f e = 0 → 0 ≤ g e)) :
    ∃ ε, 0 < ε ∧ ε ≤ 1 ∧ ∀ e ∈ L, 0 ≤ (1 - ε) * f e + ε * g e := by
  induction L with
  | nil => exact ⟨1, one_pos, le_rfl, fun e he => by cases he⟩
  | cons x L ih =>
    obtain ⟨ε, e0, e1, hε⟩ := ih fun e he => h e (List.mem_cons_of_mem _ he)
    obtain ⟨h1, h2⟩ := h x List.mem_cons_self
    have key : ∃ δ, 0 < δ ∧ δ ≤ 1 ∧ 0 ≤ (1 - δ) * f x + δ * g x := by
      rcases h1.eq_or_lt with h0 | h0
      · exact ⟨1, one_pos, le_rfl, by have := h2 h0.symm; linarith⟩
      · rcases le_or_gt 0 (g x) with g0 | g0
        · exact ⟨1, one_pos, le_rfl, by linarith⟩
        · have hd : 0 < f x - g x := by linarith
          refine ⟨f x / (f x - g x), div_pos h0 hd, by rw [div_le_one hd]; linarith, ?_⟩
          have : (1 - f x / (f x - g x)) * f x + f x / (f x - g x) * g x = 0 := by
            field_simp
            ring
          rw [this]
    obtain ⟨δ, d0, d1, hδ⟩ := key
    -- what holds for a number holds for smaller ones
    have shrink : ∀ u v ε δ : K, 0 ≤ u → 0 ≤ (1 - ε) * u + ε * v → 0 < δ → δ ≤ ε → 0 ≤ (1 - δ) * u + δ * v := by
      intro u v ε δ hu h d0 hle
      rcases le_or_gt u v with c | c
      · have := mul_nonneg d0.le (sub_nonneg.2 c)
        linarith
      · have := mul_nonneg (sub_nonneg.2 hle) (sub_nonneg.2 c.le)
        linarith
    rcases le_total ε δ with hle | hle
    · refine ⟨ε, e0, e1, fun e he => ?_⟩
      rcases List.mem_cons.1 he with rfl | he
      · exact shrink _ _ δ ε h1 hδ e0 hle
      · exact hε e he
    · refine ⟨δ, d0, d1, fun e he => ?_⟩
      rcases List.mem_cons.1 he with rfl | he
      · exact hδ
      · exact shrink _ _ ε δ (h e (List.mem_cons_of_mem _ he)).1 (hε e he) d0 hle

/-- A side that enters the other polygon and does not leave it ends inside. -/
theorem Setting.enters {p q : List (P2 K)} {θ β : Nat → K} (S : Setting p q θ β) {a b j : Nat} {X : P2 K} (h1 : θ a ≤ β b + 2)
    (h2 : β b ≤ θ a + 2) (hb : q.length ≤ b) (hc : Cell p q θ β a j X) (hN : β j < θ a)
    (hE : ¬ ∃ j X, Cell p q θ β a j X ∧ θ a < β j) : InsideAllSides q (vertexAt p (a + 1)) := by
  have q0 : 0 < q.length := by have := S.nq; omega
  obtain ⟨s, t, s0, s1, t0, t1, hs, ht, hne⟩ := S.meet hc.onP hc.onQ
  obtain ⟨-, -, -, e4⟩ := cross_ends (A0 := vertexAt p a) (A1 := vertexAt p (a + 1)) (B0 := vertexAt q j) (B1 := vertexAt q (j + 1)) hs ht
  have hneg := (S.tp.ang a).neg (S.tq.ang j) hN hc.lt1
  have hXin := inside_boundary S.hq (vertexAt_border q0 hc.onQ)
  change _ = -((1 - s) * cross (sideVec p a) (sideVec q j)) at e4
  have hhead : 0 < area2 (vertexAt q j) (vertexAt q (j + 1)) (vertexAt p (a + 1)) := by
    rw [e4]
    have := mul_neg_of_pos_of_neg (by linarith : 0 < 1 - s) hneg
    linarith
  by_contra hout
  obtain ⟨ε, ε0, ε1, hε⟩ := exists_eps (fun e : P2 K × P2 K => area2 e.1 e.2 X) (fun e => area2 e.1 e.2 (vertexAt p (a + 1))) (sides q) (by
    intro e he
    refine ⟨hXin e he, fun h0 => ?_⟩
    obtain ⟨k, rfl⟩ := sides_corner he
    simp only at h0 ⊢
    have v1 := convex_vertex S.hq he (vertexAt_mem q0 j)
    have v2 := convex_vertex S.hq he (vertexAt_mem q0 (j + 1))
    have v3 := convex_vertex S.hq he (vertexAt_mem q0 (j + 1 + 1))
    simp only at v1 v2 v3
    have ex : area2 (vertexAt q k) (vertexAt q (k + 1)) X = (1 - t) * area2 (vertexAt q k) (vertexAt q (k + 1)) (vertexAt q j) +
        t * area2 (vertexAt q k) (vertexAt q (k + 1)) (vertexAt q (j + 1)) := by
      rw [ht]
      unfold area2 sideVec
      simp only [P2.add_x, P2.add_y, P2.smul_x, P2.smul_y, P2.sub_x, P2.sub_y]
      ring
    rw [h0] at ex
    have m1 := mul_nonneg (by linarith : 0 ≤ 1 - t) v1
    have m2 := mul_nonneg t0.le v2
    have z1 : area2 (vertexAt q k) (vertexAt q (k + 1)) (vertexAt q j) = 0 := by
      rcases mul_eq_zero.1 (by linarith : (1 - t) * area2 (vertexAt q k) (vertexAt q (k + 1)) (vertexAt q j) = 0) with h | h
      · linarith
      · exact h
    have z2 : area2 (vertexAt q k) (vertexAt q (k + 1)) (vertexAt q (j + 1)) = 0 := by
      rcases mul_eq_zero.1 (by linarith : t * area2 (vertexAt q k) (vertexAt q (k + 1)) (vertexAt q (j + 1)) = 0) with h | h
      · linarith
      · exact h
    have d1 := area2_sub (vertexAt q k) (vertexAt q (k + 1)) (vertexAt q (j + 1)) (vertexAt q j)
    have d2 := area2_sub (vertexAt q k) (vertexAt q (k + 1)) (vertexAt q (j + 1 + 1)) (vertexAt q (j + 1))
    have d3 := area2_sub (vertexAt q k) (vertexAt q (k + 1)) (vertexAt p (a + 1)) (vertexAt q (j + 1))
    have d4 := area2_sub (vertexAt q j) (vertexAt q (j + 1)) (vertexAt p (a + 1)) (vertexAt q (j + 1))
    change _ = cross (sideVec q k) (sideVec q j) at d1
    change _ = cross (sideVec q k) (sideVec q (j + 1)) at d2
    change _ = cross (sideVec q k) _ at d3
    change _ = cross (sideVec q j) _ at d4
    have z5 : area2 (vertexAt q j) (vertexAt q (j + 1)) (vertexAt q (j + 1)) = 0 := by unfold area2; ring
    have hpar : cross (sideVec q j) (sideVec q k) = 0 := by
      have : cross (sideVec q j) (sideVec q k) = -cross (sideVec q k) (sideVec q j) := by unfold cross; ring
      rw [this]; linarith
    obtain ⟨l, hl⟩ := (cross_eq_zero_iff (sideVec_ne S.nq S.hq j)).1 hpar
    have hlc : ∀ w, cross (sideVec q k) w = l * cross (sideVec q j) w := by
      intro w
      rw [hl]
      unfold cross; simp only [P2.smul_x, P2.smul_y]; ring
    rw [hlc] at d2 d3
    have hturn := side_turn S.nq S.hq j
    have hl0 : 0 ≤ l := by
      by_contra hcon
      push Not at hcon
      have := mul_neg_of_neg_of_pos hcon hturn
      linarith
    have := mul_nonneg hl0 hhead.le
    have e6 : cross (sideVec q j) (vertexAt p (a + 1) - vertexAt q (j + 1)) = area2 (vertexAt q j) (vertexAt q (j + 1)) (vertexAt p (a + 1)) := by
      linarith
    rw [e6] at d3
    linarith)
  have hW : InsideAllSides q (X + ε • (vertexAt p (a + 1) - X)) := by
    intro e he
    have := hε e he
    have ew : area2 e.1 e.2 (X + ε • (vertexAt p (a + 1) - X)) = (1 - ε) * area2 e.1 e.2 X + ε * area2 e.1 e.2 (vertexAt p (a + 1)) := by
      unfold area2
      simp only [P2.add_x, P2.add_y, P2.smul_x, P2.smul_y, P2.sub_x, P2.sub_y]
      ring
    rw [ew]
    exact this
  have hZ : ∃ Z, OnSegment (X + ε • (vertexAt p (a + 1) - X)) (vertexAt p (a + 1)) Z ∧ OnBoundary q Z := by
    by_contra hcon
    apply hout
    rw [← convex_closed S.nq S.hq, ← closed_const (A := X + ε • (vertexAt p (a + 1) - X)) fun Z hZ hb => hcon ⟨Z, hZ, hb⟩,
      convex_closed S.nq S.hq]
    exact hW
  obtain ⟨Z, ⟨r, r0, r1, hr⟩, hZb⟩ := hZ
  have hzz : Z = vertexAt p a + (s + (1 - s) * (ε + (1 - ε) * r)) • sideVec p a := by
    rw [hr, hs]
    unfold sideVec
    ext <;> simp <;> ring
  have hpos : 0 < ε + (1 - ε) * r := by
    have := mul_nonneg (by linarith : 0 ≤ 1 - ε) r0
    linarith
  have hle : ε + (1 - ε) * r ≤ 1 := by
    have := mul_nonneg (by linarith : 0 ≤ 1 - ε) (by linarith : 0 ≤ 1 - r)
    linarith
  have hsz : 0 < (1 - s) * (ε + (1 - ε) * r) := mul_pos (by linarith) hpos
  have hsz1 : (1 - s) * (ε + (1 - ε) * r) ≤ 1 - s := by
    have := mul_nonneg (by linarith : 0 ≤ 1 - s) (by linarith : 0 ≤ 1 - (ε + (1 - ε) * r))
    linarith
  have hZa : OnSegment (vertexAt p a) (vertexAt p (a + 1)) Z := ⟨_, by linarith, by linarith, hzz⟩
  obtain ⟨l, hl⟩ := S.lift h1 h2 hb hZa hZb
  obtain ⟨n1, -, -⟩ := cell_strict S hl.onP hl.onQ
  rcases lt_or_gt_of_ne n1 with g | g
  · exact hE ⟨l, Z, hl, g⟩
  · have hneg2 := (S.tp.ang a).neg (S.tq.ang l) g hl.lt1
    have hx := hXin _ (vertexAt_side q0 l)
    simp only at hx
    obtain ⟨s', t', -, -, -, -, -, ht', -⟩ := S.meet hl.onP hl.onQ
    have zz : area2 (vertexAt q l) (vertexAt q (l + 1)) Z = 0 := by
      rw [ht']
      unfold area2 sideVec
      simp only [P2.add_x, P2.add_y, P2.smul_x, P2.smul_y, P2.sub_x, P2.sub_y]
      ring
    have d := area2_sub (vertexAt q l) (vertexAt q (l + 1)) X Z
    have d2 : cross (vertexAt q (l + 1) - vertexAt q l) (X - Z) = ((1 - s) * (ε + (1 - ε) * r)) * cross (sideVec p a) (sideVec q l) := by
      rw [hzz, hs]
      unfold cross sideVec
      simp only [P2.add_x, P2.add_y, P2.smul_x, P2.smul_y, P2.sub_x, P2.sub_y]
      ring
    have := mul_neg_of_pos_of_neg hsz hneg2
    linarith

/-- Whether the end of a side is inside the other polygon. -/
theorem Setting.head_in {p q : List (P2 K)} {θ β : Nat → K} (S : Setting p q θ β) {a b : Nat} (h1 : θ a ≤ β b + 2)
    (h2 : β b ≤ θ a + 2) (hb : q.length ≤ b) : InsideAllSides q (vertexAt p (a + 1)) ↔
      ((∃ j X, Cell p q θ β a j X ∧ β j < θ a) ∧ ¬ ∃ j X, Cell p q θ β a j X ∧ θ a < β j) ∨
      ((¬ ∃ j X, Cell p q θ β a j X) ∧ InsideAllSides q (vertexAt p a)) := by
  have q0 : 0 < q.length := by have := S.nq; omega
  have hconst : (¬ ∃ j X, Cell p q θ β a j X) → (InsideAllSides q (vertexAt p a) ↔ InsideAllSides q (vertexAt p (a + 1))) := by
    intro hno
    rw [← convex_closed S.nq S.hq, ← convex_closed S.nq S.hq]
    refine closed_const fun Z hZ hZb => hno ?_
    obtain ⟨j, hj⟩ := S.lift h1 h2 hb hZ hZb
    exact ⟨j, Z, hj⟩
  constructor
  · intro hin
    have hE : ¬ ∃ j X, Cell p q θ β a j X ∧ θ a < β j := by
      rintro ⟨j, X, hc, hlt⟩
      obtain ⟨s, t, s0, s1, t0, t1, hs, ht, hne⟩ := S.meet hc.onP hc.onQ
      obtain ⟨-, -, -, e4⟩ := cross_ends (A0 := vertexAt p a) (A1 := vertexAt p (a + 1)) (B0 := vertexAt q j) (B1 := vertexAt q (j + 1)) hs ht
      change _ = -((1 - s) * cross (sideVec p a) (sideVec q j)) at e4
      have hpos := (S.tp.ang a).pos (S.tq.ang j) hlt hc.lt2
      have := hin _ (vertexAt_side q0 j)
      simp only at this
      have := mul_pos (by linarith : 0 < 1 - s) hpos
      linarith
    by_cases hno : ∃ j X, Cell p q θ β a j X
    · left
      obtain ⟨j, X, hc⟩ := hno
      obtain ⟨n1, -, -⟩ := cell_strict S hc.onP hc.onQ
      refine ⟨⟨j, X, hc, ?_⟩, hE⟩
      rcases lt_or_gt_of_ne n1 with g | g
      · exact absurd ⟨j, X, hc, g⟩ hE
      · exact g
    · exact Or.inr ⟨hno, (hconst hno).2 hin⟩
  · rintro (⟨⟨j, X, hc, hN⟩, hE⟩ | ⟨hno, hin⟩)
    · exact S.enters h1 h2 hb hc hN hE
    · exact (hconst hno).1 hin

end Geometrix
