import Verif.Lemmas.ConvexVisit

/-!
# The walk along two convex polygons from its start to its end
-/

set_option linter.unusedSectionVars false

namespace Geometrix

open Spec

variable {K : Type*} [Field K] [LinearOrder K] [IsStrictOrderedRing K]

/-! ## The setting -/

theorem vertexAt_mod {q : List (P2 K)} (q0 : 0 < q.length) {j k : Nat} (h : j % q.length = k % q.length) : vertexAt q j = vertexAt q k := by
  unfold vertexAt
  rw [Nat.add_sub_assoc (by omega), Nat.add_sub_assoc (by omega), ← Nat.mod_add_mod j, h, Nat.mod_add_mod]

/-- Beside every side of one polygon there is a point of the other. -/
theorem seen_side {p q : List (P2 K)} (np : 2 < p.length) (nq : 2 < q.length) (hp : StrictlyConvex p) (hq : StrictlyConvex q)
    {i j : Nat} {s t : K} {X : P2 K} (s0 : 0 < s) (s1 : s < 1) (t0 : 0 < t) (t1 : t < 1) (hs : X = vertexAt p i + s • sideVec p i)
    (ht : X = vertexAt q j + t • sideVec q j) (hne : cross (sideVec p i) (sideVec q j) ≠ 0) (b : Nat) :
    ∃ Z, InsideAllSides p Z ∧ 0 < area2 (vertexAt q b) (vertexAt q (b + 1)) Z := by
  have p0 : 0 < p.length := by omega
  have q0 : 0 < q.length := by omega
  have hXp : InsideAllSides p X := inside_boundary hp (vertexAt_border p0 ⟨s, s0.le, s1.le, hs⟩)
  have hXq : InsideAllSides q X := inside_boundary hq (vertexAt_border q0 ⟨t, t0.le, t1.le, ht⟩)
  rcases (hXq _ (vertexAt_side q0 b)).eq_or_lt with h | h
  · have hm := line_same nq hq t0 t1 ht h.symm
    have e1 : vertexAt q b = vertexAt q j := (vertexAt_mod q0 hm).symm
    have e2 : vertexAt q (b + 1) = vertexAt q (j + 1) :=
      (vertexAt_mod q0 (by rw [Nat.add_mod, hm, ← Nat.add_mod])).symm
    rw [e1, e2]
    obtain ⟨-, -, e3, e4⟩ := cross_ends (A0 := vertexAt p i) (A1 := vertexAt p (i + 1)) (B0 := vertexAt q j) (B1 := vertexAt q (j + 1)) hs ht
    change _ = s * cross (sideVec p i) (sideVec q j) at e3
    change _ = -((1 - s) * cross (sideVec p i) (sideVec q j)) at e4
    rcases lt_or_gt_of_ne hne with g | g
    · refine ⟨vertexAt p (i + 1), fun e he => convex_vertex hp he (vertexAt_mem p0 _), ?_⟩
      rw [e4]
      have := mul_neg_of_pos_of_neg (by linarith : 0 < 1 - s) g
      linarith
    · refine ⟨vertexAt p i, fun e he => convex_vertex hp he (vertexAt_mem p0 _), ?_⟩
      rw [e3]
      exact mul_pos s0 g
  · exact ⟨X, hXp, h⟩

theorem border_vertexAt {p : List (P2 K)} {X : P2 K} (h : OnBoundary p X) {c : Nat} (hc : p.length ≤ c) :
    ∃ i, c ≤ i ∧ i < c + p.length ∧ OnSegment (vertexAt p i) (vertexAt p (i + 1)) X := by
  obtain ⟨k, A, B, hAB, hX⟩ := h
  have hlt : k < p.length := (List.getElem?_eq_some_iff.1 hAB.1).1
  obtain ⟨i, i1, i2, hi⟩ := exists_number (b := c + p.length - 1) hlt (by omega)
  obtain ⟨rfl, rfl⟩ := edge_corner (by omega) hAB hi
  exact ⟨i, by omega, by omega, hX⟩

theorem exists_angles {p q : List (P2 K)} (np : 2 < p.length) (nq : 2 < q.length) (hp : StrictlyConvex p) (hq : StrictlyConvex q) :
    ∃ θ β, Turning p θ ∧ Turning q β ∧ NearTurn θ β 0 0 := by
  obtain ⟨θ, tp, θ0, θ4⟩ := exists_turning np hp
  obtain ⟨β', tq', β0, β4⟩ := exists_turning nq hq
  unfold NearTurn
  rcases le_or_gt (β' 0) (θ 0 + 2) with h | h
  · rcases lt_or_ge (θ 0) (β' 0 + 2) with g | g
    · exact ⟨θ, β', tp, tq', g, h⟩
    · refine ⟨θ, _, tp, tq'.shift 1, ?_, ?_⟩ <;> push_cast <;> linarith
  · refine ⟨θ, _, tp, tq'.shift (-1), ?_, ?_⟩ <;> push_cast <;> linarith

theorem exists_around {p q : List (P2 K)} (np : 2 < p.length) (nq : 2 < q.length) (hp : StrictlyConvex p) (hq : StrictlyConvex q)
    {i j : Nat} {X : P2 K} (hm : ProperAt p q i j X) : ∃ θ β, Around p q θ β ∧ NearTurn θ β 0 0 := by
  have p0 : 0 < p.length := by omega
  have q0 : 0 < q.length := by omega
  obtain ⟨θ, β, tp, tq, hn⟩ := exists_angles np nq hp hq
  obtain ⟨s, t, s0, s1, t0, t1, hs, ht, hne⟩ := hm
  have hXp : InsideAllSides p X := inside_boundary hp (vertexAt_border p0 ⟨s, s0.le, s1.le, hs⟩)
  have hXq : InsideAllSides q X := inside_boundary hq (vertexAt_border q0 ⟨t, t0.le, t1.le, ht⟩)
  refine ⟨θ, β, ⟨np, nq, hp, hq, tp, tq, seen_side np nq hp hq s0 s1 t0 t1 hs ht hne,
    seen_side nq np hq hp t0 t1 s0 s1 ht hs ?_, X, hXp, hXq⟩, hn⟩
  intro h
  apply hne
  have : cross (sideVec p i) (sideVec q j) = -cross (sideVec q j) (sideVec p i) := by unfold cross; ring
  rw [this, h, neg_zero]

theorem exists_setting {p q : List (P2 K)} (np : 2 < p.length) (nq : 2 < q.length) (hp : StrictlyConvex p) (hq : StrictlyConvex q)
    (offP : ∀ v ∈ p, ¬ OnBoundary q v) (offQ : ∀ v ∈ q, ¬ OnBoundary p v) (hb : ∃ X, OnBoundary p X ∧ OnBoundary q X) :
    ∃ θ β, Setting p q θ β ∧ NearTurn θ β 0 0 := by
  have p0 : 0 < p.length := by omega
  have q0 : 0 < q.length := by omega
  obtain ⟨X, hXp, hXq⟩ := hb
  obtain ⟨i, -, -, hi⟩ := border_vertexAt hXp le_rfl
  obtain ⟨j, -, -, hj⟩ := border_vertexAt hXq le_rfl
  obtain ⟨θ, β, S, hn⟩ := exists_around np nq hp hq (proper_cross (vertexAt_ne np hp i) (vertexAt_ne nq hq j) hi hj
    (fun h => offP _ (vertexAt_mem p0 _) (vertexAt_border q0 h)) (fun h => offP _ (vertexAt_mem p0 _) (vertexAt_border q0 h))
    (fun h => offQ _ (vertexAt_mem q0 _) (vertexAt_border p0 h)) (fun h => offQ _ (vertexAt_mem q0 _) (vertexAt_border p0 h)))
  exact ⟨θ, β, ⟨S, offP, offQ⟩, hn⟩

/-- A common point of the borders is a crossing of sides not before the given ones. -/
theorem Setting.cell_from {p q : List (P2 K)} {θ β : Nat → K} (S : Setting p q θ β) {i0 j0 : Nat} (hn : NearTurn θ β i0 j0)
    (hi0 : p.length ≤ i0) (hj0 : q.length ≤ j0) {X : P2 K} (hp : OnBoundary p X) (hq : OnBoundary q X) :
    ∃ i j, Cell p q θ β i j X ∧ i0 ≤ i ∧ j0 ≤ j ∧ i < i0 + 2 * p.length ∧ j < j0 + 2 * q.length ∧
      (i < i0 + p.length ∨ j < j0 + q.length) := by
  have p0 : 0 < p.length := by have := S.np; omega
  have q0 : 0 < q.length := by have := S.nq; omega
  obtain ⟨i, i1, i2, hi⟩ := border_vertexAt hp hi0
  obtain ⟨j, j1, j2, hj⟩ := border_vertexAt hq hj0
  obtain ⟨-, n2, n3⟩ := cell_strict S hi hj
  have a1 : θ i0 ≤ θ i := S.tp.mono.monotone i1
  have a2 : θ i < θ i0 + 4 := by rw [← S.tp.period]; exact S.tp.mono i2
  have b1 : β j0 ≤ β j := S.tq.mono.monotone j1
  have b2 : β j < β j0 + 4 := by rw [← S.tq.period]; exact S.tq.mono j2
  have := hn.1
  have := hn.2
  rcases lt_or_gt_of_ne n2 with h | h
  · rcases lt_or_gt_of_ne n3 with g | g
    · exact ⟨i, j, ⟨hi, hj, g, h⟩, i1, j1, by omega, by omega, by omega⟩
    · refine ⟨i, j + q.length, ⟨hi, ?_, ?_, ?_⟩, i1, by omega, by omega, by omega, by omega⟩
      · have e := vertexAt_period q0 (j + 1)
        rw [vertexAt_period q0, show j + q.length + 1 = j + 1 + q.length by omega, e]
        exact hj
      · rw [S.tq.period]; linarith
      · rw [S.tq.period]; linarith
  · refine ⟨i + p.length, j, ⟨?_, hj, ?_, ?_⟩, by omega, j1, by omega, by omega, by omega⟩
    · have e := vertexAt_period p0 (i + 1)
      rw [vertexAt_period p0, show i + p.length + 1 = i + 1 + p.length by omega, e]
      exact hi
    · rw [S.tp.period]; linarith
    · rw [S.tp.period]; linarith

theorem Cell.next {p q : List (P2 K)} {θ β : Nat → K} (S : Setting p q θ β) {i j : Nat} {X : P2 K} (h : Cell p q θ β i j X) :
    Cell p q θ β (i + p.length) (j + q.length) X := by
  have p0 : 0 < p.length := by have := S.np; omega
  have q0 : 0 < q.length := by have := S.nq; omega
  refine ⟨?_, ?_, ?_, ?_⟩
  · have e := vertexAt_period p0 (i + 1)
    rw [vertexAt_period p0, show i + p.length + 1 = i + 1 + p.length by omega, e]
    exact h.onP
  · have e := vertexAt_period q0 (j + 1)
    rw [vertexAt_period q0, show j + q.length + 1 = j + 1 + q.length by omega, e]
    exact h.onQ
  · rw [S.tp.period, S.tq.period]; have := h.lt1; linarith
  · rw [S.tp.period, S.tq.period]; have := h.lt2; linarith

/-! ## From the first crossing to the end -/

/-- After the look one of the steps keeps the state. -/
theorem Trace.advance {p q : List (P2 K)} {θ β : Nat → K} (S : Setting p q θ β) {i0 j0 a b : Nat} {s1 : Trav K} {X0 : P2 K}
    (h0 : Cell p q θ β i0 j0 X0) (T : Trace p q θ β i0 j0 a b 1 s1) (hend : a < i0 + p.length ∨ b < j0 + q.length)
    {r : Res ((PolyType × List (P2 K)) ⊕ Trav K)}
    (hA : Go p q s1.flag a b → r =
      .ok (.inr ((if s1.flag = .in1 then s1.visit (vertexAt p (a + 1)) else s1).stepA p.length)))
    (hB : ¬ Go p q s1.flag a b → r =
      .ok (.inr ((if s1.flag = .in2 then s1.visit (vertexAt q (b + 1)) else s1).stepB q.length))) :
    ∃ s2 a' b', r = .ok (.inr s2) ∧ Trace p q θ β i0 j0 a' b' 0 s2 ∧ a' + b' = a + b + 1 := by
  have h1 := h0.next S
  by_cases hg : Go p q s1.flag a b
  · have hlt : a < i0 + p.length := by
      by_contra hcon
      have e : a = i0 + p.length := by have := T.hiA; omega
      subst e
      exact S.stay_a h1 T.near (by omega) hg
    refine ⟨_, a + 1, b, hA hg, T.stepA S h0 (S.near_a T.near hg) hlt fun j X hc => ?_, by omega⟩
    by_contra hcon
    exact S.stay_a hc T.near (by omega) hg
  · have hlt : b < j0 + q.length := by
      by_contra hcon
      have e : b = j0 + q.length := by have := T.hiB; omega
      subst e
      exact hg (S.stay_b h1 T.near (by omega))
    refine ⟨_, a, b + 1, hB hg, T.stepB S h0 (S.near_b T.near hg) hlt fun i X hc => ?_, by omega⟩
    by_contra hcon
    exact hg (S.stay_b hc T.near (by omega))

theorem Trace.run {p q : List (P2 K)} {θ β : Nat → K} (S : Setting p q θ β) {i0 j0 : Nat} {X0 : P2 K}
    (h0 : Cell p q θ β i0 j0 X0) : ∀ (fuel : Nat) (s : Trav K) (a b : Nat), Trace p q θ β i0 j0 a b 0 s →
    (a < i0 + p.length ∨ b < j0 + q.length) →
    travLoop Cmp.direct p q fuel s = .error .diverges ∨
    ∃ s', travLoop Cmp.direct p q fuel s = travEnd p q s' ∧ Trace p q θ β i0 j0 (i0 + p.length) (j0 + q.length) 0 s' := by
  intro fuel
  have np := S.np
  have nq := S.nq
  induction fuel with
  | zero => intro s a b _ _; exact Or.inl rfl
  | succ k ih =>
    intro s a b T hend
    obtain ⟨s1, hl, hA, hB⟩ := S.turn T.sa T.sb T.near
    obtain ⟨s2, a', b', hr, T2, -⟩ := (T.look S hl hend).advance S h0 hend hA hB
    unfold travLoop
    rw [hr]
    dsimp only
    have e1 := T2.aa
    have e2 := T2.ba
    have e3 := T2.hiA
    have e4 := T2.hiB
    by_cases hend2 : a' < i0 + p.length ∨ b' < j0 + q.length
    · rw [if_pos (by omega)]
      exact ih s2 a' b' T2 hend2
    · rw [if_neg (by omega)]
      have e5 : a' = i0 + p.length := by omega
      have e6 : b' = j0 + q.length := by omega
      subst e5 e6
      exact Or.inr ⟨s2, rfl, T2⟩

/-! ## From the start to the first crossing -/

/-- The state at the first crossing. -/
theorem trace_first {p q : List (P2 K)} {θ β : Nat → K} (S : Setting p q θ β) {a b : Nat} {s s1 : Trav K} {X : P2 K}
    (ha : s.a = a % p.length) (hb : s.b = b % q.length) (hn : NearTurn θ β a b) (na : p.length ≤ a) (nb : q.length ≤ b)
    (hf : s.flag = .unknown) (hv : s.visited = 0) (ho : s.out = []) (hX : Cell p q θ β a b X)
    (hl : Looked p q θ β a b s s1) : Trace p q θ β a b a b 1 s1 := by
  rcases hl with ⟨-, hno⟩ | ⟨X', hX', h1, h2, h3, h4, h5, h6⟩
  · exact absurd hX (hno X)
  rw [if_pos ⟨hf, hv⟩] at h6
  obtain ⟨n1, -, -⟩ := cell_strict S hX.onP hX.onQ
  rw [ho, List.nil_append] at h3
  refine ⟨h1.trans ha, h2.trans hb, hn, na, nb, le_rfl, le_rfl, by omega, by omega, by rw [h6.1]; omega, by rw [h6.2]; omega,
    fun i j Y hc g1 g2 => Or.inl ⟨g1, g2⟩, by omega, ?_, ?_, ?_, by rw [h3]; exact List.nodup_singleton _, ?_⟩
  · rw [h5]; split_ifs <;> decide
  · rw [inA_hit S hX, h5]
    by_cases h : β b < θ a <;> simp [h]
  · rw [inA_hit S.symm hX.symm, h5]
    by_cases h : β b < θ a
    · simp [h, h.le]
    · have : θ a < β b := lt_of_le_of_ne (not_lt.1 h) n1
      simp [h, this]
  · intro Y
    rw [h3, List.mem_singleton]
    constructor
    · rintro rfl
      exact Or.inl ⟨a, b, le_rfl, le_rfl, Or.inr ⟨rfl, rfl, rfl⟩, hX'⟩
    · rintro (⟨i, j, g1, g2, g3, g4⟩ | ⟨k, g1, g2, -⟩ | ⟨k, g1, g2, -⟩)
      · rcases g3 with g3 | ⟨-, rfl, rfl⟩
        · rcases g3 with g | g
          · omega
          · omega
        · exact S.cell_point g4 hX'
      · omega
      · omega

theorem walk_finds {p q : List (P2 K)} {θ β : Nat → K} (S : Setting p q θ β) {i j : Nat} {X : P2 K} (hX : Cell p q θ β i j X)
    (hi : i < p.length + 2 * p.length) (hj : j < q.length + 2 * q.length) (hij : i < p.length + p.length ∨ j < q.length + q.length) :
    ∀ (fuel : Nat) (s : Trav K) (a b : Nat), s.a = a % p.length → s.b = b % q.length → NearTurn θ β a b →
    s.aa + p.length = a → s.ba + q.length = b → s.flag = .unknown → s.visited = 0 → s.out = [] → a ≤ i → b ≤ j →
    travLoop Cmp.direct p q fuel s = .error .diverges ∨
    ∃ s' i0 j0 X0, travLoop Cmp.direct p q fuel s = travEnd p q s' ∧ Cell p q θ β i0 j0 X0 ∧
      Trace p q θ β i0 j0 (i0 + p.length) (j0 + q.length) 0 s' := by
  intro fuel
  have np := S.np
  have nq := S.nq
  induction fuel with
  | zero => intro s a b _ _ _ _ _ _ _ _ _ _; exact Or.inl rfl
  | succ k ih =>
    intro s a b ha hb hn haa hba hf hv ho hai hbj
    obtain ⟨s1, hl, hA, hB⟩ := S.turn ha hb hn
    by_cases hc : ∃ Y, Cell p q θ β a b Y
    · obtain ⟨Y, hY⟩ := hc
      have T1 := trace_first S ha hb hn (by omega) (by omega) hf hv ho hY hl
      obtain ⟨s2, a', b', hr, T2, hsum⟩ := T1.advance S hY (by omega) hA hB
      have e1 := T2.aa
      have e2 := T2.ba
      have e3 := T2.hiA
      have e4 := T2.hiB
      unfold travLoop
      rw [hr]
      dsimp only
      rw [if_pos (by omega)]
      rcases T2.run S hY k s2 a' b' (by omega) with h | ⟨s', h, T⟩
      · exact Or.inl h
      · exact Or.inr ⟨s', a, b, Y, h, hY, T⟩
    · have hs1 : s1 = s := by
        rcases hl with ⟨h, -⟩ | ⟨Y, hY, -⟩
        · exact h
        · exact absurd ⟨Y, hY⟩ hc
      subst hs1
      have hne : a < i ∨ b < j := by
        by_contra hcon
        have e1 : a = i := by omega
        have e2 : b = j := by omega
        subst e1 e2
        exact hc ⟨X, hX⟩
      unfold travLoop
      by_cases hg : Go p q s1.flag a b
      · have hlt : a < i := by
          by_contra hcon
          have e : a = i := by omega
          subst e
          exact S.stay_a hX hn (by omega) hg
        rw [hA hg, hf, if_neg (by decide)]
        dsimp only
        have e1 : (s1.stepA p.length).aa = s1.aa + 1 := rfl
        have e2 : (s1.stepA p.length).ba = s1.ba := rfl
        rw [if_pos (by rw [e1, e2]; omega)]
        refine ih _ (a + 1) b ?_ hb (S.near_a hn hg) (by rw [e1]; omega) (by rw [e2]; omega) hf hv ho hlt hbj
        show (s1.a + 1) % p.length = _
        rw [ha, Nat.mod_add_mod]
      · have hlt : b < j := by
          by_contra hcon
          have e : b = j := by omega
          subst e
          exact hg (S.stay_b hX hn (by omega))
        rw [hB hg, hf, if_neg (by decide)]
        dsimp only
        have e1 : (s1.stepB q.length).aa = s1.aa := rfl
        have e2 : (s1.stepB q.length).ba = s1.ba + 1 := rfl
        rw [if_pos (by rw [e1, e2]; omega)]
        refine ih _ a (b + 1) ha ?_ (S.near_b hn hg) (by rw [e1]; omega) (by rw [e2]; omega) hf hv ho hai hlt
        show (s1.b + 1) % q.length = _
        rw [hb, Nat.mod_add_mod]

/-- Every vertex is a vertexAt in any round. -/
theorem vertex_vertexAt {p : List (P2 K)} {v : P2 K} (hv : v ∈ p) {c : Nat} (hc : p.length ≤ c) :
    ∃ k, c ≤ k ∧ k < c + p.length ∧ v = vertexAt p (k + 1) := by
  obtain ⟨i, hi, rfl⟩ := List.mem_iff_getElem.1 hv
  obtain ⟨r, r1, r2, hr⟩ := exists_number (b := c + p.length) hi (by omega)
  refine ⟨r - 1, by omega, by omega, ?_⟩
  rw [show r - 1 + 1 = r by omega]
  unfold vertexAt
  rw [hr, List.getElem?_eq_getElem hi]
  rfl

/-- Points on no line along a side are not on the border. -/
theorem off_border {p q : List (P2 K)} (h : ∀ v ∈ p, ∀ e ∈ sides q, area2 e.1 e.2 v ≠ 0) : ∀ v ∈ p, ¬ OnBoundary q v := by
  intro v hv hb
  obtain ⟨e, he, t, -, -, ht⟩ := (onBoundary_iff_sides _ _).1 hb
  apply h v hv e he
  rw [ht]
  unfold area2
  simp only [P2.add_x, P2.add_y, P2.smul_x, P2.smul_y, P2.sub_x, P2.sub_y]
  ring

/-- Convex polygons whose borders meet, with no vertex of one on the border of the other: the walk visits the
vertices of the common part, each once. -/
theorem walk_crossing {p q : List (P2 K)} (np : 2 < p.length) (nq : 2 < q.length) (hp : StrictlyConvex p) (hq : StrictlyConvex q)
    (offP : ∀ v ∈ p, ¬ OnBoundary q v) (offQ : ∀ v ∈ q, ¬ OnBoundary p v) (hb : ∃ X, OnBoundary p X ∧ OnBoundary q X)
    {fuel : Nat} (hf : 4 * (p.length + q.length) ≤ fuel) :
    ∃ out, convexPolyPoly Cmp.direct fuel p q = .ok (.overlapping, out) ∧ out.Nodup ∧
      ∀ X, X ∈ out ↔ (OnBoundary p X ∧ OnBoundary q X) ∨ (X ∈ p ∧ InsideAllSides q X) ∨ (X ∈ q ∧ InsideAllSides p X) := by
  have p0 : 0 < p.length := by omega
  have q0 : 0 < q.length := by omega
  obtain ⟨θ, β, S, hn⟩ := exists_setting np nq hp hq offP offQ hb
  have hn' : NearTurn θ β p.length q.length := by
    have e1 := S.tp.period 0
    have e2 := S.tq.period 0
    rw [zero_add] at e1 e2
    unfold NearTurn at hn ⊢
    rw [e1, e2]
    exact ⟨by linarith [hn.1], by linarith [hn.2]⟩
  obtain ⟨X, hXp, hXq⟩ := hb
  obtain ⟨i, j, hX, i1, j1, i2, j2, hij⟩ := S.cell_from hn' le_rfl le_rfl hXp hXq
  unfold convexPolyPoly
  rw [if_neg (by omega)]
  obtain ⟨r, h1, h2⟩ := travLoop_total p q (4 * (p.length + q.length)) ⟨0, 0, 0, 0, .unknown, 0, []⟩ (by simp only; omega)
    (by simp only; omega) (by simp only; omega) (by simp only; omega) (by unfold Trav.left; simp; omega)
  have hr := h1 fuel hf
  rcases walk_finds S hX i2 j2 hij fuel ⟨0, 0, 0, 0, .unknown, 0, []⟩ p.length q.length (by simp) (by simp) hn' (by simp) (by simp)
    rfl rfl rfl i1 j1 with h | ⟨s', i0, j0, X0, h, h0, T⟩
  · rw [h] at hr
    rcases h2 with ⟨v, h2⟩ | h2 | ⟨h2, -⟩ <;> rw [h2] at hr <;> cases hr
  · refine ⟨s'.out, ?_, T.nodup, fun Y => ?_⟩
    · rw [h]
      unfold travEnd
      rw [if_neg T.flag, if_neg T.vis]
    · rw [T.mem Y]
      constructor
      · rintro (⟨i, j, -, -, -, hc⟩ | ⟨k, -, -, rfl, hin⟩ | ⟨k, -, -, rfl, hin⟩)
        · exact Or.inl ⟨vertexAt_border p0 hc.onP, vertexAt_border q0 hc.onQ⟩
        · exact Or.inr (Or.inl ⟨vertexAt_mem p0 _, hin⟩)
        · exact Or.inr (Or.inr ⟨vertexAt_mem q0 _, hin⟩)
      · rintro (⟨y1, y2⟩ | ⟨y1, y2⟩ | ⟨y1, y2⟩)
        · obtain ⟨i, j, hc, k1, k2, -, -, k3⟩ := S.cell_from ⟨h0.lt1, h0.lt2.le⟩ T.na T.nb y1 y2
          exact Or.inl ⟨i, j, k1, k2, Or.inl k3, hc⟩
        · obtain ⟨k, k1, k2, k3⟩ := vertex_vertexAt y1 T.na
          exact Or.inr (Or.inl ⟨k, k1, k2, k3, y2⟩)
        · obtain ⟨k, k1, k2, k3⟩ := vertex_vertexAt y1 T.nb
          exact Or.inr (Or.inr ⟨k, k1, k2, k3, y2⟩)

end Geometrix
