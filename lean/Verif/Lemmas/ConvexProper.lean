import Verif.Lemmas.ConvexFound

/-!
# The walk along two convex polygons finds where sides cross, in any position
-/

set_option linter.unusedSectionVars false

namespace Geometrix

open Spec

variable {K : Type*} [Field K] [LinearOrder K] [IsStrictOrderedRing K]

theorem proper_strict {p q : List (P2 K)} {θ β : Nat → K} (S : Around p q θ β) {a b : Nat} {X : P2 K} (hm : ProperAt p q a b X) :
    θ a ≠ β b ∧ β b ≠ θ a + 2 ∧ θ a ≠ β b + 2 := by
  obtain ⟨s, t, -, -, -, -, -, -, hne⟩ := hm
  refine ⟨fun e => ?_, fun e => ?_, fun e => ?_⟩
  · have := S.tq.ang b
    rw [← e] at this
    exact hne ((S.tp.ang a).same this).1
  · have := S.tq.ang b
    rw [e] at this
    exact hne ((S.tp.ang a).against this).1
  · have := S.tp.ang a
    rw [e] at this
    have h0 := ((S.tq.ang b).against this).1
    apply hne
    have e0 : cross (sideVec p a) (sideVec q b) = -cross (sideVec q b) (sideVec p a) := by unfold cross; ring
    rw [e0, h0, neg_zero]

theorem proper_periodA {p q : List (P2 K)} (p0 : 0 < p.length) {a b : Nat} {X : P2 K} (hm : ProperAt p q a b X) :
    ProperAt p q (a + p.length) b X := by
  unfold ProperAt sideVec at hm ⊢
  rw [show a + p.length + 1 = a + 1 + p.length by omega, vertexAt_period p0, vertexAt_period p0]
  exact hm

theorem proper_periodB {p q : List (P2 K)} (q0 : 0 < q.length) {a b : Nat} {X : P2 K} (hm : ProperAt p q a b X) :
    ProperAt p q a (b + q.length) X := by
  unfold ProperAt sideVec at hm ⊢
  rw [show b + q.length + 1 = b + 1 + q.length by omega, vertexAt_period q0, vertexAt_period q0]
  exact hm

theorem proper_cell {p q : List (P2 K)} {θ β : Nat → K} {i j : Nat} {X : P2 K} (hm : ProperAt p q i j X) (h1 : θ i < β j + 2)
    (h2 : β j < θ i + 2) : Cell p q θ β i j X := by
  obtain ⟨s, t, s0, s1, t0, t1, hs, ht, -⟩ := hm
  exact ⟨⟨s, s0.le, s1.le, hs⟩, ⟨t, t0.le, t1.le, ht⟩, h1, h2⟩

/-- Where sides cross, there is a crossing not before the start of the walk. -/
theorem exists_proper {p q : List (P2 K)} (p0 : 0 < p.length) (q0 : 0 < q.length) {X : P2 K} (h : SidesCross p q X) :
    ∃ i j, ProperAt p q i j X ∧ p.length ≤ i ∧ i < 2 * p.length ∧ q.length ≤ j ∧ j < 2 * q.length := by
  obtain ⟨k, l, A, B, C, D, s, t, hAB, hCD, s0, s1, t0, t1, hs, ht, hne⟩ := h
  have hk : k < p.length := (List.getElem?_eq_some_iff.1 hAB.1).1
  have hl : l < q.length := (List.getElem?_eq_some_iff.1 hCD.1).1
  obtain ⟨i, i1, i2, hi⟩ := exists_number (b := p.length + p.length - 1) hk (by omega)
  obtain ⟨j, j1, j2, hj⟩ := exists_number (b := q.length + q.length - 1) hl (by omega)
  obtain ⟨rfl, rfl⟩ := edge_corner p0 hAB hi
  obtain ⟨rfl, rfl⟩ := edge_corner q0 hCD hj
  refine ⟨i, j, ⟨s, t, s0, s1, t0, t1, hs, ht, ?_⟩, by omega, by omega, by omega, by omega⟩
  intro h0
  apply hne
  obtain ⟨-, e2, -, -⟩ := cross_ends hs ht
  rw [e2]
  change (1 - t) * cross (sideVec p i) (sideVec q j) = 0
  rw [h0, mul_zero]

theorem Around.cell_from {p q : List (P2 K)} {θ β : Nat → K} (S : Around p q θ β) (hn : NearTurn θ β p.length q.length) {X : P2 K}
    (h : SidesCross p q X) :
    ∃ i j, Cell p q θ β i j X ∧ ProperAt p q i j X ∧ p.length ≤ i ∧ q.length ≤ j ∧ i < 3 * p.length ∧ j < 3 * q.length ∧
      (i < 2 * p.length ∨ j < 2 * q.length) := by
  have p0 : 0 < p.length := by have := S.np; omega
  have q0 : 0 < q.length := by have := S.nq; omega
  obtain ⟨i, j, hm, i1, i2, j1, j2⟩ := exists_proper p0 q0 h
  obtain ⟨-, n2, n3⟩ := proper_strict S hm
  have a1 : θ p.length ≤ θ i := S.tp.mono.monotone i1
  have a2 : θ i < θ p.length + 4 := by rw [← S.tp.period]; exact S.tp.mono (by omega)
  have b1 : β q.length ≤ β j := S.tq.mono.monotone j1
  have b2 : β j < β q.length + 4 := by rw [← S.tq.period]; exact S.tq.mono (by omega)
  have := hn.1
  have := hn.2
  rcases lt_or_gt_of_ne n2 with h | h
  · rcases lt_or_gt_of_ne n3 with g | g
    · exact ⟨i, j, proper_cell hm g h, hm, i1, j1, by omega, by omega, by omega⟩
    · have hm' := proper_periodB q0 hm
      refine ⟨i, j + q.length, proper_cell hm' ?_ ?_, hm', i1, by omega, by omega, by omega, by omega⟩
      · rw [S.tq.period]; linarith
      · rw [S.tq.period]; linarith
  · have hm' := proper_periodA p0 hm
    refine ⟨i + p.length, j, proper_cell hm' ?_ ?_, hm', by omega, j1, by omega, by omega, by omega⟩
    · rw [S.tp.period]; linarith
    · rw [S.tp.period]; linarith

/-! ## A turn in any position -/

/-- What a look can change. -/
structure After (s s1 : Trav K) : Prop where
  a : s1.a = s.a
  b : s1.b = s.b
  aa : s1.aa ≤ s.aa
  ba : s1.ba ≤ s.ba
  out : ∀ X ∈ s.out, X ∈ s1.out
  flag : s.flag ≠ .unknown → s1.flag ≠ .unknown
  visited : s.visited ≤ s1.visited

theorem look_after (s : Trav K) (ty : IType) (pts : List (P2 K)) (o o' : Orient) : After s (s.look ty pts o o') := by
  unfold Trav.look
  split_ifs
  · cases pts with
    | nil => exact ⟨rfl, rfl, le_rfl, le_rfl, fun _ h => h, fun h => h, le_rfl⟩
    | cons x rest =>
      dsimp only
      obtain ⟨f1, f2, f3, f4, f5⟩ := found_facts s x o o'
      refine ⟨f1, f2, ?_, ?_, ?_, ?_, by omega⟩
      · rcases f5 with h | h <;> omega
      · rcases f5 with h | h <;> omega
      · intro X hX
        rw [f3]
        exact List.mem_append_left _ hX
      · intro h
        unfold Trav.found Trav.visit
        dsimp only
        split_ifs <;> simp_all
  · exact ⟨rfl, rfl, le_rfl, le_rfl, fun _ h => h, fun h => h, le_rfl⟩

theorem Around.turn {p q : List (P2 K)} {θ β : Nat → K} (S : Around p q θ β) {a b : Nat} {s : Trav K}
    (ha : s.a = a % p.length) (hb : s.b = b % q.length) :
    ∃ s1, After s s1 ∧ (∀ X, ProperAt p q a b X → X ∈ s1.out ∧ s1.flag ≠ .unknown ∧ s1.visited ≠ 0) ∧
      (Go p q s1.flag a b → travBody Cmp.direct p q s =
        .ok (.inr ((if s1.flag = .in1 then s1.visit (vertexAt p (a + 1)) else s1).stepA p.length))) ∧
      (¬ Go p q s1.flag a b → travBody Cmp.direct p q s =
        .ok (.inr ((if s1.flag = .in2 then s1.visit (vertexAt q (b + 1)) else s1).stepB q.length))) := by
  have p0 : 0 < p.length := by have := S.np; omega
  have q0 : 0 < q.length := by have := S.nq; omega
  have hA := vertexAt_ne S.np S.hp a
  have hB := vertexAt_ne S.nq S.hq b
  have ht : Turn p q s (vertexAt p a) (vertexAt p (a + 1)) (vertexAt q b) (vertexAt q (b + 1)) := by
    refine ⟨by rw [ha]; exact Nat.mod_lt _ p0, by rw [hb]; exact Nat.mod_lt _ q0, ?_, ?_⟩
    · have := vertexAt_edge p0 a
      rw [ha, Nat.add_sub_assoc (by omega), Nat.mod_add_mod, ← Nat.add_sub_assoc (by omega)]
      exact this
    · have := vertexAt_edge q0 b
      rw [hb, Nat.add_sub_assoc (by omega), Nat.mod_add_mod, ← Nat.add_sub_assoc (by omega)]
      exact this
  obtain ⟨ty, pts, hseg, hcor⟩ := C09_segment_segment (vertexAt p a) (vertexAt p (a + 1)) (vertexAt q b) (vertexAt q (b + 1)) hA hB
  refine ⟨s.look ty pts (getOrientation Cmp.direct (vertexAt q b) (vertexAt q (b + 1)) (vertexAt p (a + 1)))
    (getOrientation Cmp.direct (vertexAt p a) (vertexAt p (a + 1)) (vertexAt q (b + 1))), look_after _ _ _ _ _, ?_, ?_⟩
  · rintro X ⟨u, t, u0, u1, t0, t1, hs, htt, hne⟩
    have hcom : Common (vertexAt p a) (vertexAt p (a + 1)) (vertexAt q b) (vertexAt q (b + 1)) X :=
      ⟨⟨u, u0.le, u1.le, hs⟩, ⟨t, t0.le, t1.le, htt⟩⟩
    have hnov : ty ≠ .overlapping := by
      intro h
      obtain ⟨⟨c, hc⟩, ⟨d, hd⟩, -⟩ := hcor.overlapping.1 h
      apply hne
      unfold cross sideVec
      rw [hc, hd]
      simp only [P2.add_x, P2.add_y, P2.smul_x, P2.smul_y, P2.sub_x, P2.sub_y]
      ring
    have hty : ty = .crossing ∨ ty = .endpoint := by
      rcases answer_type hcor hA ⟨X, hcom⟩ with h | h | h
      · exact Or.inl h
      · exact Or.inr h
      · exact absurd h hnov
    obtain ⟨Y, hpts, hY⟩ := hcor.point hty
    have hXY : X = Y := (hY X).1 hcom
    subst hXY
    unfold Trav.look
    rw [if_pos hty, hpts]
    dsimp only
    obtain ⟨-, -, f3, f4, -⟩ := found_facts s X (getOrientation Cmp.direct (vertexAt q b) (vertexAt q (b + 1)) (vertexAt p (a + 1)))
      (getOrientation Cmp.direct (vertexAt p a) (vertexAt p (a + 1)) (vertexAt q (b + 1)))
    refine ⟨by rw [f3]; simp, ?_, by rw [f4]; omega⟩
    obtain ⟨-, e2, -, e4⟩ := cross_ends (A0 := vertexAt p a) (A1 := vertexAt p (a + 1)) (B0 := vertexAt q b) (B1 := vertexAt q (b + 1)) hs htt
    have o1 := (orientation_sign (vertexAt q b) (vertexAt q (b + 1)) (vertexAt p (a + 1))).1
    have o2 := (orientation_sign (vertexAt p a) (vertexAt p (a + 1)) (vertexAt q (b + 1))).1
    rw [e4] at o1
    rw [e2] at o2
    rcases lt_or_gt_of_ne hne with hneg | hpos
    · have hl := o1.2 (by
        have := mul_neg_of_pos_of_neg (by linarith : 0 < 1 - u) hneg
        change 0 < -((1 - u) * cross (sideVec p a) (sideVec q b))
        linarith)
      unfold Trav.found
      rw [if_pos hl]
      simp
    · have hl := o2.2 (mul_pos (by linarith : 0 < 1 - t) hpos)
      unfold Trav.found
      split_ifs <;> simp_all
  · rw [travBody_eq ht hseg, if_neg]
    · dsimp only
      rw [if_neg]
      · obtain ⟨g1, g2⟩ := advance_go (p := p) (q := q) (a := a) (b := b) (s.look ty pts (getOrientation Cmp.direct (vertexAt q b) (vertexAt q (b + 1)) (vertexAt p (a + 1)))
          (getOrientation Cmp.direct (vertexAt p a) (vertexAt p (a + 1)) (vertexAt q (b + 1)))) p.length q.length
        exact ⟨fun h => by rw [g1 h], fun h => by rw [g2 h]⟩
      · rintro ⟨h1, h2, h3⟩
        obtain ⟨Z, z1, z2⟩ := S.common
        exact parallel_separate (vertexAt_edge p0 a) (vertexAt_edge q0 b) hA ((getOrientationV_collinear _ _).1 h1)
          ((orientation_sign _ _ _).2.1.1 h2) ((orientation_sign _ _ _).2.1.1 h3) z1 z2
    · rintro ⟨h, hdot⟩
      obtain ⟨⟨c, hc⟩, ⟨d, hd⟩, -⟩ := hcor.overlapping.1 h
      obtain ⟨Z, z1, z2⟩ := S.seenQ a
      have z3 := z1 _ (vertexAt_side q0 b)
      simp only at z3
      have e1 : area2 (vertexAt q b) (vertexAt q (b + 1)) Z = (d - c) * area2 (vertexAt p a) (vertexAt p (a + 1)) Z := by
        rw [hc, hd]
        unfold area2
        simp only [P2.add_x, P2.add_y, P2.smul_x, P2.smul_y, P2.sub_x, P2.sub_y]
        ring
      have e2 : dot (vertexAt p (a + 1) - vertexAt p a) (vertexAt q (b + 1) - vertexAt q b) = (d - c) *
          ((vertexAt p (a + 1) - vertexAt p a).x ^ 2 + (vertexAt p (a + 1) - vertexAt p a).y ^ 2) := by
        rw [hc, hd]
        unfold dot
        simp only [P2.add_x, P2.add_y, P2.smul_x, P2.smul_y, P2.sub_x, P2.sub_y]
        ring
      rw [e2] at hdot
      have hdc : d - c < 0 := by
        by_contra hcon
        push Not at hcon
        have := mul_nonneg hcon (add_nonneg (sq_nonneg (vertexAt p (a + 1) - vertexAt p a).x) (sq_nonneg (vertexAt p (a + 1) - vertexAt p a).y))
        linarith
      have := mul_neg_of_neg_of_pos hdc z2
      linarith

theorem visit_after (s1 : Trav K) (c : Prop) [Decidable c] (v : P2 K) : After s1 (if c then s1.visit v else s1) := by
  split_ifs
  · unfold Trav.visit
    exact ⟨rfl, rfl, le_rfl, le_rfl, fun X h => List.mem_append_left _ h, fun h => h, by simp⟩
  · exact ⟨rfl, rfl, le_rfl, le_rfl, fun X h => h, fun h => h, le_rfl⟩

/-- After a crossing the walk ends with `overlapping` and keeps the points visited. -/
theorem Around.run {p q : List (P2 K)} {θ β : Nat → K} (S : Around p q θ β) : ∀ (fuel : Nat) (s : Trav K), s.a < p.length →
    s.b < q.length → s.flag ≠ .unknown → s.visited ≠ 0 →
    travLoop Cmp.direct p q fuel s = .error .diverges ∨
    ∃ out, travLoop Cmp.direct p q fuel s = .ok (.overlapping, out) ∧ ∀ X ∈ s.out, X ∈ out := by
  intro fuel
  have p0 : 0 < p.length := by have := S.np; omega
  have q0 : 0 < q.length := by have := S.nq; omega
  induction fuel with
  | zero => intro s _ _ _ _; exact Or.inl rfl
  | succ k ih =>
    intro s ha hb hf hv
    obtain ⟨s1, h1, -, hA, hB⟩ := S.turn (s := s) (a := s.a) (b := s.b) (Nat.mod_eq_of_lt ha).symm (Nat.mod_eq_of_lt hb).symm
    have key : ∃ s2, travBody Cmp.direct p q s = .ok (.inr s2) ∧ s2.a < p.length ∧ s2.b < q.length ∧ s2.flag ≠ .unknown ∧
        s2.visited ≠ 0 ∧ ∀ X ∈ s.out, X ∈ s2.out := by
      by_cases hg : Go p q s1.flag s.a s.b
      · have h2 := visit_after s1 (s1.flag = .in1) (vertexAt p (s.a + 1))
        refine ⟨_, hA hg, Nat.mod_lt _ p0, ?_, h2.flag (h1.flag hf), ?_, fun X hX => h2.out X (h1.out X hX)⟩
        · show Trav.b (if _ then _ else _) < _
          rw [h2.b, h1.b]; exact hb
        · have e1 := h1.visited
          have e2 := h2.visited
          show Trav.visited (if _ then _ else _) ≠ 0
          omega
      · have h2 := visit_after s1 (s1.flag = .in2) (vertexAt q (s.b + 1))
        refine ⟨_, hB hg, ?_, Nat.mod_lt _ q0, h2.flag (h1.flag hf), ?_, fun X hX => h2.out X (h1.out X hX)⟩
        · show Trav.a (if _ then _ else _) < _
          rw [h2.a, h1.a]; exact ha
        · have e1 := h1.visited
          have e2 := h2.visited
          show Trav.visited (if _ then _ else _) ≠ 0
          omega
    obtain ⟨s2, hr, a2, b2, f2, v2, o2⟩ := key
    unfold travLoop
    rw [hr]
    dsimp only
    split_ifs
    · rcases ih s2 a2 b2 f2 v2 with h | ⟨out, h, ho⟩
      · exact Or.inl h
      · exact Or.inr ⟨out, h, fun X hX => ho X (o2 X hX)⟩
    · refine Or.inr ⟨s2.out, ?_, o2⟩
      unfold travEnd
      rw [if_neg f2, if_neg v2]

/-- The walk comes to a given crossing. -/
theorem Around.reach {p q : List (P2 K)} {θ β : Nat → K} (S : Around p q θ β) {i j : Nat} {X : P2 K} (hX : Cell p q θ β i j X)
    (hm : ProperAt p q i j X) (hi : i < 3 * p.length) (hj : j < 3 * q.length) (hij : i < 2 * p.length ∨ j < 2 * q.length) :
    ∀ (fuel : Nat) (s : Trav K) (a b : Nat), s.a = a % p.length → s.b = b % q.length → NearTurn θ β a b →
    s.aa + p.length ≤ a → s.ba + q.length ≤ b → a ≤ i → b ≤ j →
    travLoop Cmp.direct p q fuel s = .error .diverges ∨
    ∃ out, travLoop Cmp.direct p q fuel s = .ok (.overlapping, out) ∧ X ∈ out := by
  intro fuel
  have np := S.np
  have nq := S.nq
  have p0 : 0 < p.length := by omega
  have q0 : 0 < q.length := by omega
  induction fuel with
  | zero => intro s a b _ _ _ _ _ _ _; exact Or.inl rfl
  | succ k ih =>
    intro s a b ha hb hn haa hba hai hbj
    obtain ⟨s1, h1, hp1, hA, hB⟩ := S.turn ha hb
    by_cases hend : a = i ∧ b = j
    · -- at the crossing: the rest of the walk keeps it
      obtain ⟨rfl, rfl⟩ := hend
      obtain ⟨x1, x2, x3⟩ := hp1 X hm
      have key : ∃ s2, travBody Cmp.direct p q s = .ok (.inr s2) ∧ s2.a < p.length ∧ s2.b < q.length ∧ s2.flag ≠ .unknown ∧
          s2.visited ≠ 0 ∧ X ∈ s2.out := by
        by_cases hg : Go p q s1.flag a b
        · have h2 := visit_after s1 (s1.flag = .in1) (vertexAt p (a + 1))
          refine ⟨_, hA hg, Nat.mod_lt _ p0, ?_, h2.flag x2, ?_, h2.out X x1⟩
          · show Trav.b (if _ then _ else _) < _
            rw [h2.b, h1.b, hb]; exact Nat.mod_lt _ q0
          · have e2 := h2.visited
            show Trav.visited (if _ then _ else _) ≠ 0
            omega
        · have h2 := visit_after s1 (s1.flag = .in2) (vertexAt q (b + 1))
          refine ⟨_, hB hg, ?_, Nat.mod_lt _ q0, h2.flag x2, ?_, h2.out X x1⟩
          · show Trav.a (if _ then _ else _) < _
            rw [h2.a, h1.a, ha]; exact Nat.mod_lt _ p0
          · have e2 := h2.visited
            show Trav.visited (if _ then _ else _) ≠ 0
            omega
      obtain ⟨s2, hr, a2, b2, f2, v2, o2⟩ := key
      unfold travLoop
      rw [hr]
      dsimp only
      split_ifs
      · rcases S.run k s2 a2 b2 f2 v2 with h | ⟨out, h, ho⟩
        · exact Or.inl h
        · exact Or.inr ⟨out, h, ho X o2⟩
      · refine Or.inr ⟨s2.out, ?_, o2⟩
        unfold travEnd
        rw [if_neg f2, if_neg v2]
    · have e1 := h1.aa
      have e2 := h1.ba
      unfold travLoop
      by_cases hg : Go p q s1.flag a b
      · have hlt : a < i := by
          by_contra hcon
          have e : a = i := by omega
          subst e
          exact S.stay_a hX hm hn (by omega) hg
        have h2 := visit_after s1 (s1.flag = .in1) (vertexAt p (a + 1))
        rw [hA hg]
        dsimp only
        generalize hs2 : (if s1.flag = .in1 then s1.visit (vertexAt p (a + 1)) else s1) = s2 at h2
        have e3 := h2.aa
        have e4 := h2.ba
        have c1 : (s2.stepA p.length).aa = s2.aa + 1 := rfl
        have c2 : (s2.stepA p.length).ba = s2.ba := rfl
        rw [if_pos (by rw [c1, c2]; omega)]
        refine ih _ (a + 1) b ?_ ?_ (S.near_a hn hg) (by rw [c1]; omega) (by rw [c2]; omega) hlt hbj
        · show (s2.a + 1) % p.length = _
          rw [h2.a, h1.a, ha, Nat.mod_add_mod]
        · show s2.b = _
          rw [h2.b, h1.b, hb]
      · have hlt : b < j := by
          by_contra hcon
          have e : b = j := by omega
          subst e
          exact hg (S.stay_b hX hm hn (by omega))
        have h2 := visit_after s1 (s1.flag = .in2) (vertexAt q (b + 1))
        rw [hB hg]
        dsimp only
        generalize hs2 : (if s1.flag = .in2 then s1.visit (vertexAt q (b + 1)) else s1) = s2 at h2
        have e3 := h2.aa
        have e4 := h2.ba
        have c1 : (s2.stepB q.length).aa = s2.aa := rfl
        have c2 : (s2.stepB q.length).ba = s2.ba + 1 := rfl
        rw [if_pos (by rw [c1, c2]; omega)]
        refine ih _ a (b + 1) ?_ ?_ (S.near_b hn hg) (by rw [c1]; omega) (by rw [c2]; omega) hai hlt
        · show s2.a = _
          rw [h2.a, h1.a, ha]
        · show (s2.b + 1) % q.length = _
          rw [h2.b, h1.b, hb, Nat.mod_add_mod]

/-- In any position: if some sides cross, the answer is `overlapping`, and every point where sides cross is visited. -/
theorem walk_proper {p q : List (P2 K)} (np : 2 < p.length) (nq : 2 < q.length) (hp : StrictlyConvex p) (hq : StrictlyConvex q)
    (hX : ∃ X, SidesCross p q X) {fuel : Nat} (hf : 4 * (p.length + q.length) ≤ fuel) :
    ∃ out, convexPolyPoly Cmp.direct fuel p q = .ok (.overlapping, out) ∧ ∀ X, SidesCross p q X → X ∈ out := by
  have p0 : 0 < p.length := by omega
  have q0 : 0 < q.length := by omega
  obtain ⟨X0, hX0⟩ := hX
  obtain ⟨i0, j0, hm0, -⟩ := exists_proper p0 q0 hX0
  obtain ⟨θ, β, S, hn⟩ := exists_around np nq hp hq hm0
  have hn' : NearTurn θ β p.length q.length := by
    have e1 := S.tp.period 0
    have e2 := S.tq.period 0
    rw [zero_add] at e1 e2
    unfold NearTurn at hn ⊢
    rw [e1, e2]
    exact ⟨by linarith [hn.1], by linarith [hn.2]⟩
  obtain ⟨r, h1, h2⟩ := travLoop_total p q (4 * (p.length + q.length)) ⟨0, 0, 0, 0, .unknown, 0, []⟩ (by simp only; omega)
    (by simp only; omega) (by simp only; omega) (by simp only; omega) (by unfold Trav.left; simp; omega)
  have hr := h1 fuel hf
  have key : ∀ X, SidesCross p q X → ∃ out, convexPolyPoly Cmp.direct fuel p q = .ok (.overlapping, out) ∧ X ∈ out := by
    intro X hX
    obtain ⟨i, j, hc, hm, i1, j1, i2, j2, hij⟩ := S.cell_from hn' hX
    unfold convexPolyPoly
    rw [if_neg (by omega)]
    rcases S.reach hc hm i2 j2 hij fuel ⟨0, 0, 0, 0, .unknown, 0, []⟩ p.length q.length (by simp) (by simp) hn' (by simp) (by simp)
      i1 j1 with h | h
    · rw [h] at hr
      rcases h2 with ⟨v, h2⟩ | h2 | ⟨h2, -⟩ <;> rw [h2] at hr <;> cases hr
    · exact h
  obtain ⟨out, ho, -⟩ := key X0 hX0
  refine ⟨out, ho, fun X hX => ?_⟩
  obtain ⟨out', ho', hm⟩ := key X hX
  rw [ho] at ho'
  cases ho'
  exact hm

end Geometrix
