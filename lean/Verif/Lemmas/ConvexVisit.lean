import Verif.Lemmas.ConvexTrace

/-!
# The walk along two convex polygons visits the vertices of their common part
-/

set_option linter.unusedSectionVars false

namespace Geometrix

open Spec

variable {K : Type*} [Field K] [LinearOrder K] [IsStrictOrderedRing K]

/-- The start of the side `a` is inside, or the last crossing on it with a side before `B` enters. -/
def InA (p q : List (P2 K)) (θ β : Nat → K) (a B : Nat) : Prop :=
  ((∃ j X, Cell p q θ β a j X ∧ j < B ∧ β j < θ a) ∧ ¬ ∃ j X, Cell p q θ β a j X ∧ j < B ∧ θ a < β j) ∨
  ((¬ ∃ j X, Cell p q θ β a j X ∧ j < B) ∧ InsideAllSides q (vertexAt p a))

theorem inA_skip {p q : List (P2 K)} {θ β : Nat → K} {a b : Nat} (h : ∀ X, ¬ Cell p q θ β a b X) :
    InA p q θ β a (b + 1) ↔ InA p q θ β a b := by
  have key : ∀ j X, Cell p q θ β a j X → (j < b + 1 ↔ j < b) := by
    intro j X hc
    have : j ≠ b := by rintro rfl; exact h X hc
    omega
  have k1 : (∃ j X, Cell p q θ β a j X ∧ j < b + 1 ∧ β j < θ a) ↔ ∃ j X, Cell p q θ β a j X ∧ j < b ∧ β j < θ a :=
    ⟨fun ⟨j, X, c, l, r⟩ => ⟨j, X, c, (key j X c).1 l, r⟩, fun ⟨j, X, c, l, r⟩ => ⟨j, X, c, (key j X c).2 l, r⟩⟩
  have k2 : (∃ j X, Cell p q θ β a j X ∧ j < b + 1 ∧ θ a < β j) ↔ ∃ j X, Cell p q θ β a j X ∧ j < b ∧ θ a < β j :=
    ⟨fun ⟨j, X, c, l, r⟩ => ⟨j, X, c, (key j X c).1 l, r⟩, fun ⟨j, X, c, l, r⟩ => ⟨j, X, c, (key j X c).2 l, r⟩⟩
  have k3 : (∃ j X, Cell p q θ β a j X ∧ j < b + 1) ↔ ∃ j X, Cell p q θ β a j X ∧ j < b :=
    ⟨fun ⟨j, X, c, l⟩ => ⟨j, X, c, (key j X c).1 l⟩, fun ⟨j, X, c, l⟩ => ⟨j, X, c, (key j X c).2 l⟩⟩
  unfold InA
  rw [k1, k2, k3]

theorem inA_hit {p q : List (P2 K)} {θ β : Nat → K} (S : Setting p q θ β) {a b : Nat} {X : P2 K}
    (h : Cell p q θ β a b X) : InA p q θ β a (b + 1) ↔ β b < θ a := by
  obtain ⟨n1, -, -⟩ := cell_strict S h.onP h.onQ
  unfold InA
  constructor
  · rintro (⟨-, h2⟩ | ⟨h2, -⟩)
    · rcases lt_or_gt_of_ne n1 with g | g
      · exact absurd ⟨b, X, h, by omega, g⟩ h2
      · exact g
    · exact absurd ⟨b, X, h, by omega⟩ h2
  · intro hlt
    refine Or.inl ⟨⟨b, X, h, by omega, hlt⟩, ?_⟩
    rintro ⟨j, Y, -, hj, hgt⟩
    have : β j ≤ β b := S.tq.mono.monotone (by omega)
    linarith

theorem inA_fresh {p q : List (P2 K)} {θ β : Nat → K} {a B : Nat} (h : ∀ j X, Cell p q θ β a j X → B ≤ j) :
    InA p q θ β a B ↔ InsideAllSides q (vertexAt p a) := by
  have hno : ¬ ∃ j X, Cell p q θ β a j X ∧ j < B := by
    rintro ⟨j, X, hc, hj⟩
    have := h j X hc
    omega
  unfold InA
  constructor
  · rintro (⟨⟨j, X, hc, hj, -⟩, -⟩ | h2)
    · exact absurd ⟨j, X, hc, hj⟩ hno
    · exact h2.2
  · intro h2
    exact Or.inr ⟨hno, h2⟩

theorem inA_head {p q : List (P2 K)} {θ β : Nat → K} (S : Setting p q θ β) {a b B : Nat} (h1 : θ a ≤ β b + 2)
    (h2 : β b ≤ θ a + 2) (hb : q.length ≤ b) (h : ∀ j X, Cell p q θ β a j X → j < B) :
    InA p q θ β a B ↔ InsideAllSides q (vertexAt p (a + 1)) := by
  have k1 : (∃ j X, Cell p q θ β a j X ∧ j < B ∧ β j < θ a) ↔ ∃ j X, Cell p q θ β a j X ∧ β j < θ a :=
    ⟨fun ⟨j, X, c, _, r⟩ => ⟨j, X, c, r⟩, fun ⟨j, X, c, r⟩ => ⟨j, X, c, h j X c, r⟩⟩
  have k2 : (∃ j X, Cell p q θ β a j X ∧ j < B ∧ θ a < β j) ↔ ∃ j X, Cell p q θ β a j X ∧ θ a < β j :=
    ⟨fun ⟨j, X, c, _, r⟩ => ⟨j, X, c, r⟩, fun ⟨j, X, c, r⟩ => ⟨j, X, c, h j X c, r⟩⟩
  have k3 : (∃ j X, Cell p q θ β a j X ∧ j < B) ↔ ∃ j X, Cell p q θ β a j X :=
    ⟨fun ⟨j, X, c, _⟩ => ⟨j, X, c⟩, fun ⟨j, X, c⟩ => ⟨j, X, c, h j X c⟩⟩
  rw [S.head_in h1 h2 hb]
  unfold InA
  rw [k1, k2, k3]

/-! ## Crossings are different points -/

theorem Turning.rounds {p : List (P2 K)} {θ : Nat → K} (h : Turning p θ) (k t : Nat) :
    θ (k + p.length * t) = θ k + 4 * (t : K) := by
  induction t with
  | zero => simp
  | succ t ih => rw [Nat.mul_succ, ← add_assoc, h.period, ih]; push_cast; ring

/-- A line along a side through a point inside another side is the line of that side. -/
theorem line_same {q : List (P2 K)} (nq : 2 < q.length) (hq : StrictlyConvex q) {j k : Nat} {t : K} {X : P2 K} (t0 : 0 < t)
    (t1 : t < 1) (ht : X = vertexAt q j + t • sideVec q j) (h0 : area2 (vertexAt q k) (vertexAt q (k + 1)) X = 0) :
    j % q.length = k % q.length := by
  have q0 : 0 < q.length := by omega
  have v1 := convex_vertex hq (vertexAt_side q0 k) (vertexAt_mem q0 j)
  have v2 := convex_vertex hq (vertexAt_side q0 k) (vertexAt_mem q0 (j + 1))
  simp only at v1 v2
  have ex : area2 (vertexAt q k) (vertexAt q (k + 1)) X = (1 - t) * area2 (vertexAt q k) (vertexAt q (k + 1)) (vertexAt q j) +
      t * area2 (vertexAt q k) (vertexAt q (k + 1)) (vertexAt q (j + 1)) := by
    rw [ht]
    unfold area2 sideVec
    simp only [P2.add_x, P2.add_y, P2.smul_x, P2.smul_y, P2.sub_x, P2.sub_y]
    ring
  have m1 := mul_nonneg (by linarith : 0 ≤ 1 - t) v1
  have m2 := mul_nonneg t0.le v2
  have z1 : area2 (vertexAt q k) (vertexAt q (k + 1)) (vertexAt q j) = 0 := by
    rcases mul_eq_zero.1 (by linarith : (1 - t) * area2 (vertexAt q k) (vertexAt q (k + 1)) (vertexAt q j) = 0) with h | h
    · linarith
    · exact h
  have z2 : area2 (vertexAt q k) (vertexAt q (k + 1)) (vertexAt q (j + 1)) = 0 := by
    rcases mul_eq_zero.1 (by linarith : t * area2 (vertexAt q k) (vertexAt q (k + 1)) (vertexAt q (j + 1)) = 0) with h | h
    · linarith
    · exact h
  have key : ∀ l, area2 (vertexAt q k) (vertexAt q (k + 1)) (vertexAt q l) = 0 → l % q.length = k % q.length ∨
      l % q.length = (k + 1) % q.length := by
    intro l hl
    by_contra hcon
    push Not at hcon
    have := convex_vertex_strict hq (vertexAt_edge q0 k) (vertexAt_get q0 l)
      (fun h => hcon.1 (vertexAt_inj nq hq (by unfold vertexAt; rw [h])))
      (fun h => hcon.2 (vertexAt_inj nq hq (by
        unfold vertexAt
        rw [h, Nat.mod_add_mod]
        congr 3
        omega)))
    linarith
  rcases key j z1 with h | h
  · exact h
  · rcases key (j + 1) z2 with h' | h'
    · exfalso
      have h3 : (k + 1 + 1) % q.length = k % q.length := by
        rw [← h', Nat.add_mod (k + 1), ← h, ← Nat.add_mod]
      have h4 : k + 2 ≡ k + 0 [MOD q.length] := h3
      have := Nat.ModEq.add_left_cancel' k h4
      rw [Nat.ModEq, Nat.mod_eq_of_lt (by omega), Nat.mod_eq_of_lt (by omega)] at this
      omega
    · exact Nat.ModEq.add_right_cancel' 1 h'

/-- A point inside a side is on no other side. -/
theorem side_same {p : List (P2 K)} (np : 2 < p.length) (hp : StrictlyConvex p) {i a : Nat} {s : K} {X : P2 K} (s0 : 0 < s)
    (s1 : s < 1) (hs : X = vertexAt p i + s • sideVec p i) (ha : OnSegment (vertexAt p a) (vertexAt p (a + 1)) X) :
    i % p.length = a % p.length := by
  refine line_same np hp s0 s1 hs ?_
  obtain ⟨t, -, -, rfl⟩ := ha
  unfold area2
  simp only [P2.add_x, P2.add_y, P2.smul_x, P2.smul_y, P2.sub_x, P2.sub_y]
  ring

theorem mod_rounds {i a n : Nat} (h : i % n = a % n) (hle : i ≤ a) : ∃ t, a = i + n * t := by
  obtain ⟨t, ht⟩ := (Nat.modEq_iff_dvd' hle).1 h
  exact ⟨t, by omega⟩

theorem Setting.same_cell {p q : List (P2 K)} {θ β : Nat → K} (S : Setting p q θ β) {i j a b : Nat} {X : P2 K}
    (h : Cell p q θ β i j X) (h' : Cell p q θ β a b X) (hi : i ≤ a) (hj : j ≤ b)
    (hlt : a < i + p.length ∨ b < j + q.length) : i = a ∧ j = b := by
  obtain ⟨s, t, s0, s1, t0, t1, hs, ht, -⟩ := S.meet h.onP h.onQ
  obtain ⟨k, rfl⟩ := mod_rounds (side_same S.np S.hp s0 s1 hs h'.onP) hi
  obtain ⟨l, rfl⟩ := mod_rounds (side_same S.nq S.hq t0 t1 ht h'.onQ) hj
  have e1 := h'.lt1
  have e2 := h'.lt2
  rw [S.tp.rounds, S.tq.rounds] at e1 e2
  have g1 := h.lt1
  have g2 := h.lt2
  have c1 : ((k : ℤ) : K) < (l : ℤ) + 1 := by push_cast; linarith
  have c2 : ((l : ℤ) : K) < (k : ℤ) + 1 := by push_cast; linarith
  have d1 : (k : ℤ) < l + 1 := by exact_mod_cast c1
  have d2 : (l : ℤ) < k + 1 := by exact_mod_cast c2
  have hkl : k = l := by omega
  subst hkl
  rcases Nat.eq_zero_or_pos k with rfl | hk
  · simp
  · have m1 : p.length ≤ p.length * k := Nat.le_mul_of_pos_right _ hk
    have m2 : q.length ≤ q.length * k := Nat.le_mul_of_pos_right _ hk
    omega

theorem Setting.cell_point {p q : List (P2 K)} {θ β : Nat → K} (S : Setting p q θ β) {i j : Nat} {X Y : P2 K}
    (h : Cell p q θ β i j X) (h' : Cell p q θ β i j Y) : X = Y := by
  obtain ⟨s, t, -, -, -, -, -, -, hne⟩ := S.meet h.onP h.onQ
  exact common_unique hne ⟨h.onP, h.onQ⟩ ⟨h'.onP, h'.onQ⟩

/-! ## The state of the walk -/

/-- The state of the walk after the first crossing, at the sides `i0` and `j0`, was found: at the sides `a` and `b`,
before the look at them (`e = 0`) or after it (`e = 1`). -/
structure Trace (p q : List (P2 K)) (θ β : Nat → K) (i0 j0 a b e : Nat) (s : Trav K) : Prop where
  sa : s.a = a % p.length
  sb : s.b = b % q.length
  near : NearTurn θ β a b
  na : p.length ≤ i0
  nb : q.length ≤ j0
  loA : i0 ≤ a
  loB : j0 ≤ b
  hiA : a ≤ i0 + p.length
  hiB : b ≤ j0 + q.length
  aa : s.aa + i0 = a
  ba : s.ba + j0 = b
  comp : ∀ i j X, Cell p q θ β i j X → i0 ≤ i → j0 ≤ j → (a ≤ i ∧ b ≤ j) ∨ (i ≤ a ∧ j ≤ b)
  vis : s.visited ≠ 0
  flag : s.flag ≠ .unknown
  f1 : s.flag = .in1 ↔ InA p q θ β a (b + e)
  f2 : s.flag = .in2 ↔ InA q p β θ b (a + e)
  nodup : s.out.Nodup
  mem : ∀ X, X ∈ s.out ↔
    (∃ i j, i0 ≤ i ∧ j0 ≤ j ∧ ((i < a ∨ j < b) ∨ e = 1 ∧ i = a ∧ j = b) ∧ Cell p q θ β i j X) ∨
    (∃ k, i0 ≤ k ∧ k < a ∧ X = vertexAt p (k + 1) ∧ InsideAllSides q X) ∨
    (∃ l, j0 ≤ l ∧ l < b ∧ X = vertexAt q (l + 1) ∧ InsideAllSides p X)

theorem Trace.look {p q : List (P2 K)} {θ β : Nat → K} (S : Setting p q θ β) {i0 j0 a b : Nat} {s s1 : Trav K}
    (T : Trace p q θ β i0 j0 a b 0 s) (hl : Looked p q θ β a b s s1) (hend : a < i0 + p.length ∨ b < j0 + q.length) :
    Trace p q θ β i0 j0 a b 1 s1 := by
  have p0 : 0 < p.length := by have := S.np; omega
  have q0 : 0 < q.length := by have := S.nq; omega
  rcases hl with ⟨rfl, hno⟩ | ⟨X, hX, h1, h2, h3, h4, h5, h6⟩
  · refine ⟨T.sa, T.sb, T.near, T.na, T.nb, T.loA, T.loB, T.hiA, T.hiB, T.aa, T.ba, T.comp, T.vis, T.flag, ?_, ?_, T.nodup, ?_⟩
    · rw [inA_skip hno]; exact T.f1
    · rw [inA_skip fun X h => hno X h.symm]; exact T.f2
    · intro X
      rw [T.mem X]
      constructor
      · rintro (⟨i, j, g1, g2, g3, g4⟩ | h)
        · rcases g3 with g3 | g3
          · exact Or.inl ⟨i, j, g1, g2, Or.inl g3, g4⟩
          · exact absurd g3.1 (by omega)
        · exact Or.inr h
      · rintro (⟨i, j, g1, g2, g3, g4⟩ | h)
        · rcases g3 with g3 | ⟨-, rfl, rfl⟩
          · exact Or.inl ⟨i, j, g1, g2, Or.inl g3, g4⟩
          · exact absurd g4 (hno X)
        · exact Or.inr h
  · have hfl : ¬ (s.flag = .unknown ∧ s.visited = 0) := fun h => T.flag h.1
    rw [if_neg hfl] at h6
    obtain ⟨n1, -, -⟩ := cell_strict S hX.onP hX.onQ
    have hbX : OnBoundary p X ∧ OnBoundary q X := ⟨vertexAt_border p0 hX.onP, vertexAt_border q0 hX.onQ⟩
    refine ⟨h1.trans T.sa, h2.trans T.sb, T.near, T.na, T.nb, T.loA, T.loB, T.hiA, T.hiB, by rw [h6.1]; exact T.aa,
      by rw [h6.2]; exact T.ba, T.comp, by omega, ?_, ?_, ?_, ?_, ?_⟩
    · rw [h5]; split_ifs <;> decide
    · rw [inA_hit S hX, h5]
      by_cases h : β b < θ a <;> simp [h]
    · rw [inA_hit S.symm hX.symm, h5]
      by_cases h : β b < θ a
      · simp [h, h.le]
      · have : θ a < β b := lt_of_le_of_ne (not_lt.1 h) n1
        simp [h, this]
    · rw [h3, List.nodup_append]
      refine ⟨T.nodup, List.nodup_singleton _, ?_⟩
      intro Y hY Z hZ
      rw [List.mem_singleton] at hZ
      subst hZ
      rintro rfl
      rcases (T.mem Y).1 hY with ⟨i, j, g1, g2, g3, g4⟩ | ⟨k, -, -, g, -⟩ | ⟨l, -, -, g, -⟩
      · have g3' : i < a ∨ j < b := by
          rcases g3 with g | g
          · exact g
          · omega
        have hle : i ≤ a ∧ j ≤ b := by
          rcases T.comp i j Y g4 g1 g2 with c | c
          · omega
          · exact c
        have := S.same_cell g4 hX hle.1 hle.2 (by omega)
        omega
      · exact S.offP _ (by rw [g]; exact vertexAt_mem p0 _) hbX.2
      · exact S.offQ _ (by rw [g]; exact vertexAt_mem q0 _) hbX.1
    · intro Y
      rw [h3, List.mem_append, List.mem_singleton, T.mem Y]
      constructor
      · rintro ((⟨i, j, g1, g2, g3, g4⟩ | h) | rfl)
        · refine Or.inl ⟨i, j, g1, g2, Or.inl ?_, g4⟩
          rcases g3 with g | g
          · exact g
          · omega
        · exact Or.inr h
        · exact Or.inl ⟨a, b, T.loA, T.loB, Or.inr ⟨rfl, rfl, rfl⟩, hX⟩
      · rintro (⟨i, j, g1, g2, g3, g4⟩ | h)
        · rcases g3 with g3 | ⟨-, rfl, rfl⟩
          · exact Or.inl (Or.inl ⟨i, j, g1, g2, Or.inl g3, g4⟩)
          · exact Or.inr (S.cell_point g4 hX)
        · exact Or.inl (Or.inr h)

theorem Trace.stepA {p q : List (P2 K)} {θ β : Nat → K} (S : Setting p q θ β) {i0 j0 a b : Nat} {s : Trav K} {X0 : P2 K}
    (h0 : Cell p q θ β i0 j0 X0) (T : Trace p q θ β i0 j0 a b 1 s) (hn : NearTurn θ β (a + 1) b) (hlt : a < i0 + p.length)
    (hcol : ∀ j X, Cell p q θ β a j X → j ≤ b) :
    Trace p q θ β i0 j0 (a + 1) b 0
      ((if s.flag = .in1 then s.visit (vertexAt p (a + 1)) else s).stepA p.length) := by
  have p0 : 0 < p.length := by have := S.np; omega
  have q0 : 0 < q.length := by have := S.nq; omega
  have hnext : ∀ j X, Cell p q θ β (a + 1) j X → b ≤ j := by
    intro j X hc
    have hj0 : j0 ≤ j := S.comparable h0 hc (by have := T.loA; omega)
    rcases T.comp _ _ _ hc (by have := T.loA; omega) hj0 with c | c
    · exact c.2
    · omega
  have hhead : s.flag = .in1 ↔ InsideAllSides q (vertexAt p (a + 1)) := by
    rw [T.f1]
    exact inA_head S T.near.1.le T.near.2 (by have := T.nb; have := T.loB; omega) fun j X hc => by
      have := hcol j X hc
      omega
  -- the fields that the visit does not touch
  have hs : ∀ s' : Trav K, s' = (if s.flag = .in1 then s.visit (vertexAt p (a + 1)) else s) →
      s'.a = s.a ∧ s'.b = s.b ∧ s'.aa = s.aa ∧ s'.ba = s.ba ∧ s'.flag = s.flag ∧ s'.visited ≠ 0 ∧
      (s'.out = if s.flag = .in1 then s.out ++ [vertexAt p (a + 1)] else s.out) := by
    rintro s' rfl
    have := T.vis
    unfold Trav.visit
    split_ifs <;> simp_all
  generalize hs' : (if s.flag = .in1 then s.visit (vertexAt p (a + 1)) else s) = s'
  obtain ⟨e1, e2, e3, e4, e5, e6, e7⟩ := hs s' hs'.symm
  have hcells : ∀ i j X, i0 ≤ i → j0 ≤ j → Cell p q θ β i j X → ((i < a ∨ j < b) ∨ 1 = 1 ∧ i = a ∧ j = b ↔ i < a + 1 ∨ j < b) := by
    intro i j X g1 g2 hc
    constructor
    · omega
    · rintro (g | g)
      · rcases T.comp i j X hc g1 g2 with c | c
        · have : i = a := by omega
          subst this
          have := hcol j X hc
          omega
        · omega
      · omega
  have hnd : vertexAt p (a + 1) ∉ s.out := by
    intro hm
    rcases (T.mem _).1 hm with ⟨i, j, -, -, -, g4⟩ | ⟨k, g1, g2, g, -⟩ | ⟨l, -, -, g, -⟩
    · exact S.offP _ (vertexAt_mem p0 (a + 1)) (vertexAt_border q0 g4.onQ)
    · have := vertexAt_inj S.np S.hp g
      have h3 : a ≡ k [MOD p.length] := Nat.ModEq.add_right_cancel' 1 this
      obtain ⟨t, ht⟩ := mod_rounds h3.symm (by omega)
      rcases Nat.eq_zero_or_pos t with rfl | h
      · omega
      · have m1 : p.length ≤ p.length * t := Nat.le_mul_of_pos_right _ h
        omega
    · exact S.offQ _ (by rw [g]; exact vertexAt_mem q0 _) (vertexAt_border p0 (onSegment_right (vertexAt p a) (vertexAt p (a + 1))))
  unfold Trav.stepA
  refine ⟨?_, by rw [e2]; exact T.sb, hn, T.na, T.nb, by have := T.loA; omega, T.loB, by omega, T.hiB, ?_, by rw [e4]; exact T.ba, ?_,
    e6, by rw [e5]; exact T.flag, ?_, ?_, ?_, ?_⟩
  · show (s'.a + 1) % p.length = (a + 1) % p.length
    rw [e1, T.sa, Nat.mod_add_mod]
  · show s'.aa + 1 + i0 = a + 1
    rw [e3]
    have := T.aa
    omega
  · intro i j X hc g1 g2
    rcases T.comp i j X hc g1 g2 with c | c
    · rcases Nat.eq_or_lt_of_le c.1 with rfl | h
      · have := hcol j X hc
        omega
      · omega
    · omega
  · show s'.flag = .in1 ↔ _
    rw [e5, hhead, add_zero, inA_fresh hnext]
  · show s'.flag = .in2 ↔ _
    rw [e5]
    exact T.f2
  · show s'.out.Nodup
    rw [e7]
    split_ifs with hf
    · rw [List.nodup_append]
      refine ⟨T.nodup, List.nodup_singleton _, ?_⟩
      intro Y hY Z hZ
      rw [List.mem_singleton] at hZ
      subst hZ
      rintro rfl
      exact hnd hY
    · exact T.nodup
  · intro X
    show X ∈ s'.out ↔ _
    rw [e7]
    have hmem : X ∈ (if s.flag = .in1 then s.out ++ [vertexAt p (a + 1)] else s.out) ↔ X ∈ s.out ∨ s.flag = .in1 ∧ X = vertexAt p (a + 1) := by
      split_ifs with hf <;> simp [hf]
    rw [hmem, T.mem X, hhead]
    constructor
    · rintro ((⟨i, j, g1, g2, g3, g4⟩ | ⟨k, g1, g2, g3, g4⟩ | h) | ⟨h1, rfl⟩)
      · exact Or.inl ⟨i, j, g1, g2, Or.inl ((hcells i j X g1 g2 g4).1 g3), g4⟩
      · exact Or.inr (Or.inl ⟨k, g1, by omega, g3, g4⟩)
      · exact Or.inr (Or.inr h)
      · exact Or.inr (Or.inl ⟨a, T.loA, by omega, rfl, h1⟩)
    · rintro (⟨i, j, g1, g2, g3, g4⟩ | ⟨k, g1, g2, g3, g4⟩ | h)
      · refine Or.inl (Or.inl ⟨i, j, g1, g2, (hcells i j X g1 g2 g4).2 ?_, g4⟩)
        rcases g3 with g | g
        · exact g
        · omega
      · rcases Nat.lt_or_ge k a with h | h
        · exact Or.inl (Or.inr (Or.inl ⟨k, g1, h, g3, g4⟩))
        · have : k = a := by omega
          subst this
          exact Or.inr ⟨by rw [← g3]; exact g4, g3⟩
      · exact Or.inl (Or.inr (Or.inr h))

theorem Trace.stepB {p q : List (P2 K)} {θ β : Nat → K} (S : Setting p q θ β) {i0 j0 a b : Nat} {s : Trav K} {X0 : P2 K}
    (h0 : Cell p q θ β i0 j0 X0) (T : Trace p q θ β i0 j0 a b 1 s) (hn : NearTurn θ β a (b + 1)) (hlt : b < j0 + q.length)
    (hrow : ∀ i X, Cell p q θ β i b X → i ≤ a) :
    Trace p q θ β i0 j0 a (b + 1) 0
      ((if s.flag = .in2 then s.visit (vertexAt q (b + 1)) else s).stepB q.length) := by
  have p0 : 0 < p.length := by have := S.np; omega
  have q0 : 0 < q.length := by have := S.nq; omega
  have hnext : ∀ i X, Cell q p β θ (b + 1) i X → a ≤ i := by
    intro i X hc
    have hi0 : i0 ≤ i := S.symm.comparable h0.symm hc (by have := T.loB; omega)
    rcases T.comp _ _ _ hc.symm hi0 (by have := T.loB; omega) with c | c
    · exact c.1
    · omega
  have hhead : s.flag = .in2 ↔ InsideAllSides p (vertexAt q (b + 1)) := by
    rw [T.f2]
    exact inA_head S.symm T.near.2 T.near.1.le (by have := T.na; have := T.loA; omega) fun j X hc => by
      have := hrow j X hc.symm
      omega
  have hs : ∀ s' : Trav K, s' = (if s.flag = .in2 then s.visit (vertexAt q (b + 1)) else s) →
      s'.a = s.a ∧ s'.b = s.b ∧ s'.aa = s.aa ∧ s'.ba = s.ba ∧ s'.flag = s.flag ∧ s'.visited ≠ 0 ∧
      (s'.out = if s.flag = .in2 then s.out ++ [vertexAt q (b + 1)] else s.out) := by
    rintro s' rfl
    have := T.vis
    unfold Trav.visit
    split_ifs <;> simp_all
  generalize hs' : (if s.flag = .in2 then s.visit (vertexAt q (b + 1)) else s) = s'
  obtain ⟨e1, e2, e3, e4, e5, e6, e7⟩ := hs s' hs'.symm
  have hcells : ∀ i j X, i0 ≤ i → j0 ≤ j → Cell p q θ β i j X → ((i < a ∨ j < b) ∨ 1 = 1 ∧ i = a ∧ j = b ↔ i < a ∨ j < b + 1) := by
    intro i j X g1 g2 hc
    constructor
    · omega
    · rintro (g | g)
      · omega
      · rcases T.comp i j X hc g1 g2 with c | c
        · have : j = b := by omega
          subst this
          have := hrow i X hc
          omega
        · omega
  have hnd : vertexAt q (b + 1) ∉ s.out := by
    intro hm
    rcases (T.mem _).1 hm with ⟨i, j, -, -, -, g4⟩ | ⟨k, -, -, g, -⟩ | ⟨l, g1, g2, g, -⟩
    · exact S.offQ _ (vertexAt_mem q0 (b + 1)) (vertexAt_border p0 g4.onP)
    · exact S.offP _ (by rw [g]; exact vertexAt_mem p0 _) (vertexAt_border q0 (onSegment_right (vertexAt q b) (vertexAt q (b + 1))))
    · have := vertexAt_inj S.nq S.hq g
      have h3 : b ≡ l [MOD q.length] := Nat.ModEq.add_right_cancel' 1 this
      obtain ⟨t, ht⟩ := mod_rounds h3.symm (by omega)
      rcases Nat.eq_zero_or_pos t with rfl | h
      · omega
      · have m1 : q.length ≤ q.length * t := Nat.le_mul_of_pos_right _ h
        omega
  unfold Trav.stepB
  refine ⟨by rw [e1]; exact T.sa, ?_, hn, T.na, T.nb, T.loA, by have := T.loB; omega, T.hiA, by omega, by rw [e3]; exact T.aa, ?_, ?_,
    e6, by rw [e5]; exact T.flag, ?_, ?_, ?_, ?_⟩
  · show (s'.b + 1) % q.length = (b + 1) % q.length
    rw [e2, T.sb, Nat.mod_add_mod]
  · show s'.ba + 1 + j0 = b + 1
    rw [e4]
    have := T.ba
    omega
  · intro i j X hc g1 g2
    rcases T.comp i j X hc g1 g2 with c | c
    · rcases Nat.eq_or_lt_of_le c.2 with rfl | h
      · have := hrow i X hc
        omega
      · omega
    · omega
  · show s'.flag = .in1 ↔ _
    rw [e5]
    exact T.f1
  · show s'.flag = .in2 ↔ _
    rw [e5, hhead, add_zero, inA_fresh hnext]
  · show s'.out.Nodup
    rw [e7]
    split_ifs with hf
    · rw [List.nodup_append]
      refine ⟨T.nodup, List.nodup_singleton _, ?_⟩
      intro Y hY Z hZ
      rw [List.mem_singleton] at hZ
      subst hZ
      rintro rfl
      exact hnd hY
    · exact T.nodup
  · intro X
    show X ∈ s'.out ↔ _
    rw [e7]
    have hmem : X ∈ (if s.flag = .in2 then s.out ++ [vertexAt q (b + 1)] else s.out) ↔ X ∈ s.out ∨ s.flag = .in2 ∧ X = vertexAt q (b + 1) := by
      split_ifs with hf <;> simp [hf]
    rw [hmem, T.mem X, hhead]
    constructor
    · rintro ((⟨i, j, g1, g2, g3, g4⟩ | h | ⟨k, g1, g2, g3, g4⟩) | ⟨h1, rfl⟩)
      · exact Or.inl ⟨i, j, g1, g2, Or.inl ((hcells i j X g1 g2 g4).1 g3), g4⟩
      · exact Or.inr (Or.inl h)
      · exact Or.inr (Or.inr ⟨k, g1, by omega, g3, g4⟩)
      · exact Or.inr (Or.inr ⟨b, T.loB, by omega, rfl, h1⟩)
    · rintro (⟨i, j, g1, g2, g3, g4⟩ | h | ⟨k, g1, g2, g3, g4⟩)
      · refine Or.inl (Or.inl ⟨i, j, g1, g2, (hcells i j X g1 g2 g4).2 ?_, g4⟩)
        rcases g3 with g | g
        · exact g
        · omega
      · exact Or.inl (Or.inr (Or.inl h))
      · rcases Nat.lt_or_ge k b with h | h
        · exact Or.inl (Or.inr (Or.inr ⟨k, g1, h, g3, g4⟩))
        · have : k = b := by omega
          subst this
          exact Or.inr ⟨by rw [← g3]; exact g4, g3⟩

end Geometrix
