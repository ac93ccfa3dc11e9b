import Verif.Lemmas.ConvexProper

/-!
# The walk along two convex polygons finds where their borders touch
-/

set_option linter.unusedSectionVars false

namespace Geometrix

open Spec

variable {K : Type*} [Field K] [LinearOrder K] [IsStrictOrderedRing K]

/-! ## Angles -/

theorem angle_left {u v : P2 K} {x y : K} (hu : IsAngle u x) (hv : IsAngle v y) (h : 0 < cross u v) :
    ∃ z : ℤ, x < y + 4 * z ∧ y + 4 * z < x + 2 := by
  have hu' := hu
  have hv' := hv
  obtain ⟨j, w, -, -, -⟩ := hu'
  -- an integer z with x < y + 4 z ≤ x + 4 exists because angles are near integers
  obtain ⟨z, z1, z2⟩ : ∃ z : ℤ, x < y + 4 * z ∧ y + 4 * z ≤ x + 4 := by
    obtain ⟨j, w, hw, hx, -⟩ := hu
    obtain ⟨k, w', hw', hy, -⟩ := hv
    obtain ⟨r1, r2⟩ := halfAngle_range hw
    obtain ⟨r3, r4⟩ := halfAngle_range hw'
    obtain ⟨n, hn⟩ : ∃ n : ℤ, j - k = 2 * n ∨ j - k = 2 * n + 1 := by
      rcases Int.even_or_odd' (j - k) with ⟨n, hn⟩
      exact ⟨n, hn⟩
    rcases hn with hn | hn
    · have e : (j : K) = k + 2 * n := by have : j = k + 2 * n := by omega
                                         rw [this]; push_cast; ring
      rcases lt_or_ge (halfAngle w) (halfAngle w') with h | h
      · exact ⟨n, by rw [hx, hy, e]; linarith, by rw [hx, hy, e]; linarith⟩
      · exact ⟨n + 1, by rw [hx, hy, e]; push_cast; linarith, by rw [hx, hy, e]; push_cast; linarith⟩
    · have e : (j : K) = k + 2 * n + 1 := by have : j = k + 2 * n + 1 := by omega
                                             rw [this]; push_cast; ring
      exact ⟨n + 1, by rw [hx, hy, e]; push_cast; linarith, by rw [hx, hy, e]; push_cast; linarith⟩
  refine ⟨z, z1, ?_⟩
  by_contra hc
  push Not at hc
  have hv4 := hv'.shift z
  rcases hc.eq_or_lt with h2 | h2
  · rw [← h2] at hv4
    have := (hu.against hv4).1
    linarith
  · rcases z2.eq_or_lt with h3 | h3
    · have hu4 := hu.shift 1
      push_cast at hu4
      rw [h3] at hv4
      have := (hu4.same (by simpa using hv4)).1
      linarith
    · have hu4 := hu.shift 1
      push_cast at hu4
      have := hu4.neg hv4 (by linarith) (by linarith)
      linarith

/-! ## The choice of the walk at a common point -/

/-- The walk does not leave a side of the first polygon before it comes to a common point that is not the end of it. -/
theorem Around.keep_a {p q : List (P2 K)} {θ β : Nat → K} (S : Around p q θ β) {i j b : Nat} {X : P2 K} {s t : K}
    (hc : Cell p q θ β i j X) (s1 : s < 1) (t0 : 0 < t) (hs : X = vertexAt p i + s • sideVec p i)
    (ht : X = vertexAt q j + t • sideVec q j) (hn : NearTurn θ β i b) (hb : b < j) {f : InFlag} : ¬ Go p q f i b := by
  intro hg
  have q0 : 0 < q.length := by have := S.nq; omega
  obtain ⟨e1, -, -, -⟩ := cross_ends (A0 := vertexAt p i) (A1 := vertexAt p (i + 1)) (B0 := vertexAt q j) (B1 := vertexAt q (j + 1)) hs ht
  rcases goA_cases hg with ⟨g1, g2, -⟩ | ⟨g1, g2⟩
  · have hle : θ i ≤ β b := by
      by_contra hcon
      push Not at hcon
      have := S.o_neg hn hcon
      linarith
    have hup := chain_up S.tp S.tq hle j hb hc.lt2
    have hlt : θ i < β j := lt_of_le_of_lt hle (S.tq.mono hb)
    have hpos := (S.tp.ang i).pos (S.tq.ang j) hlt hc.lt2
    change area2 _ _ _ = -(t * cross (sideVec p i) (sideVec q j)) at e1
    have := mul_pos t0 hpos
    linarith
  · have hX := inside_boundary S.hq (vertexAt_border q0 hc.onQ) _ (vertexAt_side q0 b)
    simp only at hX
    have e := area2_sub (vertexAt q b) (vertexAt q (b + 1)) (vertexAt p (i + 1)) X
    have e2 : cross (vertexAt q (b + 1) - vertexAt q b) (vertexAt p (i + 1) - X) = -((1 - s) * cross (sideVec p i) (sideVec q b)) := by
      rw [hs]
      unfold cross sideVec
      simp only [P2.add_x, P2.add_y, P2.smul_x, P2.smul_y, P2.sub_x, P2.sub_y]
      ring
    have := mul_neg_of_pos_of_neg (by linarith : 0 < 1 - s) g1
    linarith

/-- A vertex on the line of a side is an end of it. -/
theorem line_vertex {q : List (P2 K)} (nq : 2 < q.length) (hq : StrictlyConvex q) {l k : Nat}
    (hl : area2 (vertexAt q k) (vertexAt q (k + 1)) (vertexAt q l) = 0) :
    l % q.length = k % q.length ∨ l % q.length = (k + 1) % q.length := by
  have q0 : 0 < q.length := by omega
  by_contra hcon
  push Not at hcon
  have := convex_vertex_strict hq (vertexAt_edge q0 k) (vertexAt_get q0 l)
    (fun h => hcon.1 (by
      have := congrArg (fun n => (n + 1) % q.length) h
      simp only [Nat.mod_add_mod] at this
      rw [show l + q.length - 1 + 1 = l + q.length by omega, show k + q.length - 1 + 1 = k + q.length by omega] at this
      simpa using this))
    (fun h => hcon.2 (by
      have := congrArg (fun n => (n + 1) % q.length) h
      simp only [Nat.mod_add_mod] at this
      rw [show l + q.length - 1 + 1 = l + q.length by omega, show k + q.length - 1 + 1 + 1 = k + 1 + q.length by omega] at this
      simpa using this))
  linarith

/-- Equal sides at different numbers are at least a full turn apart. -/
theorem Turning.apart {p : List (P2 K)} {θ : Nat → K} (tp : Turning p θ) {a i : Nat} (h : i % p.length = a % p.length) (hlt : a < i) :
    θ a + 4 ≤ θ i := by
  have h1 : a + p.length ≤ i := by
    have hd : p.length ∣ i - a := (Nat.modEq_iff_dvd' hlt.le).1 h.symm
    have := Nat.le_of_dvd (by omega) hd
    omega
  rw [← tp.period]
  exact tp.mono.monotone h1

/-- The walk does not leave a side of the second polygon before it comes to a common point that is not the end of it. -/
theorem Around.keep_b {p q : List (P2 K)} {θ β : Nat → K} (S : Around p q θ β) {i j a : Nat} {X : P2 K} {s t : K}
    (hc : Cell p q θ β i j X) (s0 : 0 < s) (s1 : s ≤ 1) (t1 : t < 1) (hs : X = vertexAt p i + s • sideVec p i)
    (ht : X = vertexAt q j + t • sideVec q j) (hn : NearTurn θ β a j) (ha : a < i) {f : InFlag} : Go p q f a j := by
  by_contra hg
  have np := S.np
  have p0 : 0 < p.length := by omega
  obtain ⟨-, -, e3, -⟩ := cross_ends (A0 := vertexAt p i) (A1 := vertexAt p (i + 1)) (B0 := vertexAt q j) (B1 := vertexAt q (j + 1)) hs ht
  change _ = s * cross (sideVec p i) (sideVec q j) at e3
  rcases not_goA_cases hg with ⟨g1, g2⟩ | ⟨g1, g2⟩
  · have hX := inside_boundary S.hp (vertexAt_border p0 hc.onP) _ (vertexAt_side p0 a)
    simp only at hX
    have e := area2_sub (vertexAt p a) (vertexAt p (a + 1)) (vertexAt q (j + 1)) X
    have e2 : cross (vertexAt p (a + 1) - vertexAt p a) (vertexAt q (j + 1) - X) = (1 - t) * cross (sideVec p a) (sideVec q j) := by
      rw [ht]
      unfold cross sideVec
      simp only [P2.add_x, P2.add_y, P2.smul_x, P2.smul_y, P2.sub_x, P2.sub_y]
      ring
    have m := mul_nonneg (by linarith : 0 ≤ 1 - t) g1
    have ho : cross (sideVec p a) (sideVec q j) = 0 := by
      have : (1 - t) * cross (sideVec p a) (sideVec q j) = 0 := by linarith
      rcases mul_eq_zero.1 this with h | h
      · linarith
      · exact h
    have hX0 : area2 (vertexAt p a) (vertexAt p (a + 1)) X = 0 := by linarith
    -- the side `j` has the direction of the side `a`
    have hang : β j = θ a := by
      rcases lt_trichotomy (β j) (θ a) with h | h | h
      · have := S.o_neg hn h
        linarith
      · exact h
      · rcases hn.2.eq_or_lt with h2 | h2
        · have := S.against h2
          linarith
        · have := (S.tp.ang a).pos (S.tq.ang j) h h2
          linarith
    have hlt1 := hc.lt1
    rcases s1.eq_or_lt with h1 | h1
    · have hv : X = vertexAt p (i + 1) := by
        rw [hs, h1]
        unfold sideVec
        ext <;> simp
      rw [hv] at hX0
      rcases line_vertex np S.hp hX0 with h | h
      · have := S.tp.apart h (by omega)
        have := S.tp.step i
        linarith
      · have h' : i % p.length = a % p.length := Nat.ModEq.add_right_cancel' 1 h
        have := S.tp.apart h' ha
        linarith
    · have h := line_same np S.hp s0 h1 hs hX0
      have := S.tp.apart h ha
      linarith
  · have hle : β j ≤ θ a := by
      by_contra hcon
      push Not at hcon
      have := S.o_nonneg hn hcon.le
      linarith
    have hup := chain_up S.tq S.tp hle i ha hc.lt1
    have hlt : β j < θ i := lt_of_le_of_lt hle (S.tp.mono ha)
    have hneg := (S.tp.ang i).neg (S.tq.ang j) hlt hc.lt1
    have := mul_neg_of_pos_of_neg s0 hneg
    linarith

/-! ## The sides at a point of the border -/

/-- The side that comes to `X` and the side that leaves it: the same side, or the sides at a vertex. -/
structure AtBorder (p : List (P2 K)) (i i' : Nat) (X : P2 K) : Prop where
  into : ∃ s : K, 0 < s ∧ s ≤ 1 ∧ X = vertexAt p i + s • sideVec p i
  from' : ∃ s : K, 0 ≤ s ∧ s < 1 ∧ X = vertexAt p i' + s • sideVec p i'
  next : i' = i ∨ i' = i + 1

theorem AtBorder.shift {p : List (P2 K)} (p0 : 0 < p.length) {i i' : Nat} {X : P2 K} (h : AtBorder p i i' X) :
    AtBorder p (i + p.length) (i' + p.length) X := by
  refine ⟨?_, ?_, ?_⟩
  · rw [vertexAt_period p0, sideVec_period p0]; exact h.into
  · rw [vertexAt_period p0, sideVec_period p0]; exact h.from'
  · have := h.next; omega

theorem AtBorder.onA {p : List (P2 K)} {i i' : Nat} {X : P2 K} (h : AtBorder p i i' X) :
    OnSegment (vertexAt p i) (vertexAt p (i + 1)) X := by
  obtain ⟨s, s0, s1, hs⟩ := h.into
  exact ⟨s, s0.le, s1, hs⟩

theorem AtBorder.onB {p : List (P2 K)} {i i' : Nat} {X : P2 K} (h : AtBorder p i i' X) :
    OnSegment (vertexAt p i') (vertexAt p (i' + 1)) X := by
  obtain ⟨s, s0, s1, hs⟩ := h.from'
  exact ⟨s, s0, s1.le, hs⟩

theorem vertexAt_head (p : List (P2 K)) (k : Nat) : vertexAt p (k + 1) = vertexAt p k + (1 : K) • sideVec p k := by
  unfold sideVec
  ext <;> simp

theorem exists_atBorder {p : List (P2 K)} (np : 2 < p.length) {X : P2 K} (h : OnBoundary p X) :
    ∃ i i', AtBorder p i i' X ∧ p.length ≤ i' ∧ i' < 2 * p.length := by
  have p0 : 0 < p.length := by omega
  obtain ⟨i, i1, i2, s, s0, s1, hs⟩ := border_vertexAt h le_rfl
  change X = vertexAt p i + s • sideVec p i at hs
  rcases s1.eq_or_lt with e | e
  · have hX : X = vertexAt p (i + 1) := by rw [hs, e, ← vertexAt_head]
    have key : AtBorder p i (i + 1) X :=
      ⟨⟨1, one_pos, le_rfl, by rw [hX]; exact vertexAt_head p i⟩, ⟨0, le_rfl, one_pos, by rw [hX]; ext <;> simp⟩, Or.inr rfl⟩
    rcases Nat.lt_or_ge (i + 1) (2 * p.length) with h | h
    · exact ⟨i, i + 1, key, by omega, h⟩
    · obtain ⟨k, rfl⟩ : ∃ k, i = k + p.length := ⟨i - p.length, by omega⟩
      refine ⟨k, k + 1, ?_, by omega, by omega⟩
      have hX' : X = vertexAt p (k + 1) := by
        rw [hX, show k + p.length + 1 = k + 1 + p.length by omega, vertexAt_period p0]
      exact ⟨⟨1, one_pos, le_rfl, by rw [hX']; exact vertexAt_head p k⟩, ⟨0, le_rfl, one_pos, by rw [hX']; ext <;> simp⟩, Or.inr rfl⟩
  · rcases s0.eq_or_lt with e0 | e0
    · have hX : X = vertexAt p i := by rw [hs, ← e0]; ext <;> simp
      obtain ⟨k, rfl⟩ : ∃ k, i = k + 1 := ⟨i - 1, by omega⟩
      exact ⟨k, k + 1, ⟨⟨1, one_pos, le_rfl, by rw [hX]; exact vertexAt_head p k⟩, ⟨0, le_rfl, one_pos, by rw [hX]; ext <;> simp⟩, Or.inr rfl⟩,
        i1, by omega⟩
    · exact ⟨i, i, ⟨⟨s, e0, s1, hs⟩, ⟨s, s0, e, hs⟩, Or.inl rfl⟩, i1, by omega⟩

/-- The direction to a point inside lies to the left of the sides at a point of the border. -/
theorem AtBorder.angle {p : List (P2 K)} {θ : Nat → K} (tp : Turning p θ) (p0 : 0 < p.length) {i i' : Nat} {X W : P2 K} {φ : K}
    (h : AtBorder p i i' X) (hW : ∀ e ∈ sides p, 0 < area2 e.1 e.2 W) (hφ : IsAngle (W - X) φ) :
    ∃ z : ℤ, (θ i < φ + 4 * z ∧ φ + 4 * z < θ i + 2) ∧ θ i' < φ + 4 * z ∧ φ + 4 * z < θ i' + 2 := by
  have key : ∀ k (s : K), X = vertexAt p k + s • sideVec p k → 0 < cross (sideVec p k) (W - X) := by
    intro k s hs
    have := hW _ (vertexAt_side p0 k)
    simp only at this
    have e : cross (sideVec p k) (W - X) = area2 (vertexAt p k) (vertexAt p (k + 1)) W := by
      rw [hs]
      unfold cross area2 sideVec
      simp only [P2.add_x, P2.add_y, P2.smul_x, P2.smul_y, P2.sub_x, P2.sub_y]
      ring
    rw [e]
    exact this
  obtain ⟨s, -, -, hs⟩ := h.into
  obtain ⟨s', -, -, hs'⟩ := h.from'
  obtain ⟨z, z1, z2⟩ := angle_left (tp.ang i) hφ (key i s hs)
  rcases h.next with e | e
  · rw [e]
    exact ⟨z, ⟨z1, z2⟩, z1, z2⟩
  · obtain ⟨y, y1, y2⟩ := angle_left (tp.ang i') hφ (key i' s' hs')
    have hup := tp.up i
    have hst := tp.step i
    rw [← e] at hup hst
    have : y = z := by
      rcases lt_trichotomy y z with h | h | h
      · have : (y : K) + 1 ≤ z := by exact_mod_cast h
        linarith
      · exact h
      · have : (z : K) + 1 ≤ y := by exact_mod_cast h
        linarith
    subst this
    exact ⟨y, ⟨z1, z2⟩, y1, y2⟩

/-! ## Polygons with a common point inside -/

/-- Two strictly convex polygons with a common point `W` inside; sides that meet are not parallel. -/
structure Touching (p q : List (P2 K)) (θ β : Nat → K) (W : P2 K) : Prop extends Around p q θ β where
  inP : ∀ e ∈ sides p, 0 < area2 e.1 e.2 W
  inQ : ∀ e ∈ sides q, 0 < area2 e.1 e.2 W
  skew : ∀ a b X, OnSegment (vertexAt p a) (vertexAt p (a + 1)) X → OnSegment (vertexAt q b) (vertexAt q (b + 1)) X →
    cross (sideVec p a) (sideVec q b) ≠ 0

/-- The sides of both polygons at a common point of the borders, with the angles near each other. -/
structure SharedAt (p q : List (P2 K)) (θ β : Nat → K) (i i' j j' : Nat) (X : P2 K) (φ : K) : Prop where
  atP : AtBorder p i i' X
  atQ : AtBorder q j j' X
  i1 : θ i < φ
  i2 : φ < θ i + 2
  i3 : θ i' < φ
  i4 : φ < θ i' + 2
  j1 : β j < φ
  j2 : φ < β j + 2
  j3 : β j' < φ
  j4 : φ < β j' + 2

theorem Touching.sharedAt {p q : List (P2 K)} {θ β : Nat → K} {W : P2 K} (S : Touching p q θ β W)
    (hn : NearTurn θ β p.length q.length) {X : P2 K} (hX : OnBoundary p X) (hX' : OnBoundary q X) :
    ∃ i i' j j' φ, SharedAt p q θ β i i' j j' X φ ∧ p.length ≤ i' ∧ q.length ≤ j' ∧ i' < 3 * p.length ∧ j' < 3 * q.length ∧
      (i' < 2 * p.length ∨ j' < 2 * q.length) := by
  have np := S.np
  have nq := S.nq
  have p0 : 0 < p.length := by omega
  have q0 : 0 < q.length := by omega
  have hne : W - X ≠ 0 := by
    intro h
    obtain ⟨e, he, s, -, -, hs⟩ := (onBoundary_iff_sides _ _).1 hX
    have h1 := S.inP e he
    have : W = X := by
      have hx := congrArg P2.x h
      have hy := congrArg P2.y h
      simp only [P2.sub_x, P2.sub_y, P2.zero_x, P2.zero_y] at hx hy
      ext <;> linarith
    rw [this, hs] at h1
    have e0 : area2 e.1 e.2 (e.1 + s • (e.2 - e.1)) = 0 := by
      unfold area2
      simp only [P2.add_x, P2.add_y, P2.smul_x, P2.smul_y, P2.sub_x, P2.sub_y]
      ring
    linarith
  obtain ⟨φ0, hφ0, -⟩ := exists_angle hne
  obtain ⟨i, i', hP, a1, a2⟩ := exists_atBorder np hX
  obtain ⟨j, j', hQ, b1, b2⟩ := exists_atBorder nq hX'
  obtain ⟨z, ⟨c1, c2⟩, c3, c4⟩ := hP.angle S.tp p0 S.inP hφ0
  have hφ := hφ0.shift z
  generalize φ0 + 4 * (z : K) = φ at *
  obtain ⟨y, ⟨d1, d2⟩, d3, d4⟩ := hQ.angle S.tq q0 S.inQ hφ
  have t1 : θ p.length ≤ θ i' := S.tp.mono.monotone a1
  have t2 : θ i' < θ p.length + 4 := by rw [← S.tp.period]; exact S.tp.mono (by omega)
  have t3 : β q.length ≤ β j' := S.tq.mono.monotone b1
  have t4 : β j' < β q.length + 4 := by rw [← S.tq.period]; exact S.tq.mono (by omega)
  have n1 := hn.1
  have n2 := hn.2
  have hy : y = -1 ∨ y = 0 ∨ y = 1 := by
    by_contra hcon
    have : y ≤ -2 ∨ 2 ≤ y := by omega
    rcases this with h | h
    · have : (y : K) ≤ -2 := by exact_mod_cast h
      linarith
    · have : (2 : K) ≤ y := by exact_mod_cast h
      linarith
  rcases hy with rfl | rfl | rfl
  · push_cast at d1 d2 d3 d4
    refine ⟨i, i', j + q.length, j' + q.length, φ, ⟨hP, hQ.shift q0, c1, c2, c3, c4, ?_, ?_, ?_, ?_⟩, a1, by omega, by omega, by omega,
      Or.inl a2⟩ <;> rw [S.tq.period] <;> linarith
  · push_cast at d1 d2 d3 d4
    refine ⟨i, i', j, j', φ, ⟨hP, hQ, c1, c2, c3, c4, ?_, ?_, ?_, ?_⟩, a1, b1, by omega, by omega, Or.inl a2⟩ <;> linarith
  · push_cast at d1 d2 d3 d4
    refine ⟨i + p.length, i' + p.length, j, j', φ + 4, ⟨hP.shift p0, hQ, ?_, ?_, ?_, ?_, ?_, ?_, ?_, ?_⟩, by omega, b1, by omega, by omega,
      Or.inr b2⟩ <;> first | (rw [S.tp.period]; linarith) | linarith

/-- A turn of the walk with the answer for the two sides. -/
theorem Around.turn_look {p q : List (P2 K)} {θ β : Nat → K} (S : Around p q θ β) {a b : Nat} {s : Trav K}
    (ha : s.a = a % p.length) (hb : s.b = b % q.length) :
    ∃ ty pts, CorrectAnswer (vertexAt p a) (vertexAt p (a + 1)) (vertexAt q b) (vertexAt q (b + 1)) ty pts ∧
      let s1 := (s.look ty pts (getOrientation Cmp.direct (vertexAt q b) (vertexAt q (b + 1)) (vertexAt p (a + 1)))
      (getOrientation Cmp.direct (vertexAt p a) (vertexAt p (a + 1)) (vertexAt q (b + 1))))
      (Go p q s1.flag a b → travBody Cmp.direct p q s =
        .ok (.inr ((if s1.flag = .in1 then s1.visit (vertexAt p (a + 1)) else s1).stepA p.length))) ∧
      (¬ Go p q s1.flag a b → travBody Cmp.direct p q s =
        .ok (.inr ((if s1.flag = .in2 then s1.visit (vertexAt q (b + 1)) else s1).stepB q.length))) := by
  have p0 : 0 < p.length := by have := S.np; omega
  have q0 : 0 < q.length := by have := S.nq; omega
  have hA := vertexAt_ne S.np S.hp a
  have hB := vertexAt_ne S.nq S.hq b
  have ht : Turn p q s (vertexAt p a) (vertexAt p (a + 1)) (vertexAt q b) (vertexAt q (b + 1)) := by
    refine ⟨by rw [ha]; exact Nat.mod_lt _ p0, by rw [hb]; exact Nat.mod_lt _ q0, ?_, ?_⟩
    · have := vertexAt_edge p0 a
      rw [ha, Nat.add_sub_assoc (by omega), Nat.mod_add_mod, ← Nat.add_sub_assoc (by omega)]
      exact this
    · have := vertexAt_edge q0 b
      rw [hb, Nat.add_sub_assoc (by omega), Nat.mod_add_mod, ← Nat.add_sub_assoc (by omega)]
      exact this
  obtain ⟨ty, pts, hseg, hcor⟩ := C09_segment_segment (vertexAt p a) (vertexAt p (a + 1)) (vertexAt q b) (vertexAt q (b + 1)) hA hB
  refine ⟨ty, pts, hcor, ?_⟩
  intro s1
  · show (Go p q s1.flag a b → _) ∧ _
    rw [travBody_eq ht hseg, if_neg]
    · dsimp only
      rw [if_neg]
      · obtain ⟨g1, g2⟩ := advance_go (p := p) (q := q) (a := a) (b := b) (s.look ty pts (getOrientation Cmp.direct (vertexAt q b) (vertexAt q (b + 1)) (vertexAt p (a + 1)))
          (getOrientation Cmp.direct (vertexAt p a) (vertexAt p (a + 1)) (vertexAt q (b + 1)))) p.length q.length
        exact ⟨fun h => by rw [g1 h], fun h => by rw [g2 h]⟩
      · rintro ⟨h1, h2, h3⟩
        obtain ⟨Z, z1, z2⟩ := S.common
        exact parallel_separate (vertexAt_edge p0 a) (vertexAt_edge q0 b) hA ((getOrientationV_collinear _ _).1 h1)
          ((orientation_sign _ _ _).2.1.1 h2) ((orientation_sign _ _ _).2.1.1 h3) z1 z2
    · rintro ⟨h, hdot⟩
      obtain ⟨⟨c, hc⟩, ⟨d, hd⟩, -⟩ := hcor.overlapping.1 h
      obtain ⟨Z, z1, z2⟩ := S.seenQ a
      have z3 := z1 _ (vertexAt_side q0 b)
      simp only at z3
      have e1 : area2 (vertexAt q b) (vertexAt q (b + 1)) Z = (d - c) * area2 (vertexAt p a) (vertexAt p (a + 1)) Z := by
        rw [hc, hd]
        unfold area2
        simp only [P2.add_x, P2.add_y, P2.smul_x, P2.smul_y, P2.sub_x, P2.sub_y]
        ring
      have e2 : dot (vertexAt p (a + 1) - vertexAt p a) (vertexAt q (b + 1) - vertexAt q b) = (d - c) *
          ((vertexAt p (a + 1) - vertexAt p a).x ^ 2 + (vertexAt p (a + 1) - vertexAt p a).y ^ 2) := by
        rw [hc, hd]
        unfold dot
        simp only [P2.add_x, P2.add_y, P2.smul_x, P2.smul_y, P2.sub_x, P2.sub_y]
        ring
      rw [e2] at hdot
      have hdc : d - c < 0 := by
        by_contra hcon
        push Not at hcon
        have := mul_nonneg hcon (add_nonneg (sq_nonneg (vertexAt p (a + 1) - vertexAt p a).x) (sq_nonneg (vertexAt p (a + 1) - vertexAt p a).y))
        linarith
      have := mul_neg_of_neg_of_pos hdc z2
      linarith

/-- A turn at sides with a common point. -/
theorem Touching.turn {p q : List (P2 K)} {θ β : Nat → K} {W : P2 K} (S : Touching p q θ β W) {a b : Nat} {s : Trav K}
    (ha : s.a = a % p.length) (hb : s.b = b % q.length) :
    ∃ s1, After s s1 ∧
      (∀ (X : P2 K) (u t : K), 0 ≤ u → u ≤ 1 → 0 ≤ t → t ≤ 1 → X = vertexAt p a + u • sideVec p a → X = vertexAt q b + t • sideVec q b →
        X ∈ s1.out ∧ s1.visited ≠ 0 ∧
        (s1.flag = .unknown → s.visited = 0 → s1.aa = 0 ∧ s1.ba = 0) ∧
        (u < 1 → cross (sideVec p a) (sideVec q b) < 0 → s1.flag ≠ .unknown) ∧
        (t < 1 → 0 < cross (sideVec p a) (sideVec q b) → s1.flag ≠ .unknown)) ∧
      ((¬ ∃ X, OnSegment (vertexAt p a) (vertexAt p (a + 1)) X ∧ OnSegment (vertexAt q b) (vertexAt q (b + 1)) X) → s1 = s) ∧
      (Go p q s1.flag a b → travBody Cmp.direct p q s =
        .ok (.inr ((if s1.flag = .in1 then s1.visit (vertexAt p (a + 1)) else s1).stepA p.length))) ∧
      (¬ Go p q s1.flag a b → travBody Cmp.direct p q s =
        .ok (.inr ((if s1.flag = .in2 then s1.visit (vertexAt q (b + 1)) else s1).stepB q.length))) := by
  have hA := vertexAt_ne S.np S.hp a
  have hB := vertexAt_ne S.nq S.hq b
  obtain ⟨ty, pts, hcor, h1, h2⟩ := S.toAround.turn_look ha hb
  refine ⟨_, look_after _ _ _ _ _, ?_, ?_, h1, h2⟩
  · intro X u t u0 u1 t0 t1 hs htt
    have hcom : Common (vertexAt p a) (vertexAt p (a + 1)) (vertexAt q b) (vertexAt q (b + 1)) X :=
      ⟨⟨u, u0, u1, hs⟩, ⟨t, t0, t1, htt⟩⟩
    have hne := S.skew a b X hcom.1 hcom.2
    have hnov : ty ≠ .overlapping := by
      intro h
      obtain ⟨⟨c, hc⟩, ⟨d, hd⟩, -⟩ := hcor.overlapping.1 h
      apply hne
      unfold cross sideVec
      rw [hc, hd]
      simp only [P2.add_x, P2.add_y, P2.smul_x, P2.smul_y, P2.sub_x, P2.sub_y]
      ring
    have hty : ty = .crossing ∨ ty = .endpoint := by
      rcases answer_type hcor hA ⟨X, hcom⟩ with h | h | h
      · exact Or.inl h
      · exact Or.inr h
      · exact absurd h hnov
    obtain ⟨Y, hpts, hY⟩ := hcor.point hty
    have hXY : X = Y := (hY X).1 hcom
    subst hXY
    unfold Trav.look
    rw [if_pos hty, hpts]
    dsimp only
    obtain ⟨-, -, f3, f4, -⟩ := found_facts s X (getOrientation Cmp.direct (vertexAt q b) (vertexAt q (b + 1)) (vertexAt p (a + 1)))
      (getOrientation Cmp.direct (vertexAt p a) (vertexAt p (a + 1)) (vertexAt q (b + 1)))
    obtain ⟨-, e2, -, e4⟩ := cross_ends (A0 := vertexAt p a) (A1 := vertexAt p (a + 1)) (B0 := vertexAt q b) (B1 := vertexAt q (b + 1)) hs htt
    have o1 := (orientation_sign (vertexAt q b) (vertexAt q (b + 1)) (vertexAt p (a + 1))).1
    have o2 := (orientation_sign (vertexAt p a) (vertexAt p (a + 1)) (vertexAt q (b + 1))).1
    rw [e4] at o1
    rw [e2] at o2
    refine ⟨by rw [f3]; simp, by rw [f4]; omega, ?_, ?_, ?_⟩
    · intro g1 g2
      unfold Trav.found Trav.visit at g1 ⊢
      dsimp only at g1 ⊢
      split_ifs at g1 ⊢ <;> simp_all
    · intro g1 hneg
      have hl := o1.2 (by
        have := mul_neg_of_pos_of_neg (by linarith : 0 < 1 - u) hneg
        change 0 < -((1 - u) * cross (sideVec p a) (sideVec q b))
        linarith)
      unfold Trav.found
      rw [if_pos hl]
      simp
    · intro g1 hpos
      have hl := o2.2 (mul_pos (by linarith : 0 < 1 - t) hpos)
      unfold Trav.found
      split_ifs <;> simp_all
  · intro hno
    have hno' : ¬ ∃ X, Common (vertexAt p a) (vertexAt p (a + 1)) (vertexAt q b) (vertexAt q (b + 1)) X := hno
    have hty := hcor.nonCrossing.2 hno'
    unfold Trav.look
    rw [if_neg (by rw [hty]; decide)]

/-- Sides `a`, `b` that share `X`: each is the one that comes to `X` or the one that leaves it. -/
theorem SharedAt.go_a {p q : List (P2 K)} {θ β : Nat → K} {W : P2 K} (S : Touching p q θ β W) {i i' j j' a b : Nat} {X : P2 K} {φ : K}
    (h : SharedAt p q θ β i i' j j' X φ) (hn : NearTurn θ β a b) (ha : a ≤ i') (hb : b ≤ j') (hcell : ¬ (i ≤ a ∧ j ≤ b)) {f : InFlag}
    (hg : Go p q f a b) : a < i' := by
  by_contra hcon
  have e : a = i' := by omega
  subst e
  have := h.atP.next
  obtain ⟨s, s0, s1, hs⟩ := h.atP.from'
  obtain ⟨t, t0, t1, ht⟩ := h.atQ.into
  have hc : Cell p q θ β a j X := ⟨h.atP.onB, h.atQ.onA, by have := h.i3; have := h.j2; linarith, by have := h.i4; have := h.j1; linarith⟩
  exact S.keep_a hc s1 t0 hs ht hn (by omega) hg

theorem SharedAt.go_b {p q : List (P2 K)} {θ β : Nat → K} {W : P2 K} (S : Touching p q θ β W) {i i' j j' a b : Nat} {X : P2 K} {φ : K}
    (h : SharedAt p q θ β i i' j j' X φ) (hn : NearTurn θ β a b) (ha : a ≤ i') (hb : b ≤ j') (hcell : ¬ (i ≤ a ∧ j ≤ b)) {f : InFlag}
    (hg : ¬ Go p q f a b) : b < j' := by
  by_contra hcon
  have e : b = j' := by omega
  subst e
  have := h.atQ.next
  obtain ⟨s, s0, s1, hs⟩ := h.atP.into
  obtain ⟨t, t0, t1, ht⟩ := h.atQ.from'
  have hc : Cell p q θ β i b X := ⟨h.atP.onA, h.atQ.onB, by have := h.i1; have := h.j4; linarith, by have := h.i2; have := h.j3; linarith⟩
  exact hg (S.keep_b hc s0 s1 t1 hs ht hn (by omega))

/-- The place of `X` on a side that has it. -/
theorem AtBorder.place {p : List (P2 K)} {i i' a : Nat} {X : P2 K} (h : AtBorder p i i' X) (h1 : i ≤ a) (h2 : a ≤ i') :
    ∃ u : K, 0 ≤ u ∧ u ≤ 1 ∧ X = vertexAt p a + u • sideVec p a ∧ (a = i' → u < 1) := by
  by_cases e : a = i'
  · subst e
    obtain ⟨u, u0, u1, hu⟩ := h.from'
    exact ⟨u, u0, u1.le, hu, fun _ => u1⟩
  · have := h.next
    have e' : a = i := by omega
    subst e'
    obtain ⟨u, u0, u1, hu⟩ := h.into
    exact ⟨u, u0.le, u1, hu, fun h => absurd h e⟩

/-- What was visited stays visited. -/
theorem Around.keeps {p q : List (P2 K)} {θ β : Nat → K} (S : Around p q θ β) : ∀ (fuel : Nat) (s : Trav K), s.a < p.length →
    s.b < q.length → s.visited ≠ 0 → ∀ ty out, travLoop Cmp.direct p q fuel s = .ok (ty, out) → ∀ X ∈ s.out, X ∈ out := by
  intro fuel
  have p0 : 0 < p.length := by have := S.np; omega
  have q0 : 0 < q.length := by have := S.nq; omega
  induction fuel with
  | zero => intro s _ _ _ ty out h; cases h
  | succ k ih =>
    intro s ha hb hv ty out hr X hX
    obtain ⟨s1, h1, -, hA, hB⟩ := S.turn (s := s) (a := s.a) (b := s.b) (Nat.mod_eq_of_lt ha).symm (Nat.mod_eq_of_lt hb).symm
    have key : ∃ s2, travBody Cmp.direct p q s = .ok (.inr s2) ∧ s2.a < p.length ∧ s2.b < q.length ∧ s2.visited ≠ 0 ∧
        ∀ X ∈ s.out, X ∈ s2.out := by
      have e1 := h1.visited
      by_cases hg : Go p q s1.flag s.a s.b
      · have h2 := visit_after s1 (s1.flag = .in1) (vertexAt p (s.a + 1))
        have e2 := h2.visited
        refine ⟨_, hA hg, Nat.mod_lt _ p0, ?_, ?_, fun X hX => h2.out X (h1.out X hX)⟩
        · show Trav.b (if _ then _ else _) < _
          rw [h2.b, h1.b]; exact hb
        · show Trav.visited (if _ then _ else _) ≠ 0
          omega
      · have h2 := visit_after s1 (s1.flag = .in2) (vertexAt q (s.b + 1))
        have e2 := h2.visited
        refine ⟨_, hB hg, ?_, Nat.mod_lt _ q0, ?_, fun X hX => h2.out X (h1.out X hX)⟩
        · show Trav.a (if _ then _ else _) < _
          rw [h2.a, h1.a]; exact ha
        · show Trav.visited (if _ then _ else _) ≠ 0
          omega
    obtain ⟨s2, hr2, a2, b2, v2, o2⟩ := key
    unfold travLoop at hr
    rw [hr2] at hr
    dsimp only at hr
    split_ifs at hr
    · exact ih s2 a2 b2 v2 ty out hr X (o2 X hX)
    · have hX2 := o2 X hX
      unfold travEnd at hr
      split_ifs at hr
      · cases hr
        exact hX2

/-- The walk comes to every common point of the borders. -/
theorem Touching.reach {p q : List (P2 K)} {θ β : Nat → K} {W : P2 K} (S : Touching p q θ β W) {i i' j j' : Nat} {X : P2 K} {φ : K}
    (h : SharedAt p q θ β i i' j j' X φ) (hi : i' < 3 * p.length) (hj : j' < 3 * q.length) (hij : i' < 2 * p.length ∨ j' < 2 * q.length) :
    ∀ (fuel : Nat) (s : Trav K) (a b : Nat), s.a = a % p.length → s.b = b % q.length → NearTurn θ β a b →
    s.aa + p.length ≤ a → s.ba + q.length ≤ b → a ≤ i' → b ≤ j' →
    ∀ ty out, travLoop Cmp.direct p q fuel s = .ok (ty, out) → X ∈ out := by
  intro fuel
  have np := S.np
  have nq := S.nq
  have p0 : 0 < p.length := by omega
  have q0 : 0 < q.length := by omega
  induction fuel with
  | zero => intro s a b _ _ _ _ _ _ _ ty out hr; cases hr
  | succ k ih =>
    intro s a b ha hb hn haa hba hai hbj ty out hr
    obtain ⟨s1, h1, hp1, -, hA, hB⟩ := S.turn ha hb
    have e1 := h1.aa
    have e2 := h1.ba
    unfold travLoop at hr
    by_cases hend : i ≤ a ∧ j ≤ b
    · obtain ⟨u, u0, u1, hu, -⟩ := h.atP.place hend.1 hai
      obtain ⟨t, t0, t1, ht, -⟩ := h.atQ.place hend.2 hbj
      obtain ⟨x1, x2, -⟩ := hp1 X u t u0 u1 t0 t1 hu ht
      have key : ∃ s2, travBody Cmp.direct p q s = .ok (.inr s2) ∧ s2.a < p.length ∧ s2.b < q.length ∧ s2.visited ≠ 0 ∧ X ∈ s2.out := by
        by_cases hg : Go p q s1.flag a b
        · have h2 := visit_after s1 (s1.flag = .in1) (vertexAt p (a + 1))
          have e2 := h2.visited
          refine ⟨_, hA hg, Nat.mod_lt _ p0, ?_, ?_, h2.out X x1⟩
          · show Trav.b (if _ then _ else _) < _
            rw [h2.b, h1.b, hb]; exact Nat.mod_lt _ q0
          · show Trav.visited (if _ then _ else _) ≠ 0
            omega
        · have h2 := visit_after s1 (s1.flag = .in2) (vertexAt q (b + 1))
          have e2 := h2.visited
          refine ⟨_, hB hg, ?_, Nat.mod_lt _ q0, ?_, h2.out X x1⟩
          · show Trav.a (if _ then _ else _) < _
            rw [h2.a, h1.a, ha]; exact Nat.mod_lt _ p0
          · show Trav.visited (if _ then _ else _) ≠ 0
            omega
      obtain ⟨s2, hr2, a2, b2, v2, o2⟩ := key
      rw [hr2] at hr
      dsimp only at hr
      split_ifs at hr
      · exact S.keeps k s2 a2 b2 v2 ty out hr X o2
      · unfold travEnd at hr
        split_ifs at hr
        · cases hr
          exact o2
    · by_cases hg : Go p q s1.flag a b
      · have hlt := h.go_a S hn hai hbj hend hg
        have h2 := visit_after s1 (s1.flag = .in1) (vertexAt p (a + 1))
        rw [hA hg] at hr
        dsimp only at hr
        generalize hs2 : (if s1.flag = .in1 then s1.visit (vertexAt p (a + 1)) else s1) = s2 at h2 hr
        have e3 := h2.aa
        have e4 := h2.ba
        have c1 : (s2.stepA p.length).aa = s2.aa + 1 := rfl
        have c2 : (s2.stepA p.length).ba = s2.ba := rfl
        rw [if_pos (by rw [c1, c2]; omega)] at hr
        refine ih _ (a + 1) b ?_ ?_ (S.near_a hn hg) (by rw [c1]; omega) (by rw [c2]; omega) hlt hbj ty out hr
        · show (s2.a + 1) % p.length = _
          rw [h2.a, h1.a, ha, Nat.mod_add_mod]
        · show s2.b = _
          rw [h2.b, h1.b, hb]
      · have hlt := h.go_b S hn hai hbj hend hg
        have h2 := visit_after s1 (s1.flag = .in2) (vertexAt q (b + 1))
        rw [hB hg] at hr
        dsimp only at hr
        generalize hs2 : (if s1.flag = .in2 then s1.visit (vertexAt q (b + 1)) else s1) = s2 at h2 hr
        have e3 := h2.aa
        have e4 := h2.ba
        have c1 : (s2.stepB q.length).aa = s2.aa := rfl
        have c2 : (s2.stepB q.length).ba = s2.ba + 1 := rfl
        rw [if_pos (by rw [c1, c2]; omega)] at hr
        refine ih _ a (b + 1) ?_ ?_ (S.near_b hn hg) (by rw [c1]; omega) (by rw [c2]; omega) hai hlt ty out hr
        · show s2.a = _
          rw [h2.a, h1.a, ha]
        · show (s2.b + 1) % q.length = _
          rw [h2.b, h1.b, hb, Nat.mod_add_mod]

/-- After a turn that leaves a flag the walk ends with `overlapping`. -/
theorem Around.run_turn {p q : List (P2 K)} {θ β : Nat → K} (S : Around p q θ β) {k : Nat} {s s2 : Trav K}
    (hr : travBody Cmp.direct p q s = .ok (.inr s2)) (a2 : s2.a < p.length) (b2 : s2.b < q.length) (f2 : s2.flag ≠ .unknown)
    (v2 : s2.visited ≠ 0) :
    travLoop Cmp.direct p q (k + 1) s = .error .diverges ∨ ∃ out, travLoop Cmp.direct p q (k + 1) s = .ok (.overlapping, out) := by
  unfold travLoop
  rw [hr]
  dsimp only
  split_ifs
  · rcases S.run k s2 a2 b2 f2 v2 with h | ⟨out, h, -⟩
    · exact Or.inl h
    · exact Or.inr ⟨out, h⟩
  · refine Or.inr ⟨s2.out, ?_⟩
    unfold travEnd
    rw [if_neg f2, if_neg v2]

/-- From the first common point on, the walk soon knows which polygon is inside. -/
theorem Touching.settle {p q : List (P2 K)} {θ β : Nat → K} {W : P2 K} (S : Touching p q θ β W) {i i' j j' : Nat} {X : P2 K}
    (hP : AtBorder p i i' X) (hQ : AtBorder q j j' X) : ∀ (fuel : Nat) (s : Trav K) (a b : Nat), s.a = a % p.length → s.b = b % q.length →
    i ≤ a → a ≤ i' → j ≤ b → b ≤ j' → (s.visited = 0 ∨ s.aa + s.ba + (i' - a) + (j' - b) ≤ 2) →
    travLoop Cmp.direct p q fuel s = .error .diverges ∨ ∃ out, travLoop Cmp.direct p q fuel s = .ok (.overlapping, out) := by
  intro fuel
  have np := S.np
  have nq := S.nq
  have p0 : 0 < p.length := by omega
  have q0 : 0 < q.length := by omega
  induction fuel with
  | zero => intro s a b _ _ _ _ _ _ _; exact Or.inl rfl
  | succ k ih =>
    intro s a b ha hb hia hai hjb hbj hsmall
    obtain ⟨s1, h1, hp1, -, hA, hB⟩ := S.turn ha hb
    obtain ⟨u, u0, u1, hu, hu'⟩ := hP.place hia hai
    obtain ⟨t, t0, t1, ht, ht'⟩ := hQ.place hjb hbj
    obtain ⟨-, x2, x3, x4, x5⟩ := hp1 X u t u0 u1 t0 t1 hu ht
    have n1 := hP.next
    have n2 := hQ.next
    have e1 := h1.aa
    have e2 := h1.ba
    by_cases hfl : s1.flag = .unknown
    · have hs : s1.aa + s1.ba + (i' - a) + (j' - b) ≤ 2 := by
        rcases hsmall with h | h
        · have := x3 hfl h
          omega
        · omega
      have hne := S.skew a b X ⟨u, u0, u1, hu⟩ ⟨t, t0, t1, ht⟩
      obtain ⟨-, c2, -, c4⟩ := cross_ends (A0 := vertexAt p a) (A1 := vertexAt p (a + 1)) (B0 := vertexAt q b) (B1 := vertexAt q (b + 1)) hu ht
      change _ = (1 - t) * cross (sideVec p a) (sideVec q b) at c2
      change _ = -((1 - u) * cross (sideVec p a) (sideVec q b)) at c4
      unfold travLoop
      rcases lt_or_gt_of_ne hne with hneg | hpos
      · have hu1 : u = 1 := by
          by_contra hcon
          exact x4 (lt_of_le_of_ne u1 hcon) hneg hfl
        have hai' : a ≠ i' := fun h => by have := hu' h; linarith
        have hg : Go p q s1.flag a b := by
          unfold Go GoA
          rw [if_neg (fun h => hne h.1), if_neg (not_le.2 hneg), c4, hu1]
          simp
        rw [hA hg, if_neg (by rw [hfl]; decide)]
        dsimp only
        have c1 : (s1.stepA p.length).aa = s1.aa + 1 := rfl
        have c2 : (s1.stepA p.length).ba = s1.ba := rfl
        rw [if_pos (by rw [c1, c2]; omega)]
        refine ih _ (a + 1) b ?_ ?_ (by omega) (by omega) hjb hbj (Or.inr (by rw [c1, c2]; omega))
        · show (s1.a + 1) % p.length = _
          rw [h1.a, ha, Nat.mod_add_mod]
        · show s1.b = _
          rw [h1.b, hb]
      · have ht1 : t = 1 := by
          by_contra hcon
          exact x5 (lt_of_le_of_ne t1 hcon) hpos hfl
        have hbj' : b ≠ j' := fun h => by have := ht' h; linarith
        have hg : ¬ Go p q s1.flag a b := by
          unfold Go GoA
          rw [if_neg (fun h => hne h.1), if_pos hpos.le, c2, ht1]
          simp
        rw [hB hg, if_neg (by rw [hfl]; decide)]
        dsimp only
        have c1 : (s1.stepB q.length).aa = s1.aa := rfl
        have c2 : (s1.stepB q.length).ba = s1.ba + 1 := rfl
        rw [if_pos (by rw [c1, c2]; omega)]
        refine ih _ a (b + 1) ?_ ?_ hia hai (by omega) (by omega) (Or.inr (by rw [c1, c2]; omega))
        · show s1.a = _
          rw [h1.a, ha]
        · show (s1.b + 1) % q.length = _
          rw [h1.b, hb, Nat.mod_add_mod]
    · by_cases hg : Go p q s1.flag a b
      · have h2 := visit_after s1 (s1.flag = .in1) (vertexAt p (a + 1))
        have e2 := h2.visited
        refine S.run_turn (hA hg) (Nat.mod_lt _ p0) ?_ (h2.flag hfl) ?_
        · show Trav.b (if _ then _ else _) < _
          rw [h2.b, h1.b, hb]; exact Nat.mod_lt _ q0
        · show Trav.visited (if _ then _ else _) ≠ 0
          omega
      · have h2 := visit_after s1 (s1.flag = .in2) (vertexAt q (b + 1))
        have e2 := h2.visited
        refine S.run_turn (hB hg) ?_ (Nat.mod_lt _ q0) (h2.flag hfl) ?_
        · show Trav.a (if _ then _ else _) < _
          rw [h2.a, h1.a, ha]; exact Nat.mod_lt _ p0
        · show Trav.visited (if _ then _ else _) ≠ 0
          omega

/-- The sides at a point of the side `a`. -/
theorem atBorder_of {p : List (P2 K)} {a : Nat} {X : P2 K} (ha : 0 < a) (h : OnSegment (vertexAt p a) (vertexAt p (a + 1)) X) :
    ∃ i i', AtBorder p i i' X ∧ i ≤ a ∧ a ≤ i' := by
  obtain ⟨s, s0, s1, hs⟩ := h
  change X = vertexAt p a + s • sideVec p a at hs
  rcases s1.eq_or_lt with e | e
  · have hX : X = vertexAt p (a + 1) := by rw [hs, e, ← vertexAt_head]
    exact ⟨a, a + 1, ⟨⟨1, one_pos, le_rfl, by rw [hX]; exact vertexAt_head p a⟩, ⟨0, le_rfl, one_pos, by rw [hX]; ext <;> simp⟩, Or.inr rfl⟩,
      le_rfl, by omega⟩
  · rcases s0.eq_or_lt with e0 | e0
    · have hX : X = vertexAt p a := by rw [hs, ← e0]; ext <;> simp
      obtain ⟨k, rfl⟩ : ∃ k, a = k + 1 := ⟨a - 1, by omega⟩
      exact ⟨k, k + 1, ⟨⟨1, one_pos, le_rfl, by rw [hX]; exact vertexAt_head p k⟩, ⟨0, le_rfl, one_pos, by rw [hX]; ext <;> simp⟩, Or.inr rfl⟩,
        by omega, le_rfl⟩
    · exact ⟨a, a, ⟨⟨s, e0, s1, hs⟩, ⟨s, s0, e, hs⟩, Or.inl rfl⟩, le_rfl, le_rfl⟩

/-- If the borders have a common point, the walk ends with `overlapping`. -/
theorem Touching.first {p q : List (P2 K)} {θ β : Nat → K} {W : P2 K} (S : Touching p q θ β W) {i i' j j' : Nat} {X : P2 K} {φ : K}
    (h : SharedAt p q θ β i i' j j' X φ) (hi : i' < 3 * p.length) (hj : j' < 3 * q.length) (hij : i' < 2 * p.length ∨ j' < 2 * q.length) :
    ∀ (fuel : Nat) (s : Trav K) (a b : Nat), s.a = a % p.length → s.b = b % q.length → NearTurn θ β a b →
    s.aa + p.length ≤ a → s.ba + q.length ≤ b → a ≤ i' → b ≤ j' → s.visited = 0 → s.flag = .unknown →
    travLoop Cmp.direct p q fuel s = .error .diverges ∨ ∃ out, travLoop Cmp.direct p q fuel s = .ok (.overlapping, out) := by
  intro fuel
  have np := S.np
  have nq := S.nq
  have p0 : 0 < p.length := by omega
  have q0 : 0 < q.length := by omega
  induction fuel with
  | zero => intro s a b _ _ _ _ _ _ _ _ _; exact Or.inl rfl
  | succ k ih =>
    intro s a b ha hb hn haa hba hai hbj hv hf
    by_cases hmeet : ∃ X, OnSegment (vertexAt p a) (vertexAt p (a + 1)) X ∧ OnSegment (vertexAt q b) (vertexAt q (b + 1)) X
    · obtain ⟨Y, y1, y2⟩ := hmeet
      obtain ⟨c, c', hP, c1, c2⟩ := atBorder_of (by omega) y1
      obtain ⟨d, d', hQ, d1, d2⟩ := atBorder_of (by omega) y2
      exact S.settle hP hQ (k + 1) s a b ha hb c1 c2 d1 d2 (Or.inl hv)
    · obtain ⟨s1, -, -, hs1, hA, hB⟩ := S.turn ha hb
      have e := hs1 hmeet
      subst e
      have hend : ¬ (i ≤ a ∧ j ≤ b) := by
        intro hend
        obtain ⟨u, u0, u1, hu, -⟩ := h.atP.place hend.1 hai
        obtain ⟨t, t0, t1, ht, -⟩ := h.atQ.place hend.2 hbj
        exact hmeet ⟨X, ⟨u, u0, u1, hu⟩, ⟨t, t0, t1, ht⟩⟩
      unfold travLoop
      by_cases hg : Go p q s1.flag a b
      · have hlt := h.go_a S hn hai hbj hend hg
        rw [hA hg, if_neg (by rw [hf]; decide)]
        dsimp only
        have c1 : (s1.stepA p.length).aa = s1.aa + 1 := rfl
        have c2 : (s1.stepA p.length).ba = s1.ba := rfl
        rw [if_pos (by rw [c1, c2]; omega)]
        refine ih _ (a + 1) b ?_ ?_ (S.near_a hn hg) (by rw [c1]; omega) (by rw [c2]; omega) hlt hbj hv hf
        · show (s1.a + 1) % p.length = _
          rw [ha, Nat.mod_add_mod]
        · exact hb
      · have hlt := h.go_b S hn hai hbj hend hg
        rw [hB hg, if_neg (by rw [hf]; decide)]
        dsimp only
        have c1 : (s1.stepB q.length).aa = s1.aa := rfl
        have c2 : (s1.stepB q.length).ba = s1.ba + 1 := rfl
        rw [if_pos (by rw [c1, c2]; omega)]
        refine ih _ a (b + 1) ?_ ?_ (S.near_b hn hg) (by rw [c1]; omega) (by rw [c2]; omega) hai hlt hv hf
        · exact ha
        · show (s1.b + 1) % q.length = _
          rw [hb, Nat.mod_add_mod]

/-- If the borders of two convex polygons with a common point inside meet, but not along parallel sides, then the answer is
`overlapping` and every common point of the borders is visited. -/
theorem walk_touch {p q : List (P2 K)} (np : 2 < p.length) (nq : 2 < q.length) (hp : StrictlyConvex p) (hq : StrictlyConvex q)
    (hW : ∃ W, (∀ e ∈ sides p, 0 < area2 e.1 e.2 W) ∧ ∀ e ∈ sides q, 0 < area2 e.1 e.2 W)
    (hskew : ∀ e ∈ sides p, ∀ g ∈ sides q, (∃ X, OnSegment e.1 e.2 X ∧ OnSegment g.1 g.2 X) → cross (e.2 - e.1) (g.2 - g.1) ≠ 0)
    (hX : ∃ X, OnBoundary p X ∧ OnBoundary q X) {fuel : Nat} (hf : 4 * (p.length + q.length) ≤ fuel) :
    ∃ out, convexPolyPoly Cmp.direct fuel p q = .ok (.overlapping, out) ∧ ∀ X, OnBoundary p X → OnBoundary q X → X ∈ out := by
  have p0 : 0 < p.length := by omega
  have q0 : 0 < q.length := by omega
  obtain ⟨X0, hX0, hX0'⟩ := hX
  obtain ⟨W, w1, w2⟩ := hW
  obtain ⟨θ, β, tp, tq, hn⟩ := exists_angles np nq hp hq
  have i1 : InsideAllSides p W := fun e he => (w1 e he).le
  have i2 : InsideAllSides q W := fun e he => (w2 e he).le
  have S : Touching p q θ β W := ⟨⟨np, nq, hp, hq, tp, tq, fun b => ⟨W, i1, w2 _ (vertexAt_side q0 b)⟩,
    fun a => ⟨W, i2, w1 _ (vertexAt_side p0 a)⟩, ⟨W, i1, i2⟩⟩, w1, w2,
    fun a b X h1 h2 => hskew _ (vertexAt_side p0 a) _ (vertexAt_side q0 b) ⟨X, h1, h2⟩⟩
  have hn' : NearTurn θ β p.length q.length := by
    have e1 := S.tp.period 0
    have e2 := S.tq.period 0
    rw [zero_add] at e1 e2
    unfold NearTurn at hn ⊢
    rw [e1, e2]
    exact ⟨by linarith [hn.1], by linarith [hn.2]⟩
  obtain ⟨r, h1, h2⟩ := travLoop_total p q (4 * (p.length + q.length)) ⟨0, 0, 0, 0, .unknown, 0, []⟩ (by simp only; omega)
    (by simp only; omega) (by simp only; omega) (by simp only; omega) (by unfold Trav.left; simp; omega)
  have hr := h1 fuel hf
  have hcall : convexPolyPoly Cmp.direct fuel p q = travLoop Cmp.direct p q fuel ⟨0, 0, 0, 0, .unknown, 0, []⟩ := by
    unfold convexPolyPoly
    rw [if_neg (by omega)]
  have hover : ∃ out, convexPolyPoly Cmp.direct fuel p q = .ok (.overlapping, out) := by
    obtain ⟨i, i', j, j', φ, hpass, a1, b1, a2, b2, hij⟩ := S.sharedAt hn' hX0 hX0'
    rw [hcall]
    rcases S.first hpass a2 b2 hij fuel ⟨0, 0, 0, 0, .unknown, 0, []⟩ p.length q.length (by simp) (by simp) hn' (by simp) (by simp)
      a1 b1 rfl rfl with h | h
    · rw [h] at hr
      rcases h2 with ⟨v, h2⟩ | h2 | ⟨h2, -⟩ <;> rw [h2] at hr <;> cases hr
    · exact h
  obtain ⟨out, ho⟩ := hover
  refine ⟨out, ho, fun X hX hX' => ?_⟩
  obtain ⟨i, i', j, j', φ, hpass, a1, b1, a2, b2, hij⟩ := S.sharedAt hn' hX hX'
  rw [hcall] at ho
  exact S.reach hpass a2 b2 hij fuel ⟨0, 0, 0, 0, .unknown, 0, []⟩ p.length q.length (by simp) (by simp) hn' (by simp) (by simp)
    a1 b1 _ out ho

end Geometrix
