import Verif.Lemmas.TurnAngle
import Verif.Lemmas.ConvexWalk

/-!
# The walk along two convex polygons finds every crossing of their borders
-/

set_option linter.unusedSectionVars false

namespace Geometrix

open Spec

variable {K : Type*} [Field K] [LinearOrder K] [IsStrictOrderedRing K]

/-! ## Crossings of two segments -/

theorem area2_sub (A B Z W : P2 K) : area2 A B Z - area2 A B W = cross (B - A) (Z - W) := by
  unfold area2 cross
  simp only [P2.sub_x, P2.sub_y]
  ring

/-- Segments that meet, and have no end on each other, cross. -/
theorem proper_cross {A0 A1 B0 B1 X : P2 K} (hA : A0 ≠ A1) (hB : B0 ≠ B1) (h1 : OnSegment A0 A1 X) (h2 : OnSegment B0 B1 X)
    (a0 : ¬ OnSegment B0 B1 A0) (a1 : ¬ OnSegment B0 B1 A1) (b0 : ¬ OnSegment A0 A1 B0) (b1 : ¬ OnSegment A0 A1 B1) :
    ∃ s t : K, 0 < s ∧ s < 1 ∧ 0 < t ∧ t < 1 ∧ X = A0 + s • (A1 - A0) ∧ X = B0 + t • (B1 - B0) ∧
      cross (A1 - A0) (B1 - B0) ≠ 0 := by
  have k1 := h1
  have k2 := h2
  obtain ⟨s, s0, s1, hs⟩ := h1
  obtain ⟨t, t0, t1, ht⟩ := h2
  have s0' : 0 < s := by
    refine lt_of_le_of_ne s0 ?_
    rintro rfl
    rw [show X = A0 by rw [hs]; ext <;> simp] at k2
    exact a0 k2
  have s1' : s < 1 := by
    refine lt_of_le_of_ne s1 ?_
    rintro rfl
    rw [show X = A1 by rw [hs]; ext <;> simp] at k2
    exact a1 k2
  have t0' : 0 < t := by
    refine lt_of_le_of_ne t0 ?_
    rintro rfl
    rw [show X = B0 by rw [ht]; ext <;> simp] at k1
    exact b0 k1
  have t1' : t < 1 := by
    refine lt_of_le_of_ne t1 ?_
    rintro rfl
    rw [show X = B1 by rw [ht]; ext <;> simp] at k1
    exact b1 k1
  refine ⟨s, t, s0', s1', t0', t1', hs, ht, ?_⟩
  intro hc
  obtain ⟨l, hl⟩ := (cross_eq_zero_iff (sub_ne_zero_P2 hA)).1 hc
  have hl0 : l ≠ 0 := by
    rintro rfl
    apply hB
    have hx := congrArg P2.x hl
    have hy := congrArg P2.y hl
    simp at hx hy
    ext <;> linarith
  have lx : B1.x - B0.x = l * (A1.x - A0.x) := by simpa using congrArg P2.x hl
  have ly : B1.y - B0.y = l * (A1.y - A0.y) := by simpa using congrArg P2.y hl
  have ex : A0.x + s * (A1.x - A0.x) = B0.x + t * (B1.x - B0.x) := by
    simpa using congrArg P2.x (hs.symm.trans ht)
  have ey : A0.y + s * (A1.y - A0.y) = B0.y + t * (B1.y - B0.y) := by
    simpa using congrArg P2.y (hs.symm.trans ht)
  rw [lx] at ex
  rw [ly] at ey
  have hb0 : B0 = A0 + (s - t * l) • (A1 - A0) := by
    ext
    · simp; linear_combination -ex
    · simp; linear_combination -ey
  have hb1 : B1 = A0 + (s + (1 - t) * l) • (A1 - A0) := by
    ext
    · simp; linear_combination -ex + lx
    · simp; linear_combination -ey + ly
  have ha0 : A0 = B0 + (-(s - t * l) / l) • (B1 - B0) := by
    ext
    · simp only [P2.add_x, P2.smul_x, P2.sub_x]
      rw [lx]
      field_simp
      linear_combination ex
    · simp only [P2.add_y, P2.smul_y, P2.sub_y]
      rw [ly]
      field_simp
      linear_combination ey
  have c1 : s - t * l < 0 ∨ 1 < s - t * l := by
    by_contra hcon
    push Not at hcon
    exact b0 ⟨_, hcon.1, hcon.2, hb0⟩
  have c2 : s + (1 - t) * l < 0 ∨ 1 < s + (1 - t) * l := by
    by_contra hcon
    push Not at hcon
    exact b1 ⟨_, hcon.1, hcon.2, hb1⟩
  apply a0
  rcases lt_or_gt_of_ne hl0 with hneg | hpos
  · have m1 := mul_neg_of_pos_of_neg t0' hneg
    have m2 := mul_neg_of_pos_of_neg (by linarith : 0 < 1 - t) hneg
    refine ⟨-(s - t * l) / l, ?_, ?_, ha0⟩
    · rw [le_div_iff_of_neg hneg]
      rcases c1 with c | c <;> linarith
    · rw [div_le_one_of_neg hneg]
      rcases c2 with c | c
      · linarith
      · linarith
  · have m1 := mul_pos t0' hpos
    have m2 := mul_pos (by linarith : 0 < 1 - t) hpos
    refine ⟨-(s - t * l) / l, ?_, ?_, ha0⟩
    · rw [le_div_iff₀ hpos]
      rcases c1 with c | c <;> linarith
    · rw [div_le_one hpos]
      rcases c2 with c | c
      · linarith
      · linarith

/-- The sides of the ends of crossing segments. -/
theorem cross_ends {A0 A1 B0 B1 X : P2 K} {s t : K} (hs : X = A0 + s • (A1 - A0)) (ht : X = B0 + t • (B1 - B0)) :
    area2 A0 A1 B0 = -(t * cross (A1 - A0) (B1 - B0)) ∧ area2 A0 A1 B1 = (1 - t) * cross (A1 - A0) (B1 - B0) ∧
    area2 B0 B1 A0 = s * cross (A1 - A0) (B1 - B0) ∧ area2 B0 B1 A1 = -((1 - s) * cross (A1 - A0) (B1 - B0)) := by
  have ex : A0.x + s * (A1.x - A0.x) = B0.x + t * (B1.x - B0.x) := by
    simpa using congrArg P2.x (hs.symm.trans ht)
  have ey : A0.y + s * (A1.y - A0.y) = B0.y + t * (B1.y - B0.y) := by
    simpa using congrArg P2.y (hs.symm.trans ht)
  unfold area2 cross
  simp only [P2.sub_x, P2.sub_y]
  refine ⟨?_, ?_, ?_, ?_⟩
  · linear_combination -(A1.x - A0.x) * ey + (A1.y - A0.y) * ex
  · linear_combination -(A1.x - A0.x) * ey + (A1.y - A0.y) * ex
  · linear_combination (B1.x - B0.x) * ey - (B1.y - B0.y) * ex
  · linear_combination (B1.x - B0.x) * ey - (B1.y - B0.y) * ex

/-! ## The sides of convex polygons -/

/-- A vertex between a side that rises and a side that falls is the highest point. -/
theorem top_vertex {p : List (P2 K)} (np : 2 < p.length) (hp : StrictlyConvex p) {k : Nat} {d Z : P2 K}
    (h1 : 0 ≤ cross d (sideVec p k)) (h2 : cross d (sideVec p (k + 1)) ≤ 0) (hZ : InsideAllSides p Z) :
    cross d (Z - vertexAt p (k + 1)) ≤ 0 := by
  have h0 : 0 < p.length := by omega
  have hD := side_turn np hp k
  have c1 := hZ _ (vertexAt_side h0 k)
  have c2 := hZ _ (vertexAt_side h0 (k + 1))
  simp only at c1 c2
  have e1 : area2 (vertexAt p k) (vertexAt p (k + 1)) Z = cross (sideVec p k) (Z - vertexAt p (k + 1)) := area2_cross _ _ _
  have e2 : area2 (vertexAt p (k + 1)) (vertexAt p (k + 1 + 1)) Z = cross (sideVec p (k + 1)) (Z - vertexAt p (k + 1)) := by
    unfold area2 cross sideVec
    simp only [P2.sub_x, P2.sub_y]
  rw [e1] at c1
  rw [e2] at c2
  generalize Z - vertexAt p (k + 1) = w at *
  generalize sideVec p k = E at *
  generalize sideVec p (k + 1) = E' at *
  have key : cross E E' * cross d w = cross E w * cross d E' - cross d E * cross E' w := by
    unfold cross; ring
  by_contra hc
  push Not at hc
  have := mul_pos hD hc
  have m1 := mul_nonneg c1 (neg_nonneg.2 h2)
  have m2 := mul_nonneg h1 c2
  linarith

/-- Sides that rise carry the vertices up. -/
theorem chain_up {p q : List (P2 K)} {θ β : Nat → K} (tp : Turning p θ) (tq : Turning q β) {i b : Nat}
    (h1 : θ i ≤ β b) : ∀ j, b < j → β j < θ i + 2 →
    area2 (vertexAt p i) (vertexAt p (i + 1)) (vertexAt q (b + 1)) ≤ area2 (vertexAt p i) (vertexAt p (i + 1)) (vertexAt q j) := by
  intro j
  induction j with
  | zero => intro h; omega
  | succ j ih =>
    intro hb hj
    rcases Nat.lt_or_ge b j with h | h
    · have hup := tq.up j
      refine (ih h (by linarith)).trans ?_
      have h2 : θ i < β j := lt_of_le_of_lt h1 (tq.mono h)
      have := (tp.ang i).pos (tq.ang j) h2 (by linarith)
      have e := area2_sub (vertexAt p i) (vertexAt p (i + 1)) (vertexAt q (j + 1)) (vertexAt q j)
      have e2 : cross (vertexAt p (i + 1) - vertexAt p i) (vertexAt q (j + 1) - vertexAt q j) = cross (sideVec p i) (sideVec q j) := rfl
      linarith
    · have : j = b := by omega
      rw [this]

/-! ## The setting -/

/-- Two strictly convex polygons with a common point, each on both sides of the lines along the sides of the other. -/
structure Around (p q : List (P2 K)) (θ β : Nat → K) : Prop where
  np : 2 < p.length
  nq : 2 < q.length
  hp : StrictlyConvex p
  hq : StrictlyConvex q
  tp : Turning p θ
  tq : Turning q β
  seenP : ∀ b, ∃ Z, InsideAllSides p Z ∧ 0 < area2 (vertexAt q b) (vertexAt q (b + 1)) Z
  seenQ : ∀ a, ∃ Z, InsideAllSides q Z ∧ 0 < area2 (vertexAt p a) (vertexAt p (a + 1)) Z
  common : ∃ Z, InsideAllSides p Z ∧ InsideAllSides q Z

theorem Around.symm {p q : List (P2 K)} {θ β : Nat → K} (S : Around p q θ β) : Around q p β θ :=
  ⟨S.nq, S.np, S.hq, S.hp, S.tq, S.tp, S.seenQ, S.seenP, S.common.imp fun _ h => h.symm⟩

/-- The same with no vertex of one polygon on the border of the other. -/
structure Setting (p q : List (P2 K)) (θ β : Nat → K) : Prop extends Around p q θ β where
  offP : ∀ v ∈ p, ¬ OnBoundary q v
  offQ : ∀ v ∈ q, ¬ OnBoundary p v

theorem Setting.symm {p q : List (P2 K)} {θ β : Nat → K} (S : Setting p q θ β) : Setting q p β θ :=
  ⟨S.toAround.symm, S.offQ, S.offP⟩

/-- The angles of the sides `a` and `b` differ by less than a half turn (or `b` is ahead by a half turn). -/
def NearTurn (θ β : Nat → K) (a b : Nat) : Prop := θ a < β b + 2 ∧ β b ≤ θ a + 2

/-- The sides `i` and `j` meet in `X`, and their angles differ by less than a half turn. -/
structure Cell (p q : List (P2 K)) (θ β : Nat → K) (i j : Nat) (X : P2 K) : Prop where
  onP : OnSegment (vertexAt p i) (vertexAt p (i + 1)) X
  onQ : OnSegment (vertexAt q j) (vertexAt q (j + 1)) X
  lt1 : θ i < β j + 2
  lt2 : β j < θ i + 2

theorem Cell.symm {p q : List (P2 K)} {θ β : Nat → K} {i j : Nat} {X : P2 K} (h : Cell p q θ β i j X) :
    Cell q p β θ j i X := ⟨h.onQ, h.onP, h.lt2, h.lt1⟩

theorem vertexAt_border {p : List (P2 K)} (np : 0 < p.length) {k : Nat} {X : P2 K}
    (h : OnSegment (vertexAt p k) (vertexAt p (k + 1)) X) : OnBoundary p X :=
  ⟨_, _, _, vertexAt_edge np k, h⟩

theorem vertexAt_ne {p : List (P2 K)} (np : 2 < p.length) (hp : StrictlyConvex p) (k : Nat) : vertexAt p k ≠ vertexAt p (k + 1) := by
  intro h
  apply sideVec_ne np hp k
  unfold sideVec
  rw [← h]
  ext <;> simp

/-- The sides `i` and `j` cross in `X`, which is an end of neither. -/
def ProperAt (p q : List (P2 K)) (i j : Nat) (X : P2 K) : Prop :=
  ∃ s t : K, 0 < s ∧ s < 1 ∧ 0 < t ∧ t < 1 ∧ X = vertexAt p i + s • sideVec p i ∧ X = vertexAt q j + t • sideVec q j ∧
    cross (sideVec p i) (sideVec q j) ≠ 0

theorem Setting.meet {p q : List (P2 K)} {θ β : Nat → K} (S : Setting p q θ β) {i j : Nat} {X : P2 K}
    (h1 : OnSegment (vertexAt p i) (vertexAt p (i + 1)) X) (h2 : OnSegment (vertexAt q j) (vertexAt q (j + 1)) X) :
    ∃ s t : K, 0 < s ∧ s < 1 ∧ 0 < t ∧ t < 1 ∧ X = vertexAt p i + s • sideVec p i ∧ X = vertexAt q j + t • sideVec q j ∧
      cross (sideVec p i) (sideVec q j) ≠ 0 := by
  have p0 : 0 < p.length := by have := S.np; omega
  have q0 : 0 < q.length := by have := S.nq; omega
  exact proper_cross (vertexAt_ne S.np S.hp i) (vertexAt_ne S.nq S.hq j) h1 h2
    (fun h => S.offP _ (vertexAt_mem p0 _) (vertexAt_border q0 h)) (fun h => S.offP _ (vertexAt_mem p0 _) (vertexAt_border q0 h))
    (fun h => S.offQ _ (vertexAt_mem q0 _) (vertexAt_border p0 h)) (fun h => S.offQ _ (vertexAt_mem q0 _) (vertexAt_border p0 h))

theorem Around.o_neg {p q : List (P2 K)} {θ β : Nat → K} (S : Around p q θ β) {a b : Nat} (h : NearTurn θ β a b)
    (hlt : β b < θ a) : cross (sideVec p a) (sideVec q b) < 0 :=
  (S.tp.ang a).neg (S.tq.ang b) hlt h.1

theorem Around.o_nonneg {p q : List (P2 K)} {θ β : Nat → K} (S : Around p q θ β) {a b : Nat} (h : NearTurn θ β a b)
    (hle : θ a ≤ β b) : 0 ≤ cross (sideVec p a) (sideVec q b) := by
  rcases hle.eq_or_lt with h1 | h1
  · have := S.tq.ang b
    rw [← h1] at this
    exact ((S.tp.ang a).same this).1.ge
  · rcases h.2.eq_or_lt with h2 | h2
    · have := S.tq.ang b
      rw [h2] at this
      exact ((S.tp.ang a).against this).1.ge
    · exact ((S.tp.ang a).pos (S.tq.ang b) h1 h2).le

/-- A side of `q` against the direction of a side of `p` is strictly on the left of it. -/
theorem Around.against {p q : List (P2 K)} {θ β : Nat → K} (S : Around p q θ β) {a b : Nat} (h : β b = θ a + 2) :
    0 < area2 (vertexAt p a) (vertexAt p (a + 1)) (vertexAt q (b + 1)) := by
  have q0 : 0 < q.length := by have := S.nq; omega
  obtain ⟨Z, hZ, hpos⟩ := S.seenQ a
  have c := hZ _ (vertexAt_side q0 b)
  simp only at c
  rw [area2_cross] at c
  have hb := S.tq.ang b
  rw [h] at hb
  obtain ⟨h1, h2⟩ := (S.tp.ang a).against hb
  have e := area2_sub (vertexAt p a) (vertexAt p (a + 1)) Z (vertexAt q (b + 1))
  change 0 ≤ cross (sideVec q b) (Z - vertexAt q (b + 1)) at c
  change _ = cross (sideVec p a) (Z - vertexAt q (b + 1)) at e
  generalize Z - vertexAt q (b + 1) = w at c e
  have hid : cross (sideVec p a) w * dot (sideVec q b) (sideVec q b) =
      dot (sideVec p a) (sideVec q b) * cross (sideVec q b) w + cross (sideVec p a) (sideVec q b) * dot (sideVec q b) w := by
    unfold cross dot; ring
  rw [h1, zero_mul, add_zero] at hid
  have hn : 0 < dot (sideVec q b) (sideVec q b) := normSq_pos (sideVec_ne S.nq S.hq b)
  have hle : cross (sideVec p a) w ≤ 0 := by
    by_contra hc
    push Not at hc
    have := mul_pos hc hn
    have := mul_nonneg (neg_nonneg.2 h2.le) c
    linarith
  linarith

/-- The choice of the walk: the next side of the first polygon. -/
def GoA (f : InFlag) (o ha hb : K) : Prop :=
  if o = 0 ∧ ha = 0 ∧ hb = 0 then f ≠ .in1 else if 0 ≤ o then 0 < hb else ¬ 0 < ha

/-- The choice at the sides `a` and `b`. -/
def Go (p q : List (P2 K)) (f : InFlag) (a b : Nat) : Prop :=
  GoA f (cross (sideVec p a) (sideVec q b)) (area2 (vertexAt q b) (vertexAt q (b + 1)) (vertexAt p (a + 1)))
    (area2 (vertexAt p a) (vertexAt p (a + 1)) (vertexAt q (b + 1)))

theorem goA_cases {f : InFlag} {o ha hb : K} (h : GoA f o ha hb) : 0 ≤ o ∧ 0 ≤ hb ∧ (hb = 0 → o = 0) ∨ o < 0 ∧ ha ≤ 0 := by
  unfold GoA at h
  split_ifs at h with h1 h2
  · exact Or.inl ⟨h1.1.ge, h1.2.2.ge, fun _ => h1.1⟩
  · exact Or.inl ⟨h2, h.le, fun e => by linarith⟩
  · exact Or.inr ⟨not_le.1 h2, not_lt.1 h⟩

theorem not_goA_cases {f : InFlag} {o ha hb : K} (h : ¬ GoA f o ha hb) : 0 ≤ o ∧ hb ≤ 0 ∨ o < 0 ∧ 0 < ha := by
  unfold GoA at h
  split_ifs at h with h1 h2
  · exact Or.inl ⟨h1.1.ge, h1.2.2.le⟩
  · exact Or.inl ⟨h2, not_lt.1 h⟩
  · exact Or.inr ⟨not_le.1 h2, not_not.1 h⟩

/-- The angles stay near each other. -/
theorem Around.near_a {p q : List (P2 K)} {θ β : Nat → K} (S : Around p q θ β) {a b : Nat} (h : NearTurn θ β a b)
    {f : InFlag} (hg : Go p q f a b) : NearTurn θ β (a + 1) b := by
  have hup := S.tp.up a
  have hst := S.tp.step a
  refine ⟨?_, by have := h.2; linarith⟩
  rcases le_or_gt (θ a) (β b) with hle | hlt
  · linarith
  · have ho := S.o_neg h hlt
    have hha : area2 (vertexAt q b) (vertexAt q (b + 1)) (vertexAt p (a + 1)) ≤ 0 := by
      rcases goA_cases hg with g | g
      · linarith [g.1]
      · exact g.2
    by_contra hc
    push Not at hc
    have c1 : 0 ≤ cross (sideVec q b) (sideVec p a) := ((S.tq.ang b).pos (S.tp.ang a) hlt h.1).le
    have c2 : cross (sideVec q b) (sideVec p (a + 1)) ≤ 0 := by
      rcases hc.eq_or_lt with e | e
      · have := S.tp.ang (a + 1)
        rw [← e] at this
        exact ((S.tq.ang b).against this).1.le
      · have h4 := (S.tq.ang b).shift 1
        push_cast at h4
        exact (h4.neg (S.tp.ang (a + 1)) (by have := h.1; linarith) (by linarith)).le
    obtain ⟨Z, hZ, hpos⟩ := S.seenP b
    have := top_vertex S.np S.hp c1 c2 hZ
    have e := area2_sub (vertexAt q b) (vertexAt q (b + 1)) Z (vertexAt p (a + 1))
    change _ = cross (sideVec q b) _ at e
    linarith

theorem Around.near_b {p q : List (P2 K)} {θ β : Nat → K} (S : Around p q θ β) {a b : Nat} (h : NearTurn θ β a b)
    {f : InFlag} (hg : ¬ Go p q f a b) : NearTurn θ β a (b + 1) := by
  have hup := S.tq.up b
  have hst := S.tq.step b
  refine ⟨by have := h.1; linarith, ?_⟩
  rcases lt_or_ge (β b) (θ a) with hlt | hle
  · linarith
  · have ho := S.o_nonneg h hle
    have hhb : area2 (vertexAt p a) (vertexAt p (a + 1)) (vertexAt q (b + 1)) ≤ 0 := by
      rcases not_goA_cases hg with g | g
      · exact g.2
      · linarith [g.1]
    have hne : β b < θ a + 2 := by
      refine lt_of_le_of_ne h.2 fun e => ?_
      have := S.against e
      linarith
    by_contra hc
    push Not at hc
    have h4 := (S.tp.ang a).shift 1
    push_cast at h4
    have c2 : cross (sideVec p a) (sideVec q (b + 1)) ≤ 0 :=
      (h4.neg (S.tq.ang (b + 1)) (by linarith) (by linarith)).le
    obtain ⟨Z, hZ, hpos⟩ := S.seenQ a
    have := top_vertex S.nq S.hq ho c2 hZ
    have e := area2_sub (vertexAt p a) (vertexAt p (a + 1)) Z (vertexAt q (b + 1))
    change _ = cross (sideVec p a) _ at e
    linarith

/-- The walk does not leave a side of the first polygon before it comes to a crossing on it. -/
theorem Around.stay_a {p q : List (P2 K)} {θ β : Nat → K} (S : Around p q θ β) {i j b : Nat} {X : P2 K}
    (hc : Cell p q θ β i j X) (hm : ProperAt p q i j X) (hn : NearTurn θ β i b) (hb : b < j) {f : InFlag} : ¬ Go p q f i b := by
  intro hg
  have q0 : 0 < q.length := by have := S.nq; omega
  obtain ⟨s, t, s0, s1, t0, t1, hs, ht, hne⟩ := hm
  obtain ⟨e1, -, -, -⟩ := cross_ends (A0 := vertexAt p i) (A1 := vertexAt p (i + 1)) (B0 := vertexAt q j) (B1 := vertexAt q (j + 1)) hs ht
  rcases goA_cases hg with ⟨g1, g2, -⟩ | ⟨g1, g2⟩
  · have hle : θ i ≤ β b := by
      by_contra hcon
      push Not at hcon
      have := S.o_neg hn hcon
      linarith
    have hup := chain_up S.tp S.tq hle j hb hc.lt2
    have hlt : θ i < β j := lt_of_le_of_lt hle (S.tq.mono hb)
    have hpos := (S.tp.ang i).pos (S.tq.ang j) hlt hc.lt2
    change area2 _ _ _ = -(t * cross (sideVec p i) (sideVec q j)) at e1
    have := mul_pos t0 hpos
    linarith
  · have hX := inside_boundary S.hq (vertexAt_border q0 hc.onQ) _ (vertexAt_side q0 b)
    simp only at hX
    have e := area2_sub (vertexAt q b) (vertexAt q (b + 1)) (vertexAt p (i + 1)) X
    have e2 : cross (vertexAt q (b + 1) - vertexAt q b) (vertexAt p (i + 1) - X) = -((1 - s) * cross (sideVec p i) (sideVec q b)) := by
      rw [hs]
      unfold cross sideVec
      simp only [P2.add_x, P2.add_y, P2.smul_x, P2.smul_y, P2.sub_x, P2.sub_y]
      ring
    have := mul_neg_of_pos_of_neg (by linarith : 0 < 1 - s) g1
    linarith

/-- The walk does not leave a side of the second polygon before it comes to a crossing on it. -/
theorem Around.stay_b {p q : List (P2 K)} {θ β : Nat → K} (S : Around p q θ β) {i j a : Nat} {X : P2 K}
    (hc : Cell p q θ β i j X) (hm : ProperAt p q i j X) (hn : NearTurn θ β a j) (ha : a < i) {f : InFlag} : Go p q f a j := by
  by_contra hg
  have p0 : 0 < p.length := by have := S.np; omega
  obtain ⟨s, t, s0, s1, t0, t1, hs, ht, hne⟩ := hm
  obtain ⟨-, -, e3, -⟩ := cross_ends (A0 := vertexAt p i) (A1 := vertexAt p (i + 1)) (B0 := vertexAt q j) (B1 := vertexAt q (j + 1)) hs ht
  change _ = s * cross (sideVec p i) (sideVec q j) at e3
  rcases not_goA_cases hg with ⟨g1, g2⟩ | ⟨g1, g2⟩
  · have hX := inside_boundary S.hp (vertexAt_border p0 hc.onP) _ (vertexAt_side p0 a)
    simp only at hX
    have e := area2_sub (vertexAt p a) (vertexAt p (a + 1)) (vertexAt q (j + 1)) X
    have e2 : cross (vertexAt p (a + 1) - vertexAt p a) (vertexAt q (j + 1) - X) = (1 - t) * cross (sideVec p a) (sideVec q j) := by
      rw [ht]
      unfold cross sideVec
      simp only [P2.add_x, P2.add_y, P2.smul_x, P2.smul_y, P2.sub_x, P2.sub_y]
      ring
    have m := mul_nonneg (by linarith : 0 ≤ 1 - t) g1
    have ho : cross (sideVec p a) (sideVec q j) = 0 := by
      have : (1 - t) * cross (sideVec p a) (sideVec q j) = 0 := by linarith
      rcases mul_eq_zero.1 this with h | h
      · linarith
      · exact h
    have hX0 : area2 (vertexAt p a) (vertexAt p (a + 1)) X = 0 := by linarith
    -- both ends of the side `i` are on the line of the side `a`
    have v1 := convex_vertex S.hp (vertexAt_side p0 a) (vertexAt_mem p0 i)
    have v2 := convex_vertex S.hp (vertexAt_side p0 a) (vertexAt_mem p0 (i + 1))
    simp only at v1 v2
    have e4 : area2 (vertexAt p a) (vertexAt p (a + 1)) X = (1 - s) * area2 (vertexAt p a) (vertexAt p (a + 1)) (vertexAt p i) +
        s * area2 (vertexAt p a) (vertexAt p (a + 1)) (vertexAt p (i + 1)) := by
      rw [hs]
      unfold area2 sideVec
      simp only [P2.add_x, P2.add_y, P2.smul_x, P2.smul_y, P2.sub_x, P2.sub_y]
      ring
    rw [hX0] at e4
    have m1 := mul_nonneg (by linarith : 0 ≤ 1 - s) v1
    have m2 := mul_nonneg s0.le v2
    have z1 : area2 (vertexAt p a) (vertexAt p (a + 1)) (vertexAt p i) = 0 := by
      rcases mul_eq_zero.1 (by linarith : (1 - s) * area2 (vertexAt p a) (vertexAt p (a + 1)) (vertexAt p i) = 0) with h | h
      · linarith
      · exact h
    have z2 : area2 (vertexAt p a) (vertexAt p (a + 1)) (vertexAt p (i + 1)) = 0 := by
      rcases mul_eq_zero.1 (by linarith : s * area2 (vertexAt p a) (vertexAt p (a + 1)) (vertexAt p (i + 1)) = 0) with h | h
      · linarith
      · exact h
    have e5 := area2_sub (vertexAt p a) (vertexAt p (a + 1)) (vertexAt p (i + 1)) (vertexAt p i)
    have z3 : cross (sideVec p a) (sideVec p i) = 0 := by
      change _ = cross (sideVec p a) (sideVec p i) at e5
      linarith
    apply hne
    obtain ⟨l, hl⟩ := (cross_eq_zero_iff (sideVec_ne S.np S.hp a)).1 z3
    rw [hl]
    have : cross (l • sideVec p a) (sideVec q j) = l * cross (sideVec p a) (sideVec q j) := by
      unfold cross; simp only [P2.smul_x, P2.smul_y]; ring
    rw [this, ho, mul_zero]
  · have hle : β j ≤ θ a := by
      by_contra hcon
      push Not at hcon
      have := S.o_nonneg hn hcon.le
      linarith
    have hup := chain_up S.tq S.tp hle i ha hc.lt1
    have hlt : β j < θ i := lt_of_le_of_lt hle (S.tp.mono ha)
    have hneg := (S.tp.ang i).neg (S.tq.ang j) hlt hc.lt1
    have := mul_neg_of_pos_of_neg s0 hneg
    linarith

theorem Setting.stay_a {p q : List (P2 K)} {θ β : Nat → K} (S : Setting p q θ β) {i j b : Nat} {X : P2 K}
    (hc : Cell p q θ β i j X) (hn : NearTurn θ β i b) (hb : b < j) {f : InFlag} : ¬ Go p q f i b :=
  S.toAround.stay_a hc (S.meet hc.onP hc.onQ) hn hb

theorem Setting.stay_b {p q : List (P2 K)} {θ β : Nat → K} (S : Setting p q θ β) {i j a : Nat} {X : P2 K}
    (hc : Cell p q θ β i j X) (hn : NearTurn θ β a j) (ha : a < i) {f : InFlag} : Go p q f a j :=
  S.toAround.stay_b hc (S.meet hc.onP hc.onQ) hn ha

/-- Crossings come in the same order on both borders. -/
theorem Setting.comparable {p q : List (P2 K)} {θ β : Nat → K} (S : Setting p q θ β) {i j i' j' : Nat} {X X' : P2 K}
    (h : Cell p q θ β i j X) (h' : Cell p q θ β i' j' X') (hi : i < i') : j ≤ j' := by
  by_contra hc
  push Not at hc
  have hn : NearTurn θ β i j' :=
    ⟨(S.tp.mono hi).trans h'.lt1, ((S.tq.mono hc).trans h.lt2).le⟩
  exact S.stay_a h hn hc (f := .unknown) (S.stay_b h' hn hi)

end Geometrix
