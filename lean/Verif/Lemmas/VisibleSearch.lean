import Verif.Lemmas.VisibleFan

/-!
# The search for the visible vertices
-/

set_option linter.unusedSectionVars false

namespace Geometrix
open Spec

/-- The item enters its triangle through the side from `j` to `i`, and everything in the cone up to the side is covered. -/
structure NInv (q : Nat → P2 ℝ) (ts : List (Nat × Nat × Nat)) (I : SearchItem) (a b i j k : Nat) : Prop where
  src : ∃ l, Rot ts I.source i j l
  tgt : Rot ts I.target j i k
  cone : I.cone = some (q a, q b)
  va : Vert ts a
  vb : Vert ts b
  front : 0 < cross (q i) (q j)
  lo1 : 0 ≤ cross (q i) (q a)
  lo2 : 0 < cross (q a) (q j)
  hi1 : 0 < cross (q i) (q b)
  hi2 : 0 ≤ cross (q b) (q j)
  lohi : 0 < cross (q a) (q b)
  lo3 : 0 ≤ area2 (q i) (q j) (q a)
  hi3 : 0 ≤ area2 (q i) (q j) (q b)
  cov : ∀ X, 0 ≤ cross (q a) X → 0 ≤ cross X (q b) → 0 ≤ area2 (q i) (q j) X → MeshCov q ts X

/-- A point in the cone, strictly beyond the side. -/
def Beyond (q : Nat → P2 ℝ) (a b i j : Nat) (X : P2 ℝ) : Prop :=
  0 < cross (q a) X ∧ 0 < cross X (q b) ∧ area2 (q i) (q j) X < 0

/-- A triangle has a point in the cone, strictly beyond the side. -/
def Reaches (q : Nat → P2 ℝ) (ts : List (Nat × Nat × Nat)) (a b i j n : Nat) : Prop :=
  ∃ t, ts[n]? = some t ∧ ∃ X, TriIn q t X ∧ Beyond q a b i j X

open Classical in
/-- The number of triangles that the cone has yet to reach. -/
noncomputable def coneRank (q : Nat → P2 ℝ) (ts : List (Nat × Nat × Nat)) (a b i j : Nat) : Nat :=
  ((Finset.range ts.length).filter (Reaches q ts a b i j)).card

variable {p q : Nat → P2 ℝ} {tris : List (MeshTri ℝ)} {O : P2 ℝ}

section
variable {ts : List (Nat × Nat × Nat)} {I : SearchItem} {a b i j k : Nat}

theorem NInv.apex (M : VMesh q ts) (h : NInv q ts I a b i j k) : area2 (q i) (q j) (q k) < 0 := by
  have := h.tgt.ccw M
  rw [area_flip] at this; linarith

theorem NInv.cone_first (h : NInv q ts I a b i j k) {X : P2 ℝ} (h1 : 0 ≤ cross (q a) X) (h2 : 0 ≤ cross X (q b)) :
    0 ≤ cross (q i) X := by
  have e : cross (q i) X * cross (q a) (q b) = cross (q i) (q a) * cross X (q b) + cross (q i) (q b) * cross (q a) X := by
    simp [cross]; ring
  by_contra hc
  nlinarith [mul_pos (neg_pos.2 (not_le.1 hc)) h.lohi, mul_nonneg h.lo1 h2, mul_nonneg h.hi1.le h1]

theorem NInv.cone_second (h : NInv q ts I a b i j k) {X : P2 ℝ} (h1 : 0 ≤ cross (q a) X) (h2 : 0 ≤ cross X (q b)) :
    0 ≤ cross X (q j) := by
  have e : cross X (q j) * cross (q a) (q b) = cross X (q b) * cross (q a) (q j) + cross (q a) X * cross (q b) (q j) := by
    simp [cross]; ring
  by_contra hc
  nlinarith [mul_pos (neg_pos.2 (not_le.1 hc)) h.lohi, mul_nonneg h2 h.lo2.le, mul_nonneg h1 h.hi2]

theorem NInv.cone_first' (h : NInv q ts I a b i j k) {X : P2 ℝ} (h1 : 0 < cross (q a) X) (h2 : 0 < cross X (q b)) :
    0 < cross (q i) X := by
  have e : cross (q i) X * cross (q a) (q b) = cross (q i) (q a) * cross X (q b) + cross (q i) (q b) * cross (q a) X := by
    simp [cross]; ring
  by_contra hc
  nlinarith [mul_nonneg (neg_nonneg.2 (not_lt.1 hc)) h.lohi.le, mul_nonneg h.lo1 h2.le, mul_pos h.hi1 h1]

theorem NInv.cone_second' (h : NInv q ts I a b i j k) {X : P2 ℝ} (h1 : 0 < cross (q a) X) (h2 : 0 < cross X (q b)) :
    0 < cross X (q j) := by
  have e : cross X (q j) * cross (q a) (q b) = cross X (q b) * cross (q a) (q j) + cross (q a) X * cross (q b) (q j) := by
    simp [cross]; ring
  by_contra hc
  nlinarith [mul_nonneg (neg_nonneg.2 (not_lt.1 hc)) h.lohi.le, mul_pos h2 h.lo2, mul_nonneg h1.le h.hi2]

/-- The apex is in the cone exactly if it is reported; then it is seen. -/
theorem NInv.seen_apex (M : VMesh q ts) (h : NInv q ts I a b i j k) (h1 : 0 ≤ cross (q a) (q k))
    (h2 : 0 ≤ cross (q k) (q b)) : SeenV q ts k := by
  have c1 := h.cone_first h1 h2
  have c2 := h.cone_second h1 h2
  intro s s0 s1
  have e1 : cross (q a) (s • q k) = s * cross (q a) (q k) := by simp [cross]; ring
  have e2 : cross (s • q k) (q b) = s * cross (q k) (q b) := by simp [cross]; ring
  rcases le_or_gt 0 (area2 (q i) (q j) (s • q k)) with h3 | h3
  · exact h.cov _ (by rw [e1]; positivity) (by rw [e2]; positivity) h3
  · refine h.tgt.cov ?_ ?_ ?_
    · rw [area_flip]; linarith
    · have e : area2 (q i) (q k) (s • q k) = (1 - s) * cross (q i) (q k) := by simp [area2, cross]; ring
      rw [e]
      exact mul_nonneg (by linarith) c1
    · have e : area2 (q k) (q j) (s • q k) = (1 - s) * cross (q k) (q j) := by simp [area2, cross]; ring
      rw [e]
      exact mul_nonneg (by linarith) c2

theorem NInv.seen_lo (h : NInv q ts I a b i j k) : SeenV q ts a := by
  intro s s0 s1
  have e1 : cross (q a) (s • q a) = 0 := by simp [cross]; ring
  have e2 : cross (s • q a) (q b) = s * cross (q a) (q b) := by simp [cross]; ring
  have e3 : area2 (q i) (q j) (s • q a) = (1 - s) * cross (q i) (q j) + s * area2 (q i) (q j) (q a) := by
    simp [area2, cross]; ring
  have := h.lohi
  have := h.lo3
  have := h.front
  exact h.cov _ e1.ge (by rw [e2]; positivity) (by
    rw [e3]; exact add_nonneg (mul_nonneg (by linarith) h.front.le) (by positivity))

theorem NInv.seen_hi (h : NInv q ts I a b i j k) : SeenV q ts b := by
  intro s s0 s1
  have e1 : cross (s • q b) (q b) = 0 := by simp [cross]; ring
  have e2 : cross (q a) (s • q b) = s * cross (q a) (q b) := by simp [cross]; ring
  have e3 : area2 (q i) (q j) (s • q b) = (1 - s) * cross (q i) (q j) + s * area2 (q i) (q j) (q b) := by
    simp [area2, cross]; ring
  have := h.lohi
  have := h.hi3
  have := h.front
  exact h.cov _ (by rw [e2]; positivity) e1.ge (by
    rw [e3]; exact add_nonneg (mul_nonneg (by linarith) h.front.le) (by positivity))

/-- The vertex between the first bound and the apex. -/
theorem NInv.next_first (M : VMesh q ts) (h : NInv q ts I a b i j k) {n' l : Nat} (hr : Rot ts n' k i l)
    (hik : 0 < cross (q i) (q k)) (hak : 0 < cross (q a) (q k)) {b' : Nat}
    (hb' : (b' = k ∧ 0 < cross (q k) (q b)) ∨ (b' = b ∧ ¬ 0 < cross (q k) (q b))) :
    NInv q ts ⟨I.target, n', some (q a, q b')⟩ a b' i k l := by
  have ht := h.tgt.ccw M
  refine ⟨⟨j, h.tgt.rotate⟩, hr, rfl, h.va, ?_, hik, h.lo1, hak, ?_, ?_, ?_, ?_, ?_, ?_⟩
  · rcases hb' with ⟨rfl, -⟩ | ⟨rfl, -⟩
    · exact hr.vert
    · exact h.vb
  · rcases hb' with ⟨rfl, -⟩ | ⟨rfl, -⟩
    · exact hik
    · exact h.hi1
  · rcases hb' with ⟨rfl, -⟩ | ⟨rfl, hx⟩
    · rw [cross_self]
    · rw [cross_anti]; linarith
  · rcases hb' with ⟨rfl, -⟩ | ⟨rfl, -⟩
    · exact hak
    · exact h.lohi
  · exact before_first h.front ht hik h.lo1 h.lo3
  · rcases hb' with ⟨rfl, -⟩ | ⟨rfl, -⟩
    · have : area2 (q i) (q b') (q b') = 0 := by simp [area2]; ring
      exact this.ge
    · exact before_first h.front ht hik h.hi1.le h.hi3
  · intro X h1 h2 h3
    have hXk : 0 ≤ cross X (q k) := by
      rcases hb' with ⟨rfl, -⟩ | ⟨rfl, hx⟩
      · exact h2
      · have hbk : 0 ≤ cross (q b') (q k) := by rw [cross_anti]; linarith
        have e : cross X (q k) * cross (q a) (q b') =
            cross X (q b') * cross (q a) (q k) + cross (q a) X * cross (q b') (q k) := by simp [cross]; ring
        by_contra hc
        nlinarith [mul_pos (neg_pos.2 (not_le.1 hc)) h.lohi, mul_nonneg h2 hak.le, mul_nonneg h1 hbk]
    have hXb : 0 ≤ cross X (q b) := by
      rcases hb' with ⟨rfl, hx⟩ | ⟨rfl, -⟩
      · have e : cross X (q b) * cross (q a) (q b') =
            cross X (q b') * cross (q a) (q b) + cross (q a) X * cross (q b') (q b) := by simp [cross]; ring
        by_contra hc
        nlinarith [mul_pos (neg_pos.2 (not_le.1 hc)) hak, mul_nonneg h2 h.lohi.le, mul_nonneg h1 hx.le]
      · exact h2
    rcases le_or_gt 0 (area2 (q i) (q j) X) with h4 | h4
    · exact h.cov X h1 hXb h4
    · obtain ⟨k1, k2, k3⟩ := in_apex_first h.front ht hik hXk (h.cone_second h1 hXb) h4 h3
      exact h.tgt.cov k1 k2 k3

theorem NInv.next_second (M : VMesh q ts) (h : NInv q ts I a b i j k) {n' l : Nat} (hr : Rot ts n' j k l)
    (hkj : 0 < cross (q k) (q j)) (hkb : 0 < cross (q k) (q b)) {a' : Nat}
    (ha' : (a' = k ∧ 0 < cross (q a) (q k)) ∨ (a' = a ∧ ¬ 0 < cross (q a) (q k))) :
    NInv q ts ⟨I.target, n', some (q a', q b)⟩ a' b k j l := by
  have ht := h.tgt.ccw M
  refine ⟨⟨i, h.tgt.rotate.rotate⟩, hr, rfl, ?_, h.vb, hkj, ?_, ?_, hkb, h.hi2, ?_, ?_, ?_, ?_⟩
  · rcases ha' with ⟨rfl, -⟩ | ⟨rfl, -⟩
    · exact hr.rotate.vert
    · exact h.va
  · rcases ha' with ⟨rfl, -⟩ | ⟨rfl, hx⟩
    · rw [cross_self]
    · rw [cross_anti]; linarith
  · rcases ha' with ⟨rfl, -⟩ | ⟨rfl, -⟩
    · exact hkj
    · exact h.lo2
  · rcases ha' with ⟨rfl, -⟩ | ⟨rfl, -⟩
    · exact hkb
    · exact h.lohi
  · rcases ha' with ⟨rfl, -⟩ | ⟨rfl, -⟩
    · have : area2 (q a') (q j) (q a') = 0 := by simp [area2]
      exact this.ge
    · exact before_second h.front ht hkj h.lo2.le h.lo3
  · exact before_second h.front ht hkj h.hi2 h.hi3
  · intro X h1 h2 h3
    have hXk : 0 ≤ cross (q k) X := by
      rcases ha' with ⟨rfl, -⟩ | ⟨rfl, hx⟩
      · exact h1
      · have hbk : 0 ≤ cross (q k) (q a') := by rw [cross_anti]; linarith
        have e : cross (q k) X * cross (q a') (q b) =
            cross (q k) (q a') * cross X (q b) + cross (q k) (q b) * cross (q a') X := by simp [cross]; ring
        by_contra hc
        nlinarith [mul_pos (neg_pos.2 (not_le.1 hc)) h.lohi, mul_nonneg h1 hkb.le, mul_nonneg hbk h2]
    have hXa : 0 ≤ cross (q a) X := by
      rcases ha' with ⟨rfl, hx⟩ | ⟨rfl, -⟩
      · have e : cross (q a) X * cross (q a') (q b) =
            cross (q a) (q a') * cross X (q b) + cross (q a) (q b) * cross (q a') X := by simp [cross]; ring
        by_contra hc
        nlinarith [mul_pos (neg_pos.2 (not_le.1 hc)) hkb, mul_nonneg h1 h.lohi.le, mul_nonneg hx.le h2]
      · exact h1
    rcases le_or_gt 0 (area2 (q i) (q j) X) with h4 | h4
    · exact h.cov X hXa h2 h4
    · obtain ⟨k1, k2, k3⟩ := in_apex_second h.front ht hkj hXk (h.cone_first hXa h2) h4 h3
      exact h.tgt.cov k1 k2 k3

/-- The triangle has a point in the cone. -/
theorem NInv.point (M : VMesh q ts) (h : NInv q ts I a b i j k) : ∃ X, (0 ≤ area2 (q j) (q i) X ∧ 0 ≤ area2 (q i) (q k) X ∧
    0 ≤ area2 (q k) (q j) X) ∧ Beyond q a b i j X := by
  have ht := h.tgt.ccw M
  have hlo1 := h.lo1
  have hlo2 := h.lo2
  have hhi1 := h.hi1
  have hhi2 := h.hi2
  have hD := h.front
  have hlohi := h.lohi
  set α := cross (q a) (q j) + cross (q b) (q j) with hα
  set β := cross (q i) (q a) + cross (q i) (q b) with hβ
  have pα : 0 < α := by positivity
  have pβ : 0 < β := by positivity
  set Y : P2 ℝ := α • q i + β • q j with hY
  have eY : Y = cross (q i) (q j) • (q a + q b) := by
    rw [hY]; ext <;> simp [hα, hβ, cross] <;> ring
  have y1 : cross (q a) Y = cross (q i) (q j) * cross (q a) (q b) := by rw [eY]; simp [cross]; ring
  have y2 : cross Y (q b) = cross (q i) (q j) * cross (q a) (q b) := by rw [eY]; simp [cross]; ring
  obtain ⟨δ1, d1, k1⟩ := pos_near (x := cross (q a) Y) (by rw [y1]; positivity) (cross (q a) (q k))
  obtain ⟨δ2, d2, k2⟩ := pos_near (x := cross Y (q b)) (by rw [y2]; positivity) (cross (q k) (q b))
  set t := min δ1 δ2 with htdef
  have t0 : 0 < t := by positivity
  have x1 := k1 t t0.le (min_le_left _ _)
  have x2 := k2 t t0.le (min_le_right _ _)
  have hs : 0 < α + β + t := by positivity
  have hakb : 0 < area2 (q i) (q k) (q j) := by rwa [area_rot] at ht
  have hkba : 0 < area2 (q k) (q j) (q i) := by rwa [← area_rot] at ht
  refine ⟨(1 / (α + β + t)) • (Y + t • q k), ⟨?_, ?_, ?_⟩, ?_, ?_, ?_⟩
  · have e : area2 (q j) (q i) ((1 / (α + β + t)) • (Y + t • q k)) = t / (α + β + t) * area2 (q j) (q i) (q k) := by
      rw [hY]; simp only [area2, P2.smul_x, P2.smul_y, P2.add_x, P2.add_y]; field_simp; ring
    rw [e]; positivity
  · have e : area2 (q i) (q k) ((1 / (α + β + t)) • (Y + t • q k)) = β / (α + β + t) * area2 (q i) (q k) (q j) := by
      rw [hY]; simp only [area2, P2.smul_x, P2.smul_y, P2.add_x, P2.add_y]; field_simp; ring
    rw [e]; positivity
  · have e : area2 (q k) (q j) ((1 / (α + β + t)) • (Y + t • q k)) = α / (α + β + t) * area2 (q k) (q j) (q i) := by
      rw [hY]; simp only [area2, P2.smul_x, P2.smul_y, P2.add_x, P2.add_y]; field_simp; ring
    rw [e]; positivity
  · have e : cross (q a) ((1 / (α + β + t)) • (Y + t • q k)) =
        1 / (α + β + t) * (cross (q a) Y + t * cross (q a) (q k)) := by simp [cross]; ring
    rw [e]; positivity
  · have e : cross ((1 / (α + β + t)) • (Y + t • q k)) (q b) =
        1 / (α + β + t) * (cross Y (q b) + t * cross (q k) (q b)) := by simp [cross]; ring
    rw [e]; positivity
  · have e : area2 (q i) (q j) ((1 / (α + β + t)) • (Y + t • q k)) = -(t / (α + β + t) * area2 (q j) (q i) (q k)) := by
      rw [hY]; simp only [area2, P2.smul_x, P2.smul_y, P2.add_x, P2.add_y]; field_simp; ring
    rw [e]
    have : 0 < t / (α + β + t) * area2 (q j) (q i) (q k) := by positivity
    linarith

theorem NInv.rank_lt (M : VMesh q ts) (h : NInv q ts I a b i j k) {a' b' i' j' : Nat}
    (h1 : ∀ X, Beyond q a' b' i' j' X → Beyond q a b i j X)
    (h2 : ∀ X, 0 ≤ area2 (q j) (q i) X → 0 ≤ area2 (q i) (q k) X → 0 ≤ area2 (q k) (q j) X → ¬ Beyond q a' b' i' j' X) :
    coneRank q ts a' b' i' j' < coneRank q ts a b i j := by
  obtain ⟨t, g1, g2, -, g4⟩ := h.tgt.get (q := q)
  obtain ⟨X, hX, hB⟩ := h.point M
  classical
  unfold coneRank
  apply Finset.card_lt_card
  rw [Finset.ssubset_iff_of_subset]
  · refine ⟨I.target, ?_, ?_⟩
    · rw [Finset.mem_filter, Finset.mem_range]
      exact ⟨(List.getElem?_eq_some_iff.1 g1).1, t, g1, X, (g4 X).2 hX, hB⟩
    · rw [Finset.mem_filter]
      rintro ⟨-, t', g1', X, k1, k2⟩
      rw [g1, Option.some.injEq] at g1'
      subst g1'
      obtain ⟨m1, m2, m3⟩ := (g4 X).1 k1
      exact h2 X m1 m2 m3 k2
  · intro n hn
    rw [Finset.mem_filter] at hn ⊢
    obtain ⟨k0, t', k1, X, k2, k3⟩ := hn
    exact ⟨k0, t', k1, X, k2, h1 X k3⟩

theorem NInv.rank_first (M : VMesh q ts) (h : NInv q ts I a b i j k) (hik : 0 < cross (q i) (q k))
    (hak : 0 < cross (q a) (q k)) {b' : Nat}
    (hb' : (b' = k ∧ 0 < cross (q k) (q b)) ∨ (b' = b ∧ ¬ 0 < cross (q k) (q b))) :
    coneRank q ts a b' i k < coneRank q ts a b i j := by
  refine h.rank_lt M (fun X hX => ?_) fun X k1 k2 k3 hX => absurd k2 (not_le.2 hX.2.2)
  obtain ⟨x1, x2, x3⟩ := hX
  have hXb : 0 < cross X (q b) := by
    rcases hb' with ⟨rfl, hx⟩ | ⟨rfl, -⟩
    · have e : cross X (q b) * cross (q a) (q b') =
          cross X (q b') * cross (q a) (q b) + cross (q a) X * cross (q b') (q b) := by simp [cross]; ring
      by_contra hc
      nlinarith [mul_nonneg (neg_nonneg.2 (not_lt.1 hc)) hak.le, mul_pos x2 h.lohi, mul_pos x1 hx]
    · exact x2
  exact ⟨x1, hXb, beyond_first h.front (h.tgt.ccw M) hik (h.cone_first x1.le hXb.le) x3⟩

theorem NInv.rank_second (M : VMesh q ts) (h : NInv q ts I a b i j k) (hkj : 0 < cross (q k) (q j))
    (hkb : 0 < cross (q k) (q b)) {a' : Nat}
    (ha' : (a' = k ∧ 0 < cross (q a) (q k)) ∨ (a' = a ∧ ¬ 0 < cross (q a) (q k))) :
    coneRank q ts a' b k j < coneRank q ts a b i j := by
  refine h.rank_lt M (fun X hX => ?_) fun X k1 k2 k3 hX => absurd k3 (not_le.2 hX.2.2)
  obtain ⟨x1, x2, x3⟩ := hX
  have hXa : 0 < cross (q a) X := by
    rcases ha' with ⟨rfl, hx⟩ | ⟨rfl, -⟩
    · have e : cross (q a) X * cross (q a') (q b) =
          cross (q a) (q a') * cross X (q b) + cross (q a) (q b) * cross (q a') X := by simp [cross]; ring
      by_contra hc
      nlinarith [mul_nonneg (neg_nonneg.2 (not_lt.1 hc)) hkb.le, mul_pos x1 h.lohi, mul_pos hx x2]
    · exact x1
  exact ⟨hXa, x2, beyond_second h.front (h.tgt.ccw M) hkj (h.cone_second hXa.le x2.le) x3⟩

/-- Through a side that is seen from behind the search goes round the first bound. -/
theorem NInv.fan_first (M : VMesh q ts) (h : NInv q ts I i b i j k) {n' l : Nat} (hr : Rot ts n' k i l)
    (hik : cross (q i) (q k) < 0) : FInv q ts ⟨I.target, n', some (q i, q b)⟩ 1 i b i k l := by
  have ht := h.tgt.ccw M
  have hD := h.front
  have c1 : cross (q i) (q j - q i) = cross (q i) (q j) := by rw [cross_sub_right, cross_self, sub_zero]
  have c2 : cross (q i) (q k - q i) = cross (q i) (q k) := by rw [cross_sub_right, cross_self, sub_zero]
  have c3 : cross (q k - q i) (q j - q i) = area2 (q j) (q i) (q k) := by simp [cross, area2]; ring
  have pl : ∀ e, cross (q i) (q k - q i) * cross (q j - q i) e - cross (q i) (q j - q i) * cross (q k - q i) e +
      cross (q i) e * cross (q k - q i) (q j - q i) = 0 := fun e => plucker _ _ _ _
  have flip : ∀ e, cross (q i - q j) e = -cross (q j - q i) e := fun e => by simp [cross]; ring
  refine ⟨Or.inl ⟨rfl, rfl, ⟨j, h.tgt.rotate⟩, hr⟩, rfl, h.lohi, h.va, h.vb, by rw [one_mul]; exact hik, ?_, ?_,
    M.border i h.va h.seen_lo⟩
  · intro e he
    rw [one_mul] at he
    rcases le_or_gt 0 (cross (q j - q i) e) with h1 | h1
    · obtain ⟨δ, d, hk⟩ := pos_near h.lohi (cross e (q b))
      refine ⟨δ, d, fun t t0 t1 => h.cov _ ?_ ?_ ?_⟩
      · have : cross (q i) (q i + t • e) = t * cross (q i) e := by simp [cross]; ring
        rw [this]; positivity
      · have : cross (q i + t • e) (q b) = cross (q i) (q b) + t * cross e (q b) := by simp [cross]; ring
        rw [this]; exact (hk t t0 t1).le
      · rw [area_along]
        have : area2 (q i) (q j) (q i) = 0 := by simp [area2]
        rw [this, zero_add]; positivity
    · refine dir_of_rot M h.tgt (by rw [flip]; linarith) ?_
      have := pl e
      rw [c1, c2, c3] at this
      by_contra hc
      nlinarith [mul_pos_of_neg_of_neg hik h1, mul_pos hD (neg_pos.2 (not_le.1 hc)), mul_nonneg he ht.le]
  · intro e h1 h2
    rw [one_mul] at h1 h2
    refine dir_of_rot M h.tgt ?_ h2
    rw [flip]
    have := pl e
    rw [c1, c2, c3] at this
    by_contra hc
    have hc' : 0 < cross (q j - q i) e := by linarith
    nlinarith [mul_pos (neg_pos.2 hik) hc', mul_nonneg hD.le h2, mul_nonneg (neg_nonneg.2 h1) ht.le]

theorem NInv.fan_second (M : VMesh q ts) (h : NInv q ts I a j i j k) {n' l : Nat} (hr : Rot ts n' j k l)
    (hkj : cross (q k) (q j) < 0) : FInv q ts ⟨I.target, n', some (q a, q j)⟩ (-1) a j j k l := by
  have ht := h.tgt.ccw M
  have hD := h.front
  have hjk : 0 < cross (q j) (q k) := by rw [cross_anti]; linarith
  have hji : cross (q j) (q i) < 0 := by rw [cross_anti]; linarith
  have c1 : cross (q j) (q i - q j) = cross (q j) (q i) := by rw [cross_sub_right, cross_self, sub_zero]
  have c2 : cross (q j) (q k - q j) = cross (q j) (q k) := by rw [cross_sub_right, cross_self, sub_zero]
  have c3 : cross (q k - q j) (q i - q j) = -area2 (q j) (q i) (q k) := by simp [cross, area2]; ring
  have pl : ∀ e, cross (q j) (q k - q j) * cross (q i - q j) e - cross (q j) (q i - q j) * cross (q k - q j) e +
      cross (q j) e * cross (q k - q j) (q i - q j) = 0 := fun e => plucker _ _ _ _
  have flip : ∀ e, cross (q j - q i) e = -cross (q i - q j) e := fun e => by simp [cross]; ring
  have flip' : ∀ e, cross (q j - q k) e = -cross (q k - q j) e := fun e => by simp [cross]; ring
  refine ⟨Or.inr ⟨rfl, rfl, ⟨i, h.tgt.rotate.rotate⟩, hr⟩, rfl, h.lohi, h.va, h.vb, by linarith, ?_, ?_,
    M.border j h.vb h.seen_hi⟩
  · intro e he
    rcases le_or_gt 0 (cross (q j - q i) e) with h1 | h1
    · obtain ⟨δ, d, hk⟩ := pos_near h.lohi (cross (q a) e)
      refine ⟨δ, d, fun t t0 t1 => h.cov _ ?_ ?_ ?_⟩
      · have : cross (q a) (q j + t • e) = cross (q a) (q j) + t * cross (q a) e := by simp [cross]; ring
        rw [this]; exact (hk t t0 t1).le
      · have : cross (q j + t • e) (q j) = t * (-1 * cross (q j) e) := by simp [cross]; ring
        rw [this]; positivity
      · rw [area_along]
        have : area2 (q i) (q j) (q j) = 0 := by simp [area2]; ring
        rw [this, zero_add]; positivity
    · refine dir_of_rot M h.tgt.rotate.rotate ?_ (by rw [flip] at h1; linarith)
      rw [flip']
      rw [flip] at h1
      have := pl e
      rw [c1, c2, c3] at this
      by_contra hc
      have hc' : 0 < cross (q k - q j) e := by linarith
      have he' : cross (q j) e ≤ 0 := by linarith
      have h1' : 0 < cross (q i - q j) e := by linarith
      nlinarith [mul_pos hjk h1', mul_pos (neg_pos.2 hji) hc', mul_nonneg (neg_nonneg.2 he') ht.le]
  · intro e h1 h2
    have h1' : 0 ≤ cross (q j) e := by linarith
    have h2' : cross (q k - q j) e ≤ 0 := by linarith
    refine dir_of_rot M h.tgt.rotate.rotate (by rw [flip']; linarith) ?_
    have := pl e
    rw [c1, c2, c3] at this
    by_contra hc
    nlinarith [mul_pos hjk (neg_pos.2 (not_le.1 hc)), mul_nonneg (neg_nonneg.2 hji.le) (neg_nonneg.2 h2'),
      mul_nonneg h1' ht.le]

theorem NInv.not_source (M : VMesh q ts) (h : NInv q ts I a b i j k) {x y n' : Nat}
    (hr : Rot ts n' x y k ∨ Rot ts n' k x y ∨ Rot ts n' y k x) : n' ≠ I.source := by
  rintro rfl
  obtain ⟨l, hs⟩ := h.src
  have hk := h.apex M
  have hl := hs.ccw M
  obtain ⟨t, g1, -, g3, -⟩ := hs.get (q := q)
  have hi : IsIdx t k := by
    rcases hr with hr | hr | hr <;> obtain ⟨t', g1', -, g3', -⟩ := hr.get (q := q) <;>
      rw [g1, Option.some.injEq] at g1' <;> subst g1' <;> rw [g3'] <;> simp
  rcases (g3 k).1 hi with e | e | e
  · exact h.tgt.rotate.ne M e.symm
  · exact h.tgt.rotate.rotate.ne M e
  · rw [← e] at hl; linarith

theorem NInv.lo_ne (M : VMesh q ts) (h : NInv q ts I a b i j k) : a ≠ k := by
  rintro rfl
  linarith [h.lo3, h.apex M]

theorem NInv.hi_ne (M : VMesh q ts) (h : NInv q ts I a b i j k) : b ≠ k := by
  rintro rfl
  linarith [h.hi3, h.apex M]

/-- A vertex in the cone is beyond the side through which it is seen. -/
theorem NInv.out_first (M : VMesh q ts) (h : NInv q ts I a b i j k) {v : Nat} (hv : Vert ts v)
    (hb : Beyond q a b i j (q v)) (hvk : 0 < cross (q v) (q k)) : 0 < cross (q i) (q k) ∧ area2 (q i) (q k) (q v) < 0 ∧
    0 < cross (q a) (q k) := by
  obtain ⟨h1, h2, h3⟩ := hb
  have c1 := h.cone_first' h1 h2
  have c2 := h.cone_second' h1 h2
  have ht := h.tgt.ccw M
  have hik : 0 < cross (q i) (q k) := by
    rcases gen_pos M h.tgt.rotate.vert h.tgt.rotate.rotate.vert (h.tgt.rotate.ne M) with g | g
    · linarith [right_of_cone h.front (h.apex M) g c1.le c2]
    · exact g
  refine ⟨hik, ?_, cross_trans c1 h.lo1 hvk hik h1⟩
  by_contra hn
  obtain ⟨t, g1, g2, g3, g4⟩ := h.tgt.get (q := q)
  have := vert_conf M hv g2 ((g4 _).2 (in_apex_first h.front ht hik hvk.le c2.le h3 (not_lt.1 hn)))
  rcases (g3 v).1 this with rfl | rfl | rfl
  · rw [cross_self] at c2; linarith
  · rw [cross_self] at c1; linarith
  · rw [cross_self] at hvk; linarith

theorem NInv.out_second (M : VMesh q ts) (h : NInv q ts I a b i j k) {v : Nat} (hv : Vert ts v)
    (hb : Beyond q a b i j (q v)) (hkv : 0 < cross (q k) (q v)) : 0 < cross (q k) (q j) ∧ area2 (q k) (q j) (q v) < 0 ∧
    0 < cross (q k) (q b) := by
  obtain ⟨h1, h2, h3⟩ := hb
  have c1 := h.cone_first' h1 h2
  have c2 := h.cone_second' h1 h2
  have ht := h.tgt.ccw M
  have hkj : 0 < cross (q k) (q j) := by
    rcases gen_pos M h.tgt.rotate.rotate.vert h.tgt.vert (h.tgt.rotate.rotate.ne M) with g | g
    · have := left_of_cone h.front (h.apex M) g c1 c2.le
      rw [cross_anti] at this; linarith
    · exact g
  refine ⟨hkj, ?_, cross_trans' c2 h.hi2 hkv hkj h2⟩
  by_contra hn
  obtain ⟨t, g1, g2, g3, g4⟩ := h.tgt.get (q := q)
  have := vert_conf M hv g2 ((g4 _).2 (in_apex_second h.front ht hkj hkv.le c1.le h3 (not_lt.1 hn)))
  rcases (g3 v).1 this with rfl | rfl | rfl
  · rw [cross_self] at c2; linarith
  · rw [cross_self] at c1; linarith
  · rw [cross_self] at hkv; linarith

end

theorem range_around_hi {P Q lo hi : P2 ℝ} (h : 0 < cross lo hi) (hPQ : 0 < cross (P - O) (Q - O))
    (h1 : 0 < cross (P - O) hi) (h2 : 0 ≤ cross hi (Q - O)) : segInRange P Q lo hi O = .ok true := by
  obtain ⟨r, e, hr⟩ := segInRange_spec (A := P) (B := Q) (O := O) h
  rw [e]
  congr 1
  rw [hr]
  left
  have hs : 0 < cross (P - O) hi + cross hi (Q - O) := by linarith
  refine ⟨P + (cross (P - O) hi / (cross (P - O) hi + cross hi (Q - O))) • (Q - P), ⟨_, by positivity,
    (div_le_one hs).2 (by linarith), rfl⟩, 0, cross (P - O) (Q - O) / (cross (P - O) hi + cross hi (Q - O)), le_rfl,
    by positivity, ?_⟩
  ext
  · simp only [P2.add_x, P2.smul_x, P2.sub_x, zero_mul, add_zero]
    field_simp
    simp only [cross, P2.sub_x, P2.sub_y]; ring
  · simp only [P2.add_y, P2.smul_y, P2.sub_y, zero_mul, add_zero]
    field_simp
    simp only [cross, P2.sub_x, P2.sub_y]; ring

section
variable {I : SearchItem} {a b i j k : Nat}

theorem NInv.side_first (hp : PointsOf p tris) (hq : ∀ i, q i = p i - O) (M : VMesh q (tris.map MeshTri.indices))
    (h : NInv q (tris.map MeshTri.indices) I a b i j k) {t : Nat × Nat × Nat} {s : Nat}
    (hget : (tris.map MeshTri.indices)[I.target]? = some t) (hside : HasSide t s i k) :
    ∃ l, searchSide tris O I s = .ok l ∧
      (((l = [] ∨ ∃ J, l = [J] ∧ ∃ σ a b β C D, FInv q (tris.map MeshTri.indices) J σ a b β C D) ∧
        ∀ v, Vert (tris.map MeshTri.indices) v → SeenV q (tris.map MeshTri.indices) v → Beyond q a b i j (q v) →
          ¬ 0 < cross (q v) (q k)) ∨
      ∃ J b' l', l = [J] ∧ NInv q (tris.map MeshTri.indices) J a b' i k l' ∧ 0 < cross (q i) (q k) ∧ 0 < cross (q a) (q k) ∧
        ((b' = k ∧ 0 < cross (q k) (q b)) ∨ (b' = b ∧ ¬ 0 < cross (q k) (q b)))) := by
  have hlohi := h.lohi
  have vi := h.tgt.rotate.vert
  have vk := h.tgt.rotate.rotate.vert
  have zi := vert_nz M vi
  have zk := vert_nz M vk
  have hak_ne := h.lo_ne M
  rcases side_cases (O := O) M hget hside with e | ⟨n', l', hr, hne⟩
  · refine ⟨[], e, Or.inl ⟨Or.inl rfl, fun v hv hs hb hvk => ?_⟩⟩
    -- there is a triangle, so that the list cannot be empty
    obtain ⟨g1, g2, g3⟩ := h.out_first M hv hb hvk
    obtain ⟨n', l', hr⟩ := exit_side M h.tgt.rotate hs g1 (h.cone_first' hb.1 hb.2.1) hvk g2
    have hne := h.not_source M (Or.inr (Or.inl hr))
    exfalso
    have := side_some (O := O) hp M hget hside hr hne
    rw [e, h.cone] at this
    dsimp only at this
    rw [orderSide_front (by rw [← hq, ← hq]; exact g1)] at this
    dsimp only at this
    rw [range_around hlohi (by rw [← hq, ← hq]; exact g1) (by rw [← hq]; exact h.lo1) (by rw [← hq]; exact g3)] at this
    dsimp only at this
    by_cases hkb : 0 < cross (q k) (q b)
    · rw [nextCone_hi h.cone hlohi (by rw [← hq]; exact zi) (by rw [← hq]; exact zk)
        (by rw [← hq]; intro hx; have := h.lo1; rw [cross_anti] at this; linarith [hx.1])
        (by rw [← hq]; exact ⟨g3, hkb⟩)] at this
      simp at this
    · rw [nextCone_same h.cone hlohi (by rw [← hq]; exact zi) (by rw [← hq]; exact zk)
        (by rw [← hq]; intro hx; have := h.lo1; rw [cross_anti] at this; linarith [hx.1])
        (by rw [← hq]; exact fun hx => hkb hx.2)] at this
      simp at this
  · rw [side_some (O := O) hp M hget hside hr hne, h.cone]
    dsimp only
    rcases gen_pos M vi vk (h.tgt.rotate.ne M) with g | g
    · -- seen from behind
      have hno : ∀ v, Vert (tris.map MeshTri.indices) v → Beyond q a b i j (q v) → ¬ 0 < cross (q v) (q k) :=
        fun v hv hb hvk => absurd (h.out_first M hv hb hvk).1 (not_lt.2 g.le)
      rw [orderSide_back (by rw [← hq, ← hq]; exact g)]
      dsimp only
      by_cases hai : a = i
      · subst hai
        rw [range_second (by rw [← hq, cross_self]) (by rw [← hq]; exact hlohi.le)]
        dsimp only
        rw [nextCone_same h.cone hlohi (by rw [← hq]; exact zk) (by rw [← hq]; exact zi)
          (by rw [← hq]; intro hx; linarith [hx.1]) (by rw [← hq, cross_self]; simp)]
        exact ⟨_, rfl, Or.inl ⟨Or.inr ⟨_, rfl, 1, a, b, a, k, l', h.fan_first M hr g⟩, fun v hv hs hb hvk => absurd hvk (hno v hv hb)⟩⟩
      · have hlt : 0 < cross (q i) (q a) := lt_of_le_of_ne h.lo1 (M.gen i a vi h.va (Ne.symm hai)).symm
        rw [range_right (by rw [← hq]; exact right_of_cone h.front (h.apex M) g h.lo1 h.lo2)
          (by rw [← hq, cross_anti]; linarith)]
        exact ⟨_, rfl, Or.inl ⟨Or.inl rfl, fun v hv hs hb hvk => absurd hvk (hno v hv hb)⟩⟩
    · rw [orderSide_front (by rw [← hq, ← hq]; exact g)]
      dsimp only
      rcases gen_pos M h.va vk hak_ne with hak | hak
      · have hai : a ≠ i := by rintro rfl; linarith
        have hlt : 0 < cross (q i) (q a) := lt_of_le_of_ne h.lo1 (M.gen i a vi h.va (Ne.symm hai)).symm
        rw [range_right (by rw [← hq, cross_anti]; linarith) (by rw [← hq]; exact hak)]
        exact ⟨_, rfl, Or.inl ⟨Or.inl rfl, fun v hv hs hb hvk =>
          absurd (h.out_first M hv hb hvk).2.2 (not_lt.2 hak.le)⟩⟩
      · rw [range_around hlohi (by rw [← hq, ← hq]; exact g) (by rw [← hq]; exact h.lo1) (by rw [← hq]; exact hak)]
        dsimp only
        by_cases hkb : 0 < cross (q k) (q b)
        · rw [nextCone_hi h.cone hlohi (by rw [← hq]; exact zi) (by rw [← hq]; exact zk)
            (by rw [← hq]; intro hx; have := h.lo1; rw [cross_anti] at this; linarith [hx.1])
            (by rw [← hq]; exact ⟨hak, hkb⟩), ← hq]
          exact ⟨_, rfl, Or.inr ⟨_, k, l', rfl, h.next_first M hr g hak (Or.inl ⟨rfl, hkb⟩), g, hak, Or.inl ⟨rfl, hkb⟩⟩⟩
        · rw [nextCone_same h.cone hlohi (by rw [← hq]; exact zi) (by rw [← hq]; exact zk)
            (by rw [← hq]; intro hx; have := h.lo1; rw [cross_anti] at this; linarith [hx.1])
            (by rw [← hq]; exact fun hx => hkb hx.2)]
          exact ⟨_, rfl, Or.inr ⟨_, b, l', rfl, h.next_first M hr g hak (Or.inr ⟨rfl, hkb⟩), g, hak, Or.inr ⟨rfl, hkb⟩⟩⟩

theorem NInv.side_second (hp : PointsOf p tris) (hq : ∀ i, q i = p i - O) (M : VMesh q (tris.map MeshTri.indices))
    (h : NInv q (tris.map MeshTri.indices) I a b i j k) {t : Nat × Nat × Nat} {s : Nat}
    (hget : (tris.map MeshTri.indices)[I.target]? = some t) (hside : HasSide t s k j) :
    ∃ l, searchSide tris O I s = .ok l ∧
      (((l = [] ∨ ∃ J, l = [J] ∧ ∃ σ a b β C D, FInv q (tris.map MeshTri.indices) J σ a b β C D) ∧
        ∀ v, Vert (tris.map MeshTri.indices) v → SeenV q (tris.map MeshTri.indices) v → Beyond q a b i j (q v) →
          ¬ 0 < cross (q k) (q v)) ∨
      ∃ J a' l', l = [J] ∧ NInv q (tris.map MeshTri.indices) J a' b k j l' ∧ 0 < cross (q k) (q j) ∧ 0 < cross (q k) (q b) ∧
        ((a' = k ∧ 0 < cross (q a) (q k)) ∨ (a' = a ∧ ¬ 0 < cross (q a) (q k)))) := by
  have hlohi := h.lohi
  have vj := h.tgt.vert
  have vk := h.tgt.rotate.rotate.vert
  have zj := vert_nz M vj
  have zk := vert_nz M vk
  have hbk_ne := h.hi_ne M
  have hjb : ¬ (0 < cross (q a) (p j - O) ∧ 0 < cross (p j - O) (q b)) := by
    rw [← hq]; intro hx; have := h.hi2; rw [cross_anti] at this; linarith [hx.2]
  rcases side_cases (O := O) M hget hside with e | ⟨n', l', hr, hne⟩
  · refine ⟨[], e, Or.inl ⟨Or.inl rfl, fun v hv hs hb hvk => ?_⟩⟩
    obtain ⟨g1, g2, g3⟩ := h.out_second M hv hb hvk
    obtain ⟨n', l', hr⟩ := exit_side M h.tgt.rotate.rotate hs g1 hvk (h.cone_second' hb.1 hb.2.1) g2
    have hne := h.not_source M (Or.inr (Or.inr hr))
    exfalso
    have := side_some (O := O) hp M hget hside hr hne
    rw [e, h.cone] at this
    dsimp only at this
    rw [orderSide_front (by rw [← hq, ← hq]; exact g1)] at this
    dsimp only at this
    rw [range_around_hi hlohi (by rw [← hq, ← hq]; exact g1) (by rw [← hq]; exact g3) (by rw [← hq]; exact h.hi2)] at this
    dsimp only at this
    by_cases hkb : 0 < cross (q a) (q k)
    · rw [nextCone_lo h.cone hlohi (by rw [← hq]; exact zk) (by rw [← hq]; exact zj)
        (by rw [← hq]; exact ⟨hkb, g3⟩) hjb] at this
      simp at this
    · rw [nextCone_same h.cone hlohi (by rw [← hq]; exact zk) (by rw [← hq]; exact zj)
        (by rw [← hq]; exact fun hx => hkb hx.1) hjb] at this
      simp at this
  · rw [side_some (O := O) hp M hget hside hr hne, h.cone]
    dsimp only
    rcases gen_pos M vk vj (h.tgt.rotate.rotate.ne M) with g | g
    · have hno : ∀ v, Vert (tris.map MeshTri.indices) v → Beyond q a b i j (q v) → ¬ 0 < cross (q k) (q v) :=
        fun v hv hb hvk => absurd (h.out_second M hv hb hvk).1 (not_lt.2 g.le)
      rw [orderSide_back (by rw [← hq, ← hq]; exact g)]
      dsimp only
      by_cases hbj : b = j
      · subst hbj
        rw [range_first (by rw [← hq]; exact hlohi.le) (by rw [← hq, cross_self])]
        dsimp only
        rw [nextCone_same h.cone hlohi (by rw [← hq]; exact zj) (by rw [← hq]; exact zk) hjb
          (by rw [← hq]; intro hx; linarith [hx.2])]
        exact ⟨_, rfl, Or.inl ⟨Or.inr ⟨_, rfl, -1, a, b, b, k, l', h.fan_second M hr g⟩, fun v hv hs hb hvk => absurd hvk (hno v hv hb)⟩⟩
      · have hlt : 0 < cross (q b) (q j) := lt_of_le_of_ne h.hi2 (M.gen b j h.vb vj hbj).symm
        have hl := left_of_cone h.front (h.apex M) g h.hi1 h.hi2
        rw [range_left (by rw [← hq, cross_anti]; linarith) (by rw [← hq, cross_anti]; linarith)]
        exact ⟨_, rfl, Or.inl ⟨Or.inl rfl, fun v hv hs hb hvk => absurd hvk (hno v hv hb)⟩⟩
    · rw [orderSide_front (by rw [← hq, ← hq]; exact g)]
      dsimp only
      rcases gen_pos M vk h.vb (Ne.symm hbk_ne) with hkb | hkb
      · have hbj : b ≠ j := by rintro rfl; linarith
        have hlt : 0 < cross (q b) (q j) := lt_of_le_of_ne h.hi2 (M.gen b j h.vb vj hbj).symm
        rw [range_left (by rw [← hq]; exact hkb) (by rw [← hq, cross_anti]; linarith)]
        exact ⟨_, rfl, Or.inl ⟨Or.inl rfl, fun v hv hs hb hvk =>
          absurd (h.out_second M hv hb hvk).2.2 (not_lt.2 hkb.le)⟩⟩
      · rw [range_around_hi hlohi (by rw [← hq, ← hq]; exact g) (by rw [← hq]; exact hkb) (by rw [← hq]; exact h.hi2)]
        dsimp only
        by_cases hak : 0 < cross (q a) (q k)
        · rw [nextCone_lo h.cone hlohi (by rw [← hq]; exact zk) (by rw [← hq]; exact zj)
            (by rw [← hq]; exact ⟨hak, hkb⟩) hjb, ← hq]
          exact ⟨_, rfl, Or.inr ⟨_, k, l', rfl, h.next_second M hr g hkb (Or.inl ⟨rfl, hak⟩), g, hkb, Or.inl ⟨rfl, hak⟩⟩⟩
        · rw [nextCone_same h.cone hlohi (by rw [← hq]; exact zk) (by rw [← hq]; exact zj)
            (by rw [← hq]; exact fun hx => hak hx.1) hjb]
          exact ⟨_, rfl, Or.inr ⟨_, a, l', rfl, h.next_second M hr g hkb (Or.inr ⟨rfl, hak⟩), g, hkb, Or.inr ⟨rfl, hak⟩⟩⟩

theorem visit_nodup (hp : PointsOf p tris) (M : VMesh q (tris.map MeshTri.indices)) {I : SearchItem} {lo hi : P2 ℝ}
    (hc : I.cone = some (lo, hi)) (h : 0 < cross lo hi) {t f : Nat × Nat × Nat}
    (ht : (tris.map MeshTri.indices)[I.target]? = some t) (hf : (tris.map MeshTri.indices)[I.source]? = some f) :
    ∃ L, searchVisit tris O I = .ok L ∧ L.Nodup ∧
    ∀ v, v ∈ L ↔ IsIdx t v ∧ ¬ IsIdx f v ∧ 0 ≤ cross lo (p v - O) ∧ 0 ≤ cross (p v - O) hi := by
  obtain ⟨L, e, hL⟩ := visit_spec hp (O := O) hc h ht hf
  refine ⟨L, e, ?_, hL⟩
  obtain ⟨T, hT, hTm, rfl⟩ := map_get ht
  obtain ⟨F, hF, hFm, rfl⟩ := map_get hf
  unfold searchVisit at e
  simp only [hT, hc, hF, Except.ok.injEq] at e
  rw [← e]
  have hr : Rot (tris.map MeshTri.indices) I.target T.i0 T.i1 T.i2 := Or.inl ht
  have h1 := hr.ne M
  have h2 := hr.rotate.ne M
  have h3 := hr.rotate.rotate.ne M
  apply List.Nodup.map_on _ (List.Nodup.filter _ (by decide))
  intro x hx y hy hxy
  have hx := List.mem_of_mem_filter hx
  have hy := List.mem_of_mem_filter hy
  simp only [List.mem_cons, List.not_mem_nil, or_false] at hx hy
  rcases hx with rfl | rfl | rfl <;> rcases hy with rfl | rfl | rfl <;> simp [triIndex, MeshTri.indices] at hxy ⊢ <;> omega

theorem NInv.visit (hp : PointsOf p tris) (hq : ∀ i, q i = p i - O) (M : VMesh q (tris.map MeshTri.indices))
    (h : NInv q (tris.map MeshTri.indices) I a b i j k) : ∃ L, searchVisit tris O I = .ok L ∧
    L.Nodup ∧ ∀ v, v ∈ L ↔ v = k ∧ 0 ≤ cross (q a) (q v) ∧ 0 ≤ cross (q v) (q b) := by
  obtain ⟨l0, hsrc⟩ := h.src
  have hk := h.apex M
  have hl := hsrc.ccw M
  obtain ⟨t, g1, -, i1, -⟩ := h.tgt.get (q := q)
  obtain ⟨f, g2, -, i2, -⟩ := hsrc.get (q := q)
  obtain ⟨L, e, hn, hL⟩ := visit_nodup hp M (O := O) h.cone h.lohi g1 g2
  refine ⟨L, e, hn, fun v => ?_⟩
  rw [hL, ← hq, i1, i2]
  constructor
  · rintro ⟨e1 | e1 | e1, e2, e3, e4⟩
    · exact absurd (Or.inr (Or.inl e1)) e2
    · exact absurd (Or.inl e1) e2
    · exact ⟨e1, e3, e4⟩
  · rintro ⟨rfl, e3, e4⟩
    refine ⟨Or.inr (Or.inr rfl), ?_, e3, e4⟩
    rintro (e | e | e)
    · exact h.tgt.rotate.ne M e.symm
    · exact h.tgt.rotate.rotate.ne M e
    · rw [← e] at hl; linarith

/-- A point in the closed cone, strictly beyond the side. -/
def CloseBy (q : Nat → P2 ℝ) (a b i j : Nat) (X : P2 ℝ) : Prop :=
  0 ≤ cross (q a) X ∧ 0 ≤ cross X (q b) ∧ area2 (q i) (q j) X < 0

/-- What the search from an item reports: vertices that are seen beyond the side, each once, and all of them in the open cone. -/
structure Good (q : Nat → P2 ℝ) (ts : List (Nat × Nat × Nat)) (a b i j : Nat) (rep : List Nat) : Prop where
  once : rep.Nodup
  sound : ∀ v ∈ rep, Vert ts v ∧ SeenV q ts v ∧ CloseBy q a b i j (q v)
  full : ∀ v, Vert ts v → SeenV q ts v → Beyond q a b i j (q v) → v ∈ rep

theorem NInv.run_first (hp : PointsOf p tris) (hq : ∀ i, q i = p i - O) (M : VMesh q (tris.map MeshTri.indices))
    (h : NInv q (tris.map MeshTri.indices) I a b i j k) {t : Nat × Nat × Nat} {s : Nat}
    (hget : (tris.map MeshTri.indices)[I.target]? = some t) (hside : HasSide t s i k)
    (ih : ∀ J a' b' i' j' k', NInv q (tris.map MeshTri.indices) J a' b' i' j' k' →
      coneRank q (tris.map MeshTri.indices) a' b' i' j' < coneRank q (tris.map MeshTri.indices) a b i j →
      ∃ rep, Runs tris O [J] rep ∧ Good q (tris.map MeshTri.indices) a' b' i' j' rep) :
    ∃ l rep, searchSide tris O I s = .ok l ∧ Runs tris O l.reverse rep ∧ rep.Nodup ∧
      (∀ v ∈ rep, Vert (tris.map MeshTri.indices) v ∧ SeenV q (tris.map MeshTri.indices) v ∧ CloseBy q a b i j (q v) ∧ area2 (q i) (q k) (q v) < 0 ∧
        0 ≤ cross (q v) (q k)) ∧
      ∀ v, Vert (tris.map MeshTri.indices) v → SeenV q (tris.map MeshTri.indices) v → Beyond q a b i j (q v) → 0 < cross (q v) (q k) → v ∈ rep := by
  obtain ⟨l, e, ⟨hl, hno⟩ | ⟨J, b', l', rfl, hN, hik, hak, hb'⟩⟩ := h.side_first hp hq M hget hside
  · refine ⟨l, [], e, ?_, List.nodup_nil, fun v hv => absurd hv List.not_mem_nil,
      fun v hv hs hb hvk => absurd hvk (hno v hv hs hb)⟩
    rcases hl with rfl | ⟨J, rfl, σ, a1, b1, β, C, D, hF⟩
    · exact runs_nil
    · exact FInv.runs hp hq M _ hF (Nat.lt_succ_self _)
  · obtain ⟨rep, hrun, hg⟩ := ih J _ _ _ _ _ hN (h.rank_first M hik hak hb')
    refine ⟨_, rep, e, hrun, hg.once, fun v hv => ?_, fun v hv hs hb hvk => hg.full v hv hs ⟨hb.1, ?_, ?_⟩⟩
    · obtain ⟨k1, k2, k3, k4, k5⟩ := hg.sound v hv
      have hvk := hN.cone_second k3 k4
      have hXb : 0 ≤ cross (q v) (q b) := by
        rcases hb' with ⟨rfl, hx⟩ | ⟨rfl, -⟩
        · have e : cross (q v) (q b) * cross (q a) (q b') =
              cross (q v) (q b') * cross (q a) (q b) + cross (q a) (q v) * cross (q b') (q b) := by simp [cross]; ring
          by_contra hc
          nlinarith [mul_pos (neg_pos.2 (not_le.1 hc)) hak, mul_nonneg k4 h.lohi.le, mul_nonneg k3 hx.le]
        · exact k4
      exact ⟨k1, k2, ⟨k3, hXb, beyond_first h.front (h.tgt.ccw M) hik (h.cone_first k3 hXb) k5⟩, k5, hvk⟩
    · rcases hb' with ⟨rfl, -⟩ | ⟨rfl, -⟩
      · exact hvk
      · exact hb.2.1
    · exact (h.out_first M hv hb hvk).2.1

theorem NInv.run_second (hp : PointsOf p tris) (hq : ∀ i, q i = p i - O) (M : VMesh q (tris.map MeshTri.indices))
    (h : NInv q (tris.map MeshTri.indices) I a b i j k) {t : Nat × Nat × Nat} {s : Nat}
    (hget : (tris.map MeshTri.indices)[I.target]? = some t) (hside : HasSide t s k j)
    (ih : ∀ J a' b' i' j' k', NInv q (tris.map MeshTri.indices) J a' b' i' j' k' →
      coneRank q (tris.map MeshTri.indices) a' b' i' j' < coneRank q (tris.map MeshTri.indices) a b i j →
      ∃ rep, Runs tris O [J] rep ∧ Good q (tris.map MeshTri.indices) a' b' i' j' rep) :
    ∃ l rep, searchSide tris O I s = .ok l ∧ Runs tris O l.reverse rep ∧ rep.Nodup ∧
      (∀ v ∈ rep, Vert (tris.map MeshTri.indices) v ∧ SeenV q (tris.map MeshTri.indices) v ∧ CloseBy q a b i j (q v) ∧ area2 (q k) (q j) (q v) < 0 ∧
        0 ≤ cross (q k) (q v)) ∧
      ∀ v, Vert (tris.map MeshTri.indices) v → SeenV q (tris.map MeshTri.indices) v → Beyond q a b i j (q v) → 0 < cross (q k) (q v) → v ∈ rep := by
  obtain ⟨l, e, ⟨hl, hno⟩ | ⟨J, a', l', rfl, hN, hkj, hkb, ha'⟩⟩ := h.side_second hp hq M hget hside
  · refine ⟨l, [], e, ?_, List.nodup_nil, fun v hv => absurd hv List.not_mem_nil,
      fun v hv hs hb hvk => absurd hvk (hno v hv hs hb)⟩
    rcases hl with rfl | ⟨J, rfl, σ, a1, b1, β, C, D, hF⟩
    · exact runs_nil
    · exact FInv.runs hp hq M _ hF (Nat.lt_succ_self _)
  · obtain ⟨rep, hrun, hg⟩ := ih J _ _ _ _ _ hN (h.rank_second M hkj hkb ha')
    refine ⟨_, rep, e, hrun, hg.once, fun v hv => ?_, fun v hv hs hb hvk => hg.full v hv hs ⟨?_, hb.2.1, ?_⟩⟩
    · obtain ⟨k1, k2, k3, k4, k5⟩ := hg.sound v hv
      have hvk := hN.cone_first k3 k4
      have hXa : 0 ≤ cross (q a) (q v) := by
        rcases ha' with ⟨rfl, hx⟩ | ⟨rfl, -⟩
        · have e : cross (q a) (q v) * cross (q a') (q b) =
              cross (q a) (q a') * cross (q v) (q b) + cross (q a) (q b) * cross (q a') (q v) := by simp [cross]; ring
          by_contra hc
          nlinarith [mul_pos (neg_pos.2 (not_le.1 hc)) hkb, mul_nonneg k3 h.lohi.le, mul_nonneg hx.le k4]
        · exact k3
      exact ⟨k1, k2, ⟨hXa, k4, beyond_second h.front (h.tgt.ccw M) hkj (h.cone_second hXa k4) k5⟩, k5, hvk⟩
    · rcases ha' with ⟨rfl, -⟩ | ⟨rfl, -⟩
      · exact hvk
      · exact hb.1
    · exact (h.out_second M hv hb hvk).2.1

theorem pushed_three {I : SearchItem} {l0 l1 l2 : List SearchItem} {r0 r1 r2 : List Nat}
    (e0 : searchSide tris O I 0 = .ok l0) (e1 : searchSide tris O I 1 = .ok l1) (e2 : searchSide tris O I 2 = .ok l2)
    (h0 : Runs tris O l0.reverse r0) (h1 : Runs tris O l1.reverse r1) (h2 : Runs tris O l2.reverse r2) :
    ∃ items, searchPushed tris O I = .ok items ∧ Runs tris O items.reverse (r2 ++ (r1 ++ r0)) := by
  refine ⟨l0 ++ l1 ++ l2, by simp only [searchPushed, e0, e1, e2], ?_⟩
  rw [List.reverse_append, List.reverse_append]
  exact runs_append h2 (runs_append h1 h0)

theorem nodup_three {r0 r1 r2 : List Nat} (h0 : r0.Nodup) (h1 : r1.Nodup) (h2 : r2.Nodup) (h01 : ∀ v ∈ r0, v ∉ r1)
    (h02 : ∀ v ∈ r0, v ∉ r2) (h12 : ∀ v ∈ r1, v ∉ r2) : (r2 ++ (r1 ++ r0)).Nodup := by
  rw [List.nodup_append, List.nodup_append]
  refine ⟨h2, ⟨h1, h0, fun x hx y hy hxy => ?_⟩, fun x hx y hy hxy => ?_⟩
  · subst hxy; exact h01 x hy hx
  · subst hxy
    rcases List.mem_append.1 hy with hy | hy
    · exact h12 x hy hx
    · exact h02 x hy hx

/-- The search of the sides of a triangle reports every vertex once. -/
theorem three_sides (ts : List (Nat × Nat × Nat)) {I : SearchItem} {n x y z : Nat} (hr : Rot ts n x y z)
    {P : Nat → Nat → List Nat → Prop}
    (h : ∀ t s u w, ts[n]? = some t → HasSide t s u w → (u = x ∧ w = y) ∨ (u = y ∧ w = z) ∨ (u = z ∧ w = x) →
      ∃ l rep, searchSide tris O I s = .ok l ∧ Runs tris O l.reverse rep ∧ rep.Nodup ∧ P u w rep)
    (hd : ∀ r r' r'', P x y r → P y z r' → P z x r'' →
      (∀ v ∈ r, v ∉ r') ∧ (∀ v ∈ r', v ∉ r'') ∧ ∀ v ∈ r'', v ∉ r) :
    ∃ items rep r r' r'', searchPushed tris O I = .ok items ∧ Runs tris O items.reverse rep ∧ rep.Nodup ∧
      P x y r ∧ P y z r' ∧ P z x r'' ∧ ∀ v, v ∈ rep ↔ v ∈ r ∨ v ∈ r' ∨ v ∈ r'' := by
  rcases hr with hr | hr | hr
  · obtain ⟨l0, r0, e0, a0, b0, c0⟩ := h _ 0 _ _ hr (Or.inl ⟨rfl, rfl, rfl⟩) (by simp)
    obtain ⟨l1, r1, e1, a1, b1, c1⟩ := h _ 1 _ _ hr (Or.inr (Or.inl ⟨rfl, rfl, rfl⟩)) (by simp)
    obtain ⟨l2, r2, e2, a2, b2, c2⟩ := h _ 2 _ _ hr (Or.inr (Or.inr ⟨rfl, rfl, rfl⟩)) (by simp)
    obtain ⟨items, ep, hrun⟩ := pushed_three e0 e1 e2 a0 a1 a2
    obtain ⟨d1, d2, d3⟩ := hd _ _ _ c0 c1 c2
    refine ⟨items, _, _, _, _, ep, hrun, nodup_three b0 b1 b2 d1 (fun v h0 h2 => d3 v h2 h0) d2, c0, c1, c2, fun v => ?_⟩
    simp only [List.mem_append]; tauto
  · obtain ⟨l0, r0, e0, a0, b0, c0⟩ := h _ 0 _ _ hr (Or.inl ⟨rfl, rfl, rfl⟩) (by simp)
    obtain ⟨l1, r1, e1, a1, b1, c1⟩ := h _ 1 _ _ hr (Or.inr (Or.inl ⟨rfl, rfl, rfl⟩)) (by simp)
    obtain ⟨l2, r2, e2, a2, b2, c2⟩ := h _ 2 _ _ hr (Or.inr (Or.inr ⟨rfl, rfl, rfl⟩)) (by simp)
    obtain ⟨items, ep, hrun⟩ := pushed_three e0 e1 e2 a0 a1 a2
    obtain ⟨d1, d2, d3⟩ := hd _ _ _ c2 c0 c1
    refine ⟨items, _, _, _, _, ep, hrun, nodup_three b0 b1 b2 d2 (fun v h0 h2 => d1 v h2 h0) d3, c2, c0, c1, fun v => ?_⟩
    simp only [List.mem_append]; tauto
  · obtain ⟨l0, r0, e0, a0, b0, c0⟩ := h _ 0 _ _ hr (Or.inl ⟨rfl, rfl, rfl⟩) (by simp)
    obtain ⟨l1, r1, e1, a1, b1, c1⟩ := h _ 1 _ _ hr (Or.inr (Or.inl ⟨rfl, rfl, rfl⟩)) (by simp)
    obtain ⟨l2, r2, e2, a2, b2, c2⟩ := h _ 2 _ _ hr (Or.inr (Or.inr ⟨rfl, rfl, rfl⟩)) (by simp)
    obtain ⟨items, ep, hrun⟩ := pushed_three e0 e1 e2 a0 a1 a2
    obtain ⟨d1, d2, d3⟩ := hd _ _ _ c1 c2 c0
    refine ⟨items, _, _, _, _, ep, hrun, nodup_three b0 b1 b2 d3 (fun v h0 h2 => d2 v h2 h0) d1, c1, c2, c0, fun v => ?_⟩
    simp only [List.mem_append]; tauto

/-- The search from an item ends; it reports vertices that are seen, and all that are seen beyond the side in the cone. -/
theorem NInv.runs (hp : PointsOf p tris) (hq : ∀ i, q i = p i - O) (M : VMesh q (tris.map MeshTri.indices)) :
    ∀ (r : Nat) {I : SearchItem} {a b i j k : Nat}, NInv q (tris.map MeshTri.indices) I a b i j k →
      coneRank q (tris.map MeshTri.indices) a b i j < r → ∃ rep, Runs tris O [I] rep ∧ Good q (tris.map MeshTri.indices) a b i j rep
  | 0, _, _, _, _, _, _, _, hr => absurd hr (Nat.not_lt_zero _)
  | r + 1, I, a, b, i, j, k, h, hr => by
    obtain ⟨l0, hsrc⟩ := h.src
    have ih : ∀ J a' b' i' j' k', NInv q (tris.map MeshTri.indices) J a' b' i' j' k' →
        coneRank q (tris.map MeshTri.indices) a' b' i' j' < coneRank q (tris.map MeshTri.indices) a b i j →
        ∃ rep, Runs tris O [J] rep ∧ Good q (tris.map MeshTri.indices) a' b' i' j' rep :=
      fun J a' b' i' j' k' hN hlt => NInv.runs hp hq M r hN (by omega)
    have hij := (h.tgt.ne M)
    have hik := h.tgt.rotate.ne M
    have hkj := h.tgt.rotate.rotate.ne M
    obtain ⟨items, rep, r1, r2, r3, ep, hrun, hnd, p1, p2, p3, hmem⟩ := three_sides (tris.map MeshTri.indices) (I := I) h.tgt
      (P := fun u w rep => (u = j → rep = []) ∧
        (u = i → (∀ v ∈ rep, Vert (tris.map MeshTri.indices) v ∧ SeenV q (tris.map MeshTri.indices) v ∧ CloseBy q a b i j (q v) ∧ area2 (q i) (q k) (q v) < 0 ∧
            0 ≤ cross (q v) (q k)) ∧
          ∀ v, Vert (tris.map MeshTri.indices) v → SeenV q (tris.map MeshTri.indices) v → Beyond q a b i j (q v) → 0 < cross (q v) (q k) → v ∈ rep) ∧
        (u = k → (∀ v ∈ rep, Vert (tris.map MeshTri.indices) v ∧ SeenV q (tris.map MeshTri.indices) v ∧ CloseBy q a b i j (q v) ∧ area2 (q k) (q j) (q v) < 0 ∧
            0 ≤ cross (q k) (q v)) ∧
          ∀ v, Vert (tris.map MeshTri.indices) v → SeenV q (tris.map MeshTri.indices) v → Beyond q a b i j (q v) → 0 < cross (q k) (q v) → v ∈ rep))
      (by
        intro t s u w hget hside hc
        rcases hc with ⟨rfl, rfl⟩ | ⟨rfl, rfl⟩ | ⟨rfl, rfl⟩
        · exact ⟨[], [], side_none hget hside fun n' l' hr => rot_unique M hr hsrc, runs_nil, List.nodup_nil,
            fun _ => rfl, fun e => absurd e hij, fun e => absurd e.symm hkj⟩
        · obtain ⟨l, rep, e, x1, x2, x3⟩ := h.run_first hp hq M hget hside ih
          exact ⟨l, rep, e, x1, x2, fun e => absurd e.symm hij, fun _ => x3, fun e => absurd e hik⟩
        · obtain ⟨l, rep, e, x1, x2, x3⟩ := h.run_second hp hq M hget hside ih
          exact ⟨l, rep, e, x1, x2, fun e => absurd e hkj, fun e => absurd e.symm hik, fun _ => x3⟩)
      (by
        rintro s1 s2 s3 ⟨d1, -, -⟩ ⟨-, d2, -⟩ ⟨-, -, d3⟩
        rw [d1 rfl]
        refine ⟨fun v hv => absurd hv List.not_mem_nil, fun v h2 h3 => ?_, fun v hv => List.not_mem_nil⟩
        obtain ⟨vv, -, -, y1, y2⟩ := (d2 rfl).1 v h2
        obtain ⟨-, -, -, -, y3⟩ := (d3 rfl).1 v h3
        by_cases hvk : v = k
        · subst hvk; simp [area2] at y1; linarith
        · have := cross_anti (q k) (q v)
          rcases gen_pos M vv h.tgt.rotate.rotate.vert hvk with g | g <;> linarith)
    have p1 := p1.1 rfl
    have p2 := p2.2.1 rfl
    have p3 := p3.2.2 rfl
    subst p1
    have hk := h.apex M
    obtain ⟨L, ev, hnL, hL⟩ := h.visit hp hq M
    refine ⟨L ++ rep, runs_item ev ep hrun, ?_, fun v hv => ?_, fun v hv hs hb => ?_⟩
    · rw [List.nodup_append]
      refine ⟨hnL, hnd, fun v hv w hw hvw => ?_⟩
      subst hvw
      obtain ⟨rfl, -⟩ := (hL v).1 hv
      rcases (hmem v).1 hw with hw | hw | hw
      · exact List.not_mem_nil hw
      · have := (p2.1 v hw).2.2.2.1
        simp [area2] at this; linarith
      · have := (p3.1 v hw).2.2.2.1
        simp [area2] at this
    · rcases List.mem_append.1 hv with hv | hv
      · obtain ⟨rfl, g1, g2⟩ := (hL v).1 hv
        exact ⟨h.tgt.rotate.rotate.vert, h.seen_apex M g1 g2, g1, g2, hk⟩
      · rcases (hmem v).1 hv with hw | hw | hw
        · exact absurd hw List.not_mem_nil
        · obtain ⟨k1, k2, k3, -⟩ := p2.1 v hw
          exact ⟨k1, k2, k3⟩
        · obtain ⟨k1, k2, k3, -⟩ := p3.1 v hw
          exact ⟨k1, k2, k3⟩
    · by_cases hvk : v = k
      · subst hvk
        exact List.mem_append_left _ ((hL v).2 ⟨rfl, hb.1.le, hb.2.1.le⟩)
      · apply List.mem_append_right
        rw [hmem]
        rcases gen_pos M hv h.tgt.rotate.rotate.vert hvk with g | g
        · exact Or.inr (Or.inr (p3.2 v hv hs hb (by rw [cross_anti]; linarith)))
        · exact Or.inr (Or.inl (p2.2 v hv hs hb g))

end

end Geometrix
