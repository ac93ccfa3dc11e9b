import Verif.Lemmas.ConvexParity
import Mathlib.Algebra.Ring.Int.Parity
import Mathlib.Data.Nat.ModEq
import Mathlib.Order.Monotone.Basic

/-!
# Angles without trigonometry, and the turning of a convex polygon

An angle is a number of the field; a half turn is 2.
-/

set_option linter.unusedSectionVars false

namespace Geometrix

open Spec

variable {K : Type*} [Field K] [LinearOrder K] [IsStrictOrderedRing K]

/-- A vector in the upper half plane, with the positive axis and without the negative axis. -/
def Upper (v : P2 K) : Prop := 0 < v.y ∨ v.y = 0 ∧ 0 < v.x

/-- A number between 0 and 2 that grows with the angle of a vector in the upper half plane. -/
def halfAngle (v : P2 K) : K := 1 - v.x / (|v.x| + v.y)

/-- A number that may serve as the angle of a vector. -/
def IsAngle (v : P2 K) (x : K) : Prop :=
  ∃ (j : ℤ) (w : P2 K), Upper w ∧ x = halfAngle w + 2 * j ∧ (Even j ∧ v = w ∨ ¬ Even j ∧ v = -w)

theorem upper_pos {v : P2 K} (h : Upper v) : 0 < |v.x| + v.y := by
  rcases h with h | ⟨h, h'⟩
  · have := abs_nonneg v.x; linarith
  · rw [h, add_zero]; exact abs_pos.2 h'.ne'

theorem halfAngle_range {v : P2 K} (h : Upper v) : 0 ≤ halfAngle v ∧ halfAngle v < 2 := by
  have hs := upper_pos h
  unfold halfAngle
  constructor
  · rw [sub_nonneg, div_le_one hs]
    have := le_abs_self v.x
    rcases h with h | ⟨h, -⟩ <;> linarith
  · have : -1 < v.x / (|v.x| + v.y) := by
      rw [lt_div_iff₀ hs]
      have := neg_abs_le v.x
      rcases h with h | ⟨h, h'⟩
      · linarith
      · rw [h, abs_of_pos h']; linarith
    linarith

theorem halfAngle_lt {u v : P2 K} (hu : Upper u) (hv : Upper v) : halfAngle u < halfAngle v ↔ 0 < cross u v := by
  have su := upper_pos hu
  have sv := upper_pos hv
  unfold halfAngle cross
  rw [sub_lt_sub_iff_left, div_lt_div_iff₀ sv su]
  have uy : 0 ≤ u.y := by rcases hu with h | ⟨h, -⟩ <;> linarith
  have vy : 0 ≤ v.y := by rcases hv with h | ⟨h, -⟩ <;> linarith
  rcases le_or_gt 0 u.x with ux | ux <;> rcases le_or_gt 0 v.x with vx | vx
  · rw [abs_of_nonneg ux, abs_of_nonneg vx]
    constructor <;> intro h <;> linarith
  · rw [abs_of_nonneg ux, abs_of_neg vx]
    have h1 : 0 < v.y := by rcases hv with h | ⟨h, h'⟩ <;> linarith
    have e1 : 0 ≤ u.x * v.y := mul_nonneg ux h1.le
    have e2 : 0 ≤ -v.x * u.y := mul_nonneg (by linarith) uy
    have e3 : 0 ≤ -v.x * u.x := mul_nonneg (by linarith) ux
    have hpos : 0 < u.x * v.y + -v.x * u.y := by
      rcases hu with h | ⟨-, h⟩
      · have := mul_pos (by linarith : 0 < -v.x) h; linarith
      · have := mul_pos h h1; linarith
    constructor <;> intro _ <;> linarith
  · rw [abs_of_neg ux, abs_of_nonneg vx]
    have h1 : 0 < u.y := by rcases hu with h | ⟨h, h'⟩ <;> linarith
    have e1 : 0 ≤ -u.x * v.y := mul_nonneg (by linarith) vy
    have e2 : 0 ≤ v.x * u.y := mul_nonneg vx uy
    have e3 : 0 ≤ v.x * -u.x := mul_nonneg vx (by linarith)
    constructor <;> intro _ <;> linarith
  · rw [abs_of_neg ux, abs_of_neg vx]
    constructor <;> intro h <;> linarith

theorem halfAngle_eq {u v : P2 K} (hu : Upper u) (hv : Upper v) : halfAngle u = halfAngle v ↔ cross u v = 0 := by
  have h1 := halfAngle_lt hu hv
  have h2 := halfAngle_lt hv hu
  have e : cross v u = -cross u v := by unfold cross; ring
  rw [e] at h2
  constructor
  · intro h
    by_contra hc
    rcases lt_or_gt_of_ne hc with h' | h'
    · have := h2.2 (by linarith); rw [h] at this; exact lt_irrefl _ this
    · have := h1.2 h'; rw [h] at this; exact lt_irrefl _ this
  · intro h
    rcases lt_trichotomy (halfAngle u) (halfAngle v) with h' | h' | h'
    · have := h1.1 h'; linarith
    · exact h'
    · have := h2.1 h'; linarith

/-- Vectors of the upper half plane in one line point in the same direction. -/
theorem upper_dot {u v : P2 K} (hu : Upper u) (hv : Upper v) (h : cross u v = 0) : 0 < dot u v := by
  unfold cross at h
  unfold dot
  rcases hu with h1 | ⟨h1, h1'⟩ <;> rcases hv with h2 | ⟨h2, h2'⟩
  · have h3 := mul_pos h1 h2
    have h4 : (u.x * v.x) * (u.y * v.y) = (u.x * v.y) * (u.x * v.y) := by
      have : u.y * v.x = u.x * v.y := by linarith
      calc (u.x * v.x) * (u.y * v.y) = (u.x * v.y) * (u.y * v.x) := by ring
        _ = _ := by rw [this]
    have h5 : 0 ≤ (u.x * v.x) * (u.y * v.y) := by rw [h4]; exact mul_self_nonneg _
    have h6 : 0 ≤ u.x * v.x := by
      by_contra hc
      push Not at hc
      have := mul_neg_of_neg_of_pos hc h3
      linarith
    linarith
  · rw [h2] at h
    have := mul_pos h1 h2'
    linarith
  · rw [h1] at h
    have := mul_pos h1' h2
    linarith
  · rw [h1, h2]
    have := mul_pos h1' h2'
    linarith

theorem cross_neg_left (u v : P2 K) : cross (-u) v = -cross u v := by
  unfold cross; simp; ring

theorem cross_neg_right (u v : P2 K) : cross u (-v) = -cross u v := by
  unfold cross; simp; ring

theorem dot_neg_fst (u v : P2 K) : dot (-u) v = -dot u v := by
  unfold dot; simp; ring

theorem dot_neg_right (u v : P2 K) : dot u (-v) = -dot u v := by
  unfold dot; simp; ring

theorem IsAngle.pos {u v : P2 K} {x y : K} (hu : IsAngle u x) (hv : IsAngle v y) (h0 : x < y) (h2 : y < x + 2) :
    0 < cross u v := by
  obtain ⟨j, w, hw, rfl, hj⟩ := hu
  obtain ⟨k, z, hz, rfl, hk⟩ := hv
  have rw1 := halfAngle_range hw
  have rz1 := halfAngle_range hz
  have c1 : (-1 : K) < ((k - j : ℤ) : K) := by push_cast; linarith
  have c2 : ((k - j : ℤ) : K) < 2 := by push_cast; linarith
  have d1 : -1 < k - j := by exact_mod_cast c1
  have d2 : k - j < 2 := by exact_mod_cast c2
  obtain h | h : k = j ∨ k = j + 1 := by omega
  · subst h
    have : 0 < cross w z := (halfAngle_lt hw hz).1 (by linarith)
    rcases hj with ⟨e, rfl⟩ | ⟨e, rfl⟩ <;> rcases hk with ⟨e', rfl⟩ | ⟨e', rfl⟩
    · exact this
    · exact absurd e e'
    · exact absurd e' e
    · rw [cross_neg_left, cross_neg_right]; linarith
  · subst h
    have : 0 < cross z w := (halfAngle_lt hz hw).1 (by push_cast at h2; linarith)
    have e0 : cross w z = -cross z w := by unfold cross; ring
    rw [Int.even_add_one] at hk
    rcases hj with ⟨e, rfl⟩ | ⟨e, rfl⟩ <;> rcases hk with ⟨e', rfl⟩ | ⟨e', rfl⟩
    · exact absurd e e'
    · rw [cross_neg_right]; linarith
    · rw [cross_neg_left]; linarith
    · exact absurd e e'

theorem IsAngle.neg {u v : P2 K} {x y : K} (hu : IsAngle u x) (hv : IsAngle v y) (h0 : y < x) (h2 : x < y + 2) :
    cross u v < 0 := by
  have := hv.pos hu h0 h2
  have e0 : cross v u = -cross u v := by unfold cross; ring
  linarith

theorem IsAngle.same {u v : P2 K} {x : K} (hu : IsAngle u x) (hv : IsAngle v x) : cross u v = 0 ∧ 0 < dot u v := by
  obtain ⟨j, w, hw, rfl, hj⟩ := hu
  obtain ⟨k, z, hz, hx, hk⟩ := hv
  have rw1 := halfAngle_range hw
  have rz1 := halfAngle_range hz
  have c1 : (-1 : K) < ((k - j : ℤ) : K) := by push_cast; linarith
  have c2 : ((k - j : ℤ) : K) < 1 := by push_cast; linarith
  have d1 : -1 < k - j := by exact_mod_cast c1
  have d2 : k - j < 1 := by exact_mod_cast c2
  obtain rfl : k = j := by omega
  have hc : cross w z = 0 := (halfAngle_eq hw hz).1 (by linarith)
  have hd := upper_dot hw hz hc
  rcases hj with ⟨e, rfl⟩ | ⟨e, rfl⟩ <;> rcases hk with ⟨e', rfl⟩ | ⟨e', rfl⟩
  · exact ⟨hc, hd⟩
  · exact absurd e e'
  · exact absurd e' e
  · rw [cross_neg_left, cross_neg_right, dot_neg_fst, dot_neg_right]
    exact ⟨by linarith, by linarith⟩

theorem IsAngle.opposite {u : P2 K} {x : K} (hu : IsAngle u x) : IsAngle (-u) (x + 2) := by
  obtain ⟨j, w, hw, rfl, hj⟩ := hu
  refine ⟨j + 1, w, hw, by push_cast; ring, ?_⟩
  rw [Int.even_add_one]
  rcases hj with ⟨e, rfl⟩ | ⟨e, rfl⟩
  · exact Or.inr ⟨not_not.2 e, rfl⟩
  · exact Or.inl ⟨e, by ext <;> simp⟩

theorem IsAngle.shift {u : P2 K} {x : K} (hu : IsAngle u x) (z : ℤ) : IsAngle u (x + 4 * z) := by
  obtain ⟨j, w, hw, rfl, hj⟩ := hu
  refine ⟨j + 2 * z, w, hw, by push_cast; ring, ?_⟩
  have : Even (j + 2 * z) ↔ Even j := by
    rw [Int.even_add]; simp
  rw [this]
  exact hj

theorem IsAngle.against {u v : P2 K} {x : K} (hu : IsAngle u x) (hv : IsAngle v (x + 2)) :
    cross u v = 0 ∧ dot u v < 0 := by
  obtain ⟨h1, h2⟩ := hu.opposite.same hv
  rw [cross_neg_left] at h1
  rw [dot_neg_fst] at h2
  exact ⟨by linarith, by linarith⟩

/-- Every vector but zero has an angle from 0 to 4; below 2 it is in the upper half plane. -/
theorem exists_angle {v : P2 K} (h : v ≠ 0) : ∃ x, IsAngle v x ∧ 0 ≤ x ∧ x < 4 ∧ (x < 2 → Upper v) ∧ (2 ≤ x → Upper (-v)) := by
  by_cases hv : Upper v
  · obtain ⟨h0, h2⟩ := halfAngle_range hv
    exact ⟨halfAngle v, ⟨0, v, hv, by simp, Or.inl ⟨by simp, rfl⟩⟩, h0, by linarith, fun _ => hv, fun h => by linarith⟩
  · have hn : Upper (-v) := by
      unfold Upper at hv ⊢
      push Not at hv
      rcases lt_or_eq_of_le hv.1 with h1 | h1
      · left; simpa using h1
      · right
        have h2 := hv.2 h1
        refine ⟨by simp [h1], ?_⟩
        rcases lt_or_eq_of_le h2 with h3 | h3
        · simpa using h3
        · exact absurd (by ext <;> simp [h1, h3]) h
    obtain ⟨h0, h2⟩ := halfAngle_range hn
    refine ⟨halfAngle (-v) + 2, ⟨1, -v, hn, by simp, Or.inr ⟨by simp, by ext <;> simp⟩⟩, by linarith, by linarith,
      fun h => by linarith, fun _ => hn⟩

theorem upper_combo {u v : P2 K} (hu : Upper u) (hv : Upper v) {s t : K} (hs : 0 ≤ s) (ht : 0 ≤ t) (hst : 0 < s + t) :
    Upper (s • u + t • v) := by
  unfold Upper at *
  simp only [P2.add_x, P2.add_y, P2.smul_x, P2.smul_y]
  rcases hs.eq_or_lt with rfl | hs
  · have ht : 0 < t := by linarith
    simp only [zero_mul, zero_add]
    rcases hv with h | ⟨h, h'⟩
    · exact Or.inl (mul_pos ht h)
    · exact Or.inr ⟨by rw [h, mul_zero], mul_pos ht h'⟩
  · rcases ht.eq_or_lt with rfl | ht
    · simp only [zero_mul, add_zero]
      rcases hu with h | ⟨h, h'⟩
      · exact Or.inl (mul_pos hs h)
      · exact Or.inr ⟨by rw [h, mul_zero], mul_pos hs h'⟩
    · rcases hu with h | ⟨h, h'⟩ <;> rcases hv with g | ⟨g, g'⟩
      · exact Or.inl (add_pos (mul_pos hs h) (mul_pos ht g))
      · left; rw [g, mul_zero, add_zero]; exact mul_pos hs h
      · left; rw [h, mul_zero, zero_add]; exact mul_pos ht g
      · right
        rw [h, g]
        exact ⟨by simp, add_pos (mul_pos hs h') (mul_pos ht g')⟩

/-- The `k`-th vertex of a polygon, counted around it from the last one. -/
def vertexAt (p : List (P2 K)) (k : Nat) : P2 K := (p[(k + p.length - 1) % p.length]?).getD 0

/-- The `k`-th side, as a vector. -/
def sideVec (p : List (P2 K)) (k : Nat) : P2 K := vertexAt p (k + 1) - vertexAt p k

theorem vertexAt_get {p : List (P2 K)} (np : 0 < p.length) (k : Nat) :
    p[(k + p.length - 1) % p.length]? = some (vertexAt p k) := by
  unfold vertexAt
  rw [List.getElem?_eq_getElem (Nat.mod_lt _ np)]
  rfl

theorem vertexAt_edge {p : List (P2 K)} (np : 0 < p.length) (k : Nat) :
    IsPolygonEdge p ((k + p.length - 1) % p.length) (vertexAt p k) (vertexAt p (k + 1)) := by
  refine ⟨vertexAt_get np k, ?_⟩
  rw [← vertexAt_get np (k + 1), Nat.mod_add_mod]
  congr 2
  omega

theorem vertexAt_mem {p : List (P2 K)} (np : 0 < p.length) (k : Nat) : vertexAt p k ∈ p :=
  List.mem_of_getElem? (vertexAt_get np k)

theorem vertexAt_period {p : List (P2 K)} (np : 0 < p.length) (k : Nat) : vertexAt p (k + p.length) = vertexAt p k := by
  unfold vertexAt
  rw [show k + p.length + p.length - 1 = k + p.length - 1 + p.length by omega, Nat.add_mod_right]

theorem vertexAt_side {p : List (P2 K)} (np : 0 < p.length) (k : Nat) : (vertexAt p k, vertexAt p (k + 1)) ∈ sides p :=
  (mem_sides_iff p _).2 ⟨_, vertexAt_edge np k⟩

/-- The vertices of a strictly convex polygon are different. -/
theorem convex_inj {p : List (P2 K)} (np : 2 < p.length) (hp : StrictlyConvex p) {i j : Nat} {a : P2 K}
    (hi : p[i]? = some a) (hj : p[j]? = some a) : i = j := by
  have key : ∀ i j : Nat, i < j → p[i]? = some a → p[j]? = some a → False := by
    intro i j hij hi hj
    have hjl : j < p.length := (List.getElem?_eq_some_iff.1 hj).1
    rcases Nat.lt_or_ge (j + 1) p.length with h | h
    · have := hp i j (j + 1) a a _ hij (by omega) hi hj (List.getElem?_eq_getElem h)
      unfold area2 at this
      simp at this
    · rcases Nat.eq_zero_or_pos i with rfl | h0
      · have := hp 0 1 j a _ a (by omega) (by omega) hi (List.getElem?_eq_getElem (by omega)) hj
        unfold area2 at this
        simp at this
      · have := hp 0 i j _ a a h0 hij (List.getElem?_eq_getElem (by omega)) hi hj
        unfold area2 at this
        have e : ∀ b : P2 K, (a.x - b.x) * (a.y - b.y) - (a.y - b.y) * (a.x - b.x) = 0 := fun b => by ring
        rw [e] at this
        exact lt_irrefl _ this
  rcases Nat.lt_trichotomy i j with h | h | h
  · exact (key i j h hi hj).elim
  · exact h
  · exact (key j i h hj hi).elim

theorem vertexAt_inj {p : List (P2 K)} (np : 2 < p.length) (hp : StrictlyConvex p) {i j : Nat} (h : vertexAt p i = vertexAt p j) :
    i % p.length = j % p.length := by
  have h1 := vertexAt_get (p := p) (by omega) i
  have h2 := vertexAt_get (p := p) (by omega) j
  rw [h] at h1
  have h3 := convex_inj np hp h1 h2
  have h4 := congrArg (fun x => (x + 1) % p.length) h3
  simp only [Nat.mod_add_mod] at h4
  rw [show i + p.length - 1 + 1 = i + p.length by omega, show j + p.length - 1 + 1 = j + p.length by omega,
    Nat.add_mod_right, Nat.add_mod_right] at h4
  exact h4

theorem area2_cross (A B C : P2 K) : area2 A B C = cross (B - A) (C - B) := by
  unfold area2 cross
  simp only [P2.sub_x, P2.sub_y]
  ring

theorem side_turn {p : List (P2 K)} (np : 2 < p.length) (hp : StrictlyConvex p) (k : Nat) :
    0 < cross (sideVec p k) (sideVec p (k + 1)) := by
  have h0 : 0 < p.length := by omega
  have h := convex_vertex_strict hp (vertexAt_edge h0 k) (vertexAt_get h0 (k + 1 + 1))
  have hmod : ∀ a b : Nat, a < p.length → b < p.length → a ≠ b → (k + p.length - 1 + a) % p.length ≠ (k + p.length - 1 + b) % p.length := by
    intro a b ha hb hab h
    have := Nat.ModEq.add_left_cancel' (k + p.length - 1) h
    rw [Nat.ModEq, Nat.mod_eq_of_lt ha, Nat.mod_eq_of_lt hb] at this
    exact hab this
  have e2 : k + 1 + 1 + p.length - 1 = k + p.length - 1 + 2 := by omega
  rw [e2] at h
  have := h (by simpa using hmod 2 0 (by omega) (by omega) (by omega))
    (by rw [Nat.mod_add_mod]; exact hmod 2 1 (by omega) (by omega) (by omega))
  rw [area2_cross] at this
  exact this

theorem sideVec_ne {p : List (P2 K)} (np : 2 < p.length) (hp : StrictlyConvex p) (k : Nat) : sideVec p k ≠ 0 := by
  intro h
  have := side_turn np hp k
  rw [h] at this
  unfold cross at this
  simp at this

theorem sideVec_period {p : List (P2 K)} (np : 0 < p.length) (k : Nat) : sideVec p (k + p.length) = sideVec p k := by
  unfold sideVec
  rw [show k + p.length + 1 = k + 1 + p.length by omega, vertexAt_period np, vertexAt_period np]

/-- Two turns to the left around a vertex between a falling and a rising side: the vertex is the lowest. -/
theorem lowest_vertex {p : List (P2 K)} (np : 2 < p.length) (hp : StrictlyConvex p) {k : Nat}
    (h1 : Upper (-sideVec p k)) (h2 : Upper (sideVec p (k + 1))) {w : P2 K} (hw : w ∈ p) (hne : w ≠ vertexAt p (k + 1)) :
    Upper (w - vertexAt p (k + 1)) := by
  have h0 : 0 < p.length := by omega
  have hD := side_turn np hp k
  have c1 := convex_vertex hp (vertexAt_side h0 k) hw
  have c2 := convex_vertex hp (vertexAt_side h0 (k + 1)) hw
  simp only at c1 c2
  have e1 : area2 (vertexAt p k) (vertexAt p (k + 1)) w = cross (sideVec p k) (w - vertexAt p (k + 1)) := area2_cross _ _ _
  have e2 : area2 (vertexAt p (k + 1)) (vertexAt p (k + 1 + 1)) w = cross (sideVec p (k + 1)) (w - vertexAt p (k + 1)) := by
    unfold area2 cross sideVec
    simp only [P2.sub_x, P2.sub_y]
  rw [e1] at c1
  rw [e2] at c2
  set E := sideVec p k with hE
  set E' := sideVec p (k + 1) with hE'
  set d := w - vertexAt p (k + 1) with hd
  have hcom : d = (cross E d / cross E E') • E' + (cross E' d / cross E E') • (-E) := by
    have hD' := hD.ne'
    ext
    · simp only [P2.add_x, P2.smul_x, P2.neg_x]
      field_simp
      unfold cross
      ring
    · simp only [P2.add_y, P2.smul_y, P2.neg_y]
      field_simp
      unfold cross
      ring
  have s0 : 0 ≤ cross E d / cross E E' := div_nonneg c1 hD.le
  have t0 : 0 ≤ cross E' d / cross E E' := div_nonneg c2 hD.le
  rw [hcom]
  refine upper_combo h2 h1 s0 t0 ?_
  rcases (add_nonneg s0 t0).eq_or_lt with h | h
  · exfalso
    have hs : cross E d / cross E E' = 0 := by linarith
    have ht : cross E' d / cross E E' = 0 := by linarith
    rw [hs, ht] at hcom
    apply hne
    have hd0 : d = 0 := by rw [hcom]; ext <;> simp
    rw [hd0] at hd
    have hx := congrArg P2.x hd
    have hy := congrArg P2.y hd
    simp at hx hy
    ext <;> linarith
  · exact h

theorem turn_cases {u v : P2 K} {x y : K} (hu : IsAngle u x) (hv : IsAngle v y) (x0 : 0 ≤ x) (x4 : x < 4) (y0 : 0 ≤ y)
    (y4 : y < 4) (h : 0 < cross u v) : x < y ∧ y < x + 2 ∨ y < x ∧ y + 4 < x + 2 := by
  rcases lt_trichotomy x y with h1 | h1 | h1
  · left
    refine ⟨h1, ?_⟩
    by_contra hc
    push Not at hc
    rcases hc.eq_or_lt with h2 | h2
    · rw [← h2] at hv
      have := (hu.against hv).1
      linarith
    · have hu' := hu.shift 1
      have := hu'.neg hv (by push_cast; linarith) (by push_cast; linarith)
      linarith
  · rw [← h1] at hv
    have := (hu.same hv).1
    linarith
  · right
    refine ⟨h1, ?_⟩
    by_contra hc
    push Not at hc
    rcases (by linarith : x ≤ y + 2).eq_or_lt with h2 | h2
    · rw [h2] at hu
      have := (hv.against hu).1
      have e0 : cross v u = -cross u v := by unfold cross; ring
      linarith
    · have := hu.neg hv h1 h2
      linarith

/-- Angles of the sides of a polygon that grow around it, by less than a half turn at each vertex and by one full
turn in all. -/
structure Turning (p : List (P2 K)) (θ : Nat → K) : Prop where
  ang : ∀ k, IsAngle (sideVec p k) (θ k)
  up : ∀ k, θ k < θ (k + 1)
  step : ∀ k, θ (k + 1) < θ k + 2
  period : ∀ k, θ (k + p.length) = θ k + 4

theorem exists_turning {p : List (P2 K)} (np : 2 < p.length) (hp : StrictlyConvex p) :
    ∃ θ, Turning p θ ∧ 0 ≤ θ 0 ∧ θ 0 < 4 := by
  classical
  have h0 : 0 < p.length := by omega
  have hex : ∀ v : P2 K, ∃ x, v ≠ 0 → IsAngle v x ∧ 0 ≤ x ∧ x < 4 ∧ (x < 2 → Upper v) ∧ (2 ≤ x → Upper (-v)) := by
    intro v
    by_cases h : v = 0
    · exact ⟨0, fun h' => absurd h h'⟩
    · obtain ⟨x, hx⟩ := exists_angle h
      exact ⟨x, fun _ => hx⟩
  choose ang hang using hex
  have hα : ∀ k, IsAngle (sideVec p k) (ang (sideVec p k)) ∧ 0 ≤ ang (sideVec p k) ∧ ang (sideVec p k) < 4 ∧
      (ang (sideVec p k) < 2 → Upper (sideVec p k)) ∧ (2 ≤ ang (sideVec p k) → Upper (-sideVec p k)) :=
    fun k => hang _ (sideVec_ne np hp k)
  have hper : ∀ k, ang (sideVec p (k + p.length)) = ang (sideVec p k) := fun k => by rw [sideVec_period h0]
  generalize hα' : (fun k => ang (sideVec p k)) = α at *
  have hc : ∀ k, α k = ang (sideVec p k) := fun k => by rw [← hα']
  simp only [← hc] at hα hper
  have hstep : ∀ k, α k < α (k + 1) ∧ α (k + 1) < α k + 2 ∨ α (k + 1) < α k ∧ α (k + 1) + 4 < α k + 2 := fun k =>
    turn_cases (hα k).1 (hα (k + 1)).1 (hα k).2.1 (hα k).2.2.1 (hα (k + 1)).2.1 (hα (k + 1)).2.2.1 (side_turn np hp k)
  -- the angle falls at one place
  have hwrap : ∃ s, s < p.length ∧ α (s + 1) < α s := by
    by_contra hcon
    push Not at hcon
    have hmono : ∀ k, k ≤ p.length → 0 < k → α 0 < α k := by
      intro k
      induction k with
      | zero => intro _ h; exact absurd h (lt_irrefl _)
      | succ k ih =>
        intro hk _
        have h1 : α k < α (k + 1) := by
          rcases hstep k with h | h
          · exact h.1
          · exact absurd h.1 (not_lt.2 (hcon k (by omega)))
        rcases Nat.eq_zero_or_pos k with rfl | h2
        · exact h1
        · exact (ih (by omega) h2).trans h1
    have := hmono p.length le_rfl h0
    have h2 := hper 0
    rw [zero_add] at h2
    rw [h2] at this
    exact lt_irrefl _ this
  have hlow : ∀ k, α (k + 1) < α k → Upper (-sideVec p k) ∧ Upper (sideVec p (k + 1)) := by
    intro k hk
    rcases hstep k with h | h
    · exact absurd hk (not_lt.2 h.1.le)
    · have h1 := (hα (k + 1)).2.1
      have h2 := (hα k).2.2.1
      exact ⟨(hα k).2.2.2.2 (by linarith), (hα (k + 1)).2.2.2.1 (by linarith)⟩
  obtain ⟨s, hs, hsw⟩ := hwrap
  have huniq : ∀ k, α (k + 1) < α k → k % p.length = s := by
    intro k hk
    have a1 := hlow k hk
    have a2 := hlow s hsw
    have hv : vertexAt p (k + 1) = vertexAt p (s + 1) := by
      by_contra hne
      have b1 := lowest_vertex np hp a1.1 a1.2 (vertexAt_mem h0 (s + 1)) (Ne.symm hne)
      have b2 := lowest_vertex np hp a2.1 a2.2 (vertexAt_mem h0 (k + 1)) hne
      unfold Upper at b1 b2
      simp only [P2.sub_x, P2.sub_y] at b1 b2
      rcases b1 with b1 | b1 <;> rcases b2 with b2 | b2 <;> linarith
    have := vertexAt_inj np hp hv
    have h3 : k ≡ s [MOD p.length] := Nat.ModEq.add_right_cancel' 1 this
    rw [Nat.ModEq, Nat.mod_eq_of_lt hs] at h3
    exact h3
  have hconv : ∀ k, k % p.length = s → α (k + 1) < α k := by
    intro k hk
    have hk2 : ∀ t r, α (r + p.length * t) = α r := by
      intro t
      induction t with
      | zero => intro r; simp
      | succ t ih => intro r; rw [Nat.mul_succ, ← add_assoc, hper, ih]
    have e := Nat.mod_add_div k p.length
    rw [hk] at e
    rw [← e, hk2, show s + p.length * (k / p.length) + 1 = s + 1 + p.length * (k / p.length) by omega, hk2]
    exact hsw
  let W : Nat → Nat := fun k => (k + (p.length - 1 - s)) / p.length
  have hW : ∀ k, W (k + 1) = W k + if k % p.length = s then 1 else 0 := by
    intro k
    show (k + 1 + (p.length - 1 - s)) / p.length = (k + (p.length - 1 - s)) / p.length + _
    rw [show k + 1 + (p.length - 1 - s) = k + (p.length - 1 - s) + 1 by omega, Nat.succ_div]
    congr 1
    have : p.length ∣ k + (p.length - 1 - s) + 1 ↔ k % p.length = s := by
      have e : k + (p.length - 1 - s) + 1 = k + (p.length - s) := by omega
      have h1 := Nat.mod_add_div k p.length
      have hlt := Nat.mod_lt k h0
      rw [e, ← h1, show k % p.length + p.length * (k / p.length) + (p.length - s) =
        p.length * (k / p.length) + (k % p.length + (p.length - s)) by omega, Nat.dvd_add_right ⟨_, rfl⟩]
      rw [Nat.add_mul_mod_self_left, Nat.mod_mod]
      constructor
      · rintro ⟨c, hcc⟩
        have hc1 : c = 1 := by
          rcases Nat.lt_or_ge c 1 with h | h
          · have : c = 0 := by omega
            subst this; omega
          · rcases Nat.lt_or_ge 1 c with h' | h'
            · have : p.length * 2 ≤ p.length * c := Nat.mul_le_mul_left _ h'
              omega
            · omega
        subst hc1
        omega
      · intro h
        exact ⟨1, by omega⟩
    simp only [this]
  refine ⟨fun k => α k + 4 * (W k : K), ⟨?_, ?_, ?_, ?_⟩, ?_, ?_⟩
  · intro k
    have := (hα k).1.shift (W k)
    push_cast at this
    exact this
  · intro k
    show α k + 4 * (W k : K) < α (k + 1) + 4 * (W (k + 1) : K)
    rw [hW]
    by_cases h : k % p.length = s
    · rw [if_pos h]
      have := (hα k).2.2.1
      have h2 := (hα (k + 1)).2.1
      push_cast
      linarith
    · rw [if_neg h]
      rcases hstep k with g | g
      · push_cast; linarith [g.1]
      · exact absurd (huniq k g.1) h
  · intro k
    show α (k + 1) + 4 * (W (k + 1) : K) < α k + 4 * (W k : K) + 2
    rw [hW]
    by_cases h : k % p.length = s
    · rw [if_pos h]
      have h1 := hconv k h
      rcases hstep k with g | g
      · exact absurd h1 (not_lt.2 g.1.le)
      · push_cast; linarith [g.2]
    · rw [if_neg h]
      rcases hstep k with g | g
      · push_cast; linarith [g.2]
      · exact absurd (huniq k g.1) h
  · intro k
    show α (k + p.length) + 4 * (W (k + p.length) : K) = α k + 4 * (W k : K) + 4
    rw [hper]
    have : W (k + p.length) = W k + 1 := by
      show (k + p.length + (p.length - 1 - s)) / p.length = (k + (p.length - 1 - s)) / p.length + 1
      rw [show k + p.length + (p.length - 1 - s) = k + (p.length - 1 - s) + p.length by omega, Nat.add_div_right _ h0]
    rw [this]
    push_cast
    ring
  all_goals
    have : W 0 = 0 := by
      show (0 + (p.length - 1 - s)) / p.length = 0
      exact Nat.div_eq_of_lt (by omega)
    simp only [this, Nat.cast_zero, mul_zero, add_zero]
  · exact (hα 0).2.1
  · exact (hα 0).2.2.1

theorem Turning.shift {p : List (P2 K)} {θ : Nat → K} (h : Turning p θ) (z : ℤ) :
    Turning p (fun k => θ k + 4 * (z : K)) :=
  ⟨fun k => (h.ang k).shift z, fun k => by have := h.up k; linarith, fun k => by have := h.step k; linarith,
    fun k => by have := h.period k; linarith⟩

theorem Turning.mono {p : List (P2 K)} {θ : Nat → K} (h : Turning p θ) : StrictMono θ :=
  strictMono_nat_of_lt_succ h.up

end Geometrix
