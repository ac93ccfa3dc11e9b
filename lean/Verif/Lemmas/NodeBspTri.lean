import Verif.Lemmas.NodeBspLocate
import Verif.Lemmas.SolidBspRect

/-!
# Triangles as borders
-/

set_option linter.unusedSectionVars false

namespace Geometrix
open Spec

variable {K : Type*} [Field K] [LinearOrder K] [IsStrictOrderedRing K]

theorem area2_sum (a b c q : P2 K) : area2 a b q + area2 b c q + area2 c a q = area2 a b c := by
  simp only [area2]; ring

/-- A point of the line through a side of a triangle which is not outside the other two sides. -/
theorem tri_side {a b c q : P2 K} (h : 0 < area2 a b c) (h0 : area2 a b q = 0) (h1 : 0 ≤ area2 b c q)
    (h2 : 0 ≤ area2 c a q) : OnSegment a b q := by
  have hs := area2_sum a b c q
  refine ⟨area2 c a q / area2 a b c, div_nonneg h2 h.le, (div_le_one h).2 (by linarith), ?_⟩
  ext
  · simp only [P2.add_x, P2.smul_x, P2.sub_x]
    rw [div_mul_eq_mul_div, ← sub_eq_iff_eq_add', eq_div_iff h.ne']
    simp only [area2] at *
    linear_combination (c.x - a.x) * h0
  · simp only [P2.add_y, P2.smul_y, P2.sub_y]
    rw [div_mul_eq_mul_div, ← sub_eq_iff_eq_add', eq_div_iff h.ne']
    simp only [area2] at *
    linear_combination (c.y - a.y) * h0

theorem area2_rot (a b c : P2 K) : area2 b c a = area2 a b c := by simp only [area2]; ring

theorem side_nonneg {a b c q : P2 K} (h : 0 < area2 a b c) (hq : OnSegment a b q) :
    area2 a b q = 0 ∧ 0 ≤ area2 b c q ∧ 0 ≤ area2 c a q := by
  obtain ⟨t, t0, t1, rfl⟩ := hq
  have e1 : area2 a b (a + t • (b - a)) = 0 := by
    simp only [area2, P2.add_x, P2.add_y, P2.smul_x, P2.smul_y, P2.sub_x, P2.sub_y]; ring
  have e2 : area2 b c (a + t • (b - a)) = (1 - t) * area2 a b c := by
    simp only [area2, P2.add_x, P2.add_y, P2.smul_x, P2.smul_y, P2.sub_x, P2.sub_y]; ring
  have e3 : area2 c a (a + t • (b - a)) = t * area2 a b c := by
    simp only [area2, P2.add_x, P2.add_y, P2.smul_x, P2.smul_y, P2.sub_x, P2.sub_y]; ring
  rw [e1, e2, e3]
  exact ⟨rfl, mul_nonneg (sub_nonneg.2 t1) h.le, mul_nonneg t0 h.le⟩

theorem onBorder_tri {a b c : P2 K} (h : 0 < area2 a b c) (q : P2 K) :
    OnBorder (triSides a b c) q ↔ (0 ≤ area2 a b q ∧ 0 ≤ area2 b c q ∧ 0 ≤ area2 c a q) ∧
      (area2 a b q = 0 ∨ area2 b c q = 0 ∨ area2 c a q = 0) := by
  have h' : 0 < area2 b c a := by rw [area2_rot]; exact h
  have h'' : 0 < area2 c a b := by rw [area2_rot, area2_rot]; exact h
  constructor
  · rintro ⟨s, hs, hq⟩
    simp only [triSides, List.mem_cons, List.not_mem_nil, or_false] at hs
    rcases hs with rfl | rfl | rfl
    · obtain ⟨k1, k2, k3⟩ := side_nonneg h hq
      exact ⟨⟨k1.ge, k2, k3⟩, Or.inl k1⟩
    · obtain ⟨k1, k2, k3⟩ := side_nonneg h' hq
      exact ⟨⟨k3, k1.ge, k2⟩, Or.inr (Or.inl k1)⟩
    · obtain ⟨k1, k2, k3⟩ := side_nonneg h'' hq
      exact ⟨⟨k2, k3, k1.ge⟩, Or.inr (Or.inr k1)⟩
  · rintro ⟨⟨k1, k2, k3⟩, k | k | k⟩
    · exact ⟨(a, b), by simp [triSides], tri_side h k k2 k3⟩
    · exact ⟨(b, c), by simp [triSides], tri_side h' k k3 k1⟩
    · exact ⟨(c, a), by simp [triSides], tri_side h'' k k1 k2⟩

theorem area2_line (a b p q : P2 K) (t : K) :
    area2 a b (p + t • (q - p)) = area2 a b p + t * (area2 a b q - area2 a b p) := by
  simp only [area2, P2.add_x, P2.add_y, P2.smul_x, P2.smul_y, P2.sub_x, P2.sub_y]; ring

theorem tri_leave {a b c : P2 K} (h : 0 < area2 a b c) {p q : P2 K}
    (hw : ∀ t : K, 0 ≤ t → t ≤ 1 → ¬OnBorder (triSides a b c) (p + t • (q - p))) (hp : InTri a b c p) : InTri a b c q := by
  obtain ⟨p1, p2, p3⟩ := hp
  by_contra hq
  obtain ⟨t, t0, t1, h1, h2⟩ := first_zero
    [(area2 a b p, area2 a b q), (area2 b c p, area2 b c q), (area2 c a p, area2 c a q)]
    (by simpa using ⟨p1, p2, p3⟩) (by
      by_contra hn
      apply hq
      simp only [List.mem_cons, List.not_mem_nil, or_false, exists_eq_or_imp, exists_eq_left, not_or, not_le] at hn
      exact ⟨hn.1, hn.2.1, hn.2.2⟩)
  apply hw t t0.le t1
  rw [onBorder_tri h, area2_line, area2_line, area2_line]
  simp only [List.mem_cons, List.not_mem_nil, or_false, forall_eq_or_imp, forall_eq, exists_eq_or_imp, exists_eq_left] at h1 h2
  exact ⟨h1, h2⟩

/-- One point next to the middle of a side, to its left or to its right. -/
theorem tri_beside {a b c x : P2 K} (h : 0 < area2 a b c) (hx : InsideSegment a b x) {δ : K} (hδ : 0 < δ) :
    ∃ e : K, 0 < e ∧ e < δ ∧ (0 < area2 a b (x + e • toLeft (a, b)) ∧ 0 < area2 b c (x + e • toLeft (a, b)) ∧
      0 < area2 c a (x + e • toLeft (a, b))) := by
  have hab : a ≠ b := by rintro rfl; simp [area2] at h
  obtain ⟨t, t0, t1, rfl⟩ := hx
  set x := a + t • (b - a) with hx
  have e1 : area2 a b x = 0 := by
    simp only [hx, area2, P2.add_x, P2.add_y, P2.smul_x, P2.smul_y, P2.sub_x, P2.sub_y]; ring
  have e2 : 0 < area2 b c x := by
    have : area2 b c x = (1 - t) * area2 a b c := by
      simp only [hx, area2, P2.add_x, P2.add_y, P2.smul_x, P2.smul_y, P2.sub_x, P2.sub_y]; ring
    rw [this]; exact mul_pos (sub_pos.2 t1) h
  have e3 : 0 < area2 c a x := by
    have : area2 c a x = t * area2 a b c := by
      simp only [hx, area2, P2.add_x, P2.add_y, P2.smul_x, P2.smul_y, P2.sub_x, P2.sub_y]; ring
    rw [this]; exact mul_pos t0 h
  obtain ⟨μ, hμ, hst⟩ := small_step x (toLeft (a, b)) [(linePlane (b, c), true), (linePlane (c, a), true)]
  obtain ⟨e, h0, h1⟩ := exists_between (lt_min hδ hμ)
  have hs := hst e h0 (lt_of_lt_of_le h1 (min_le_right _ _))
  simp only [List.mem_cons, List.not_mem_nil, or_false, forall_eq_or_imp, forall_eq, halfDist, if_true, linePlane_dist] at hs
  refine ⟨e, h0, lt_of_lt_of_le h1 (min_le_left _ _), ?_, hs.1 e2, hs.2 e3⟩
  have := area2_step (a, b) x (toLeft (a, b)) e
  rw [this, e1]
  have := mul_pos h0 (toLeft_pos (s := (a, b)) hab)
  linarith

theorem area2_right {a b x : P2 K} (hab : a ≠ b) (hx : InsideSegment a b x) {e : K} (he : 0 < e) :
    area2 a b (x - e • toLeft (a, b)) < 0 := by
  obtain ⟨t, t0, t1, rfl⟩ := hx
  have hL := mul_pos he (toLeft_pos (s := (a, b)) hab)
  have : area2 a b (a + t • (b - a) - e • toLeft (a, b)) = -(e * dot (toLeft (a, b)) (toLeft (a, b))) := by
    simp only [area2, dot, toLeft, P2.add_x, P2.add_y, P2.smul_x, P2.smul_y, P2.sub_x, P2.sub_y]; ring
  linarith

theorem leftBorderOf_tri {a b c : P2 K} (h : 0 < area2 a b c) : LeftBorderOf (triSides a b c) (InTri a b c) := by
  have h' : 0 < area2 b c a := by rw [area2_rot]; exact h
  have h'' : 0 < area2 c a b := by rw [area2_rot, area2_rot]; exact h
  have ne : ∀ {a b c : P2 K}, 0 < area2 a b c → a ≠ b := by rintro a b c h rfl; simp [area2] at h
  refine ⟨fun p q hw => not_congr ⟨tri_leave h hw, tri_leave h fun t t0 t1 => ?_⟩, ?_, ?_⟩
  · have := hw (1 - t) (by linarith) (by linarith)
    have e : q + t • (p - q) = p + (1 - t) • (q - p) := by
      ext <;> simp only [P2.add_x, P2.add_y, P2.smul_x, P2.smul_y, P2.sub_x, P2.sub_y] <;> ring
    rwa [e]
  · intro s hs x hx δ hδ
    obtain ⟨e, h0, h1⟩ := exists_between hδ
    refine ⟨e, h0, h1, ?_⟩
    rw [onBorder_tri h]
    unfold InTri
    simp only [triSides, List.mem_cons, List.not_mem_nil, or_false] at hs
    rcases hs with rfl | rfl | rfl
    · have := area2_right (ne h) hx h0
      exact ⟨fun k => absurd k.1.1 (not_le.2 this), fun k => absurd k.1 (not_lt.2 this.le)⟩
    · have := area2_right (ne h') hx h0
      exact ⟨fun k => absurd k.1.2.1 (not_le.2 this), fun k => absurd k.2.1 (not_lt.2 this.le)⟩
    · have := area2_right (ne h'') hx h0
      exact ⟨fun k => absurd k.1.2.2 (not_le.2 this), fun k => absurd k.2.2 (not_lt.2 this.le)⟩
  · intro s hs x hx δ hδ
    have key : ∀ q, InTri a b c q → ¬OnBorder (triSides a b c) q ∧ ¬¬InTri a b c q := by
      intro q hq
      rw [onBorder_tri h]
      refine ⟨fun k => ?_, not_not.2 hq⟩
      obtain ⟨q1, q2, q3⟩ := hq
      rcases k.2 with k | k | k
      · exact q1.ne' k
      · exact q2.ne' k
      · exact q3.ne' k
    simp only [triSides, List.mem_cons, List.not_mem_nil, or_false] at hs
    rcases hs with rfl | rfl | rfl
    · obtain ⟨e, h0, h1, k1, k2, k3⟩ := tri_beside h hx hδ
      exact ⟨e, h0, h1, key _ ⟨k1, k2, k3⟩⟩
    · obtain ⟨e, h0, h1, k1, k2, k3⟩ := tri_beside h' hx hδ
      exact ⟨e, h0, h1, key _ ⟨k3, k1, k2⟩⟩
    · obtain ⟨e, h0, h1, k1, k2, k3⟩ := tri_beside h'' hx hδ
      exact ⟨e, h0, h1, key _ ⟨k2, k3, k1⟩⟩

/-- The sides turned round. -/
def turnSides (l : List (P2 K × P2 K)) : List (P2 K × P2 K) := l.map fun s => (s.2, s.1)

theorem onSegment_turn (a b q : P2 K) : OnSegment b a q ↔ OnSegment a b q := by
  constructor <;>
  · rintro ⟨t, t0, t1, rfl⟩
    refine ⟨1 - t, by linarith, by linarith, ?_⟩
    ext <;> simp only [P2.add_x, P2.add_y, P2.smul_x, P2.smul_y, P2.sub_x, P2.sub_y] <;> ring

theorem insideSegment_turn {a b q : P2 K} (h : InsideSegment b a q) : InsideSegment a b q := by
  obtain ⟨t, t0, t1, rfl⟩ := h
  refine ⟨1 - t, by linarith, by linarith, ?_⟩
  ext <;> simp only [P2.add_x, P2.add_y, P2.smul_x, P2.smul_y, P2.sub_x, P2.sub_y] <;> ring

theorem onBorder_turn (l : List (P2 K × P2 K)) (q : P2 K) : OnBorder (turnSides l) q ↔ OnBorder l q := by
  constructor
  · rintro ⟨s, hs, hq⟩
    obtain ⟨s', hs', rfl⟩ := List.mem_map.1 hs
    exact ⟨s', hs', (onSegment_turn _ _ _).1 hq⟩
  · rintro ⟨s, hs, hq⟩
    exact ⟨(s.2, s.1), List.mem_map.2 ⟨s, hs, rfl⟩, (onSegment_turn _ _ _).2 hq⟩

/-- Turning the sides round exchanges left and right. -/
theorem borderOf_turn {l : List (P2 K × P2 K)} {A : P2 K → Prop} (h : LeftBorderOf l A) : BorderOf (turnSides l) A := by
  have tl : ∀ s : P2 K × P2 K, toLeft (s.2, s.1) = -toLeft s := by
    intro s; ext <;> simp [toLeft]
  refine ⟨?_, ?_, ?_⟩
  · intro p q hw
    rw [← not_iff_not]
    exact h.across p q fun t t0 t1 hc => hw t t0 t1 ((onBorder_turn _ _).2 hc)
  · intro s hs x hx δ hδ
    obtain ⟨s', hs', rfl⟩ := List.mem_map.1 hs
    obtain ⟨e, h0, h1, h2, h3⟩ := h.left s' hs' x (insideSegment_turn hx) δ hδ
    have : x - e • toLeft (s'.2, s'.1) = x + e • toLeft s' := by
      rw [tl]; ext <;> simp
    exact ⟨e, h0, h1, by rwa [this, onBorder_turn], by rw [this]; exact not_not.1 h3⟩
  · intro s hs x hx δ hδ
    obtain ⟨s', hs', rfl⟩ := List.mem_map.1 hs
    obtain ⟨e, h0, h1, h2, h3⟩ := h.right s' hs' x (insideSegment_turn hx) δ hδ
    have : x + e • toLeft (s'.2, s'.1) = x - e • toLeft s' := by
      rw [tl]; ext <;> simp [sub_eq_add_neg]
    exact ⟨e, h0, h1, by rwa [this, onBorder_turn], by rw [this]; exact h3⟩

theorem leftBorderOf_turn {l : List (P2 K × P2 K)} {A : P2 K → Prop} (h : BorderOf l A) : LeftBorderOf (turnSides l) A := by
  have tl : ∀ s : P2 K × P2 K, toLeft (s.2, s.1) = -toLeft s := by
    intro s; ext <;> simp [toLeft]
  refine ⟨?_, ?_, ?_⟩
  · intro p q hw
    rw [not_iff_not]
    exact h.across p q fun t t0 t1 hc => hw t t0 t1 ((onBorder_turn _ _).2 hc)
  · intro s hs x hx δ hδ
    obtain ⟨s', hs', rfl⟩ := List.mem_map.1 hs
    obtain ⟨e, h0, h1, h2, h3⟩ := h.left s' hs' x (insideSegment_turn hx) δ hδ
    have : x - e • toLeft (s'.2, s'.1) = x + e • toLeft s' := by
      rw [tl]; ext <;> simp
    exact ⟨e, h0, h1, by rwa [this, onBorder_turn], by rw [this]; exact h3⟩
  · intro s hs x hx δ hδ
    obtain ⟨s', hs', rfl⟩ := List.mem_map.1 hs
    obtain ⟨e, h0, h1, h2, h3⟩ := h.right s' hs' x (insideSegment_turn hx) δ hδ
    have : x + e • toLeft (s'.2, s'.1) = x - e • toLeft s' := by
      rw [tl]; ext <;> simp [sub_eq_add_neg]
    exact ⟨e, h0, h1, by rwa [this, onBorder_turn], by rw [this]; exact not_not.2 h3⟩

theorem turnSides_turn (l : List (P2 K × P2 K)) : turnSides (turnSides l) = l := by
  have : ((fun s : P2 K × P2 K => (s.2, s.1)) ∘ fun s : P2 K × P2 K => (s.2, s.1)) = id := rfl
  simp [turnSides, this]

/-- Two sets on both sides of a vertical line are one set. -/
theorem leftBorderOf_append {s1 s2 : List (P2 K × P2 K)} {A B : P2 K → Prop} {m : K} (h1 : LeftBorderOf s1 A)
    (h2 : LeftBorderOf s2 B) (b1 : ∀ s ∈ s1, s.1.x < m ∧ s.2.x < m) (b2 : ∀ s ∈ s2, m < s.1.x ∧ m < s.2.x)
    (ha : ∀ p, A p → p.x < m) (hb : ∀ p, B p → m < p.x) : LeftBorderOf (s1 ++ s2) (fun p => A p ∨ B p) := by
  have := leftBorderOf_turn (borderOf_append (m := m) (borderOf_turn h1) (borderOf_turn h2)
    (fun s hs => by obtain ⟨s', hs', rfl⟩ := List.mem_map.1 hs; exact ⟨(b1 s' hs').2, (b1 s' hs').1⟩)
    (fun s hs => by obtain ⟨s', hs', rfl⟩ := List.mem_map.1 hs; exact ⟨(b2 s' hs').2, (b2 s' hs').1⟩) ha hb)
  have e : turnSides (turnSides s1 ++ turnSides s2) = s1 ++ s2 := by
    have h : turnSides (turnSides s1 ++ turnSides s2) = turnSides (turnSides s1) ++ turnSides (turnSides s2) := by
      simp [turnSides]
    rw [h, turnSides_turn, turnSides_turn]
  rwa [e] at this

/-- The points of a triangle are between its corners. -/
theorem inTri_x {a b c p : P2 K} (h : 0 < area2 a b c) (hp : InTri a b c p) {m : K} :
    (a.x ≤ m → b.x ≤ m → c.x ≤ m → p.x ≤ m) ∧ (m ≤ a.x → m ≤ b.x → m ≤ c.x → m ≤ p.x) := by
  obtain ⟨h1, h2, h3⟩ := hp
  have e : area2 a b c * p.x = area2 b c p * a.x + area2 c a p * b.x + area2 a b p * c.x := by
    simp only [area2]; ring
  have s := area2_sum a b c p
  constructor
  · intro k1 k2 k3
    have := mul_le_mul_of_nonneg_left k1 h2.le
    have := mul_le_mul_of_nonneg_left k2 h3.le
    have := mul_le_mul_of_nonneg_left k3 h1.le
    refine le_of_mul_le_mul_left (a := area2 a b c) ?_ h
    rw [e, ← s]
    linarith
  · intro k1 k2 k3
    have := mul_le_mul_of_nonneg_left k1 h2.le
    have := mul_le_mul_of_nonneg_left k2 h3.le
    have := mul_le_mul_of_nonneg_left k3 h1.le
    refine le_of_mul_le_mul_left (a := area2 a b c) ?_ h
    rw [e, ← s]
    linarith

end Geometrix
