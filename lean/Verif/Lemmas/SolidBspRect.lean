import Verif.Spec.SolidBsp
import Verif.Model.SolidBsp
import Verif.Lemmas.Vector
import Mathlib.Tactic.Linarith
import Mathlib.Tactic.FieldSimp
import Mathlib.Tactic.Positivity

/-!
# Rectangles as solids
-/

set_option linter.unusedSectionVars false

namespace Geometrix

open Spec

variable {K : Type*} [Field K] [LinearOrder K] [IsStrictOrderedRing K]

/-- The first parameter at which one of several affine functions, positive at 0, becomes zero. -/
theorem first_zero : ∀ (l : List (K × K)), (∀ f ∈ l, 0 < f.1) → (∃ f ∈ l, f.2 ≤ 0) →
    ∃ t : K, 0 < t ∧ t ≤ 1 ∧ (∀ f ∈ l, 0 ≤ f.1 + t * (f.2 - f.1)) ∧ ∃ f ∈ l, f.1 + t * (f.2 - f.1) = 0
  | [], _, h => by simp at h
  | (a, b) :: l, hp, h => by
    have ha : 0 < a := hp (a, b) (by simp)
    have own : b ≤ 0 → 0 < a / (a - b) ∧ a / (a - b) ≤ 1 ∧ a + a / (a - b) * (b - a) = 0 := by
      intro hb
      have : 0 < a - b := by linarith
      refine ⟨div_pos ha this, (div_le_one this).2 (by linarith), ?_⟩
      field_simp
      ring
    by_cases h' : ∃ f ∈ l, f.2 ≤ 0
    · obtain ⟨t, t0, t1, h1, g, hg, h2⟩ := first_zero l (fun f hf => hp f (by simp [hf])) h'
      by_cases hc : 0 ≤ a + t * (b - a)
      · exact ⟨t, t0, t1, by simpa using ⟨hc, fun a b hab => h1 (a, b) hab⟩, g, by simp [hg], h2⟩
      · push Not at hc
        have hba : b < a := by
          by_contra hge
          push Not at hge
          have := mul_nonneg t0.le (sub_nonneg.2 hge)
          linarith
        have hb : b ≤ 0 := by
          by_contra hb
          push Not at hb
          have := mul_nonneg (sub_nonneg.2 t1) (sub_nonneg.2 hba.le)
          linarith
        obtain ⟨u0, u1, hz⟩ := own hb
        set u := a / (a - b) with hu
        have hut : u < t := by
          by_contra hge
          push Not at hge
          have := mul_nonneg (sub_nonneg.2 hge) (sub_nonneg.2 hba.le)
          linarith
        refine ⟨u, u0, u1, ?_, (a, b), by simp, hz⟩
        intro f hf
        rcases List.mem_cons.1 hf with rfl | hf
        · exact hz.ge
        · have e := h1 f hf
          have e1 := hp f (by simp [hf])
          rcases le_or_gt 0 (f.2 - f.1) with hs | hs
          · have := mul_nonneg u0.le hs
            linarith
          · have := mul_nonneg (sub_nonneg.2 hut.le) (neg_nonneg.2 hs.le)
            linarith
    · have hb : b ≤ 0 := by
        obtain ⟨f, hf, hf2⟩ := h
        rcases List.mem_cons.1 hf with rfl | hf
        · exact hf2
        · exact absurd ⟨f, hf, hf2⟩ h'
      obtain ⟨u0, u1, hz⟩ := own hb
      refine ⟨_, u0, u1, ?_, (a, b), by simp, hz⟩
      intro f hf
      rcases List.mem_cons.1 hf with rfl | hf
      · exact hz.ge
      · have e1 := hp f (by simp [hf])
        have e2 : 0 < f.2 := by
          by_contra hc
          exact h' ⟨f, hf, not_lt.1 hc⟩
        have := mul_nonneg (sub_nonneg.2 u1) e1.le
        have := mul_nonneg u0.le e2.le
        linarith

theorem onBorder_rect {x0 x1 y0 y1 : K} (hx : x0 < x1) (hy : y0 < y1) (q : P2 K) :
    OnBorder (rectSides x0 x1 y0 y1) q ↔
      ((q.x = x0 ∨ q.x = x1) ∧ y0 ≤ q.y ∧ q.y ≤ y1) ∨ ((q.y = y0 ∨ q.y = y1) ∧ x0 ≤ q.x ∧ q.x ≤ x1) := by
  have hx' : 0 < x1 - x0 := by linarith
  have hy' : 0 < y1 - y0 := by linarith
  obtain ⟨qx, qy⟩ := q
  constructor
  · rintro ⟨s, hs, t, t0, t1, h⟩
    simp only [rectSides, List.mem_cons, List.not_mem_nil, or_false] at hs
    have k1 := mul_nonneg t0 hx'.le
    have k2 := mul_nonneg t0 hy'.le
    have k3 := mul_nonneg (sub_nonneg.2 t1) hx'.le
    have k4 := mul_nonneg (sub_nonneg.2 t1) hy'.le
    rcases hs with rfl | rfl | rfl | rfl <;>
      rw [P2.ext_iff] at h <;> simp only [P2.add_x, P2.add_y, P2.smul_x, P2.smul_y, P2.sub_x, P2.sub_y] at h <;>
      obtain ⟨h1, h2⟩ := h <;> dsimp only
    · left; exact ⟨Or.inl (by linarith), by linarith, by linarith⟩
    · right; exact ⟨Or.inr (by linarith), by linarith, by linarith⟩
    · left; exact ⟨Or.inr (by linarith), by linarith, by linarith⟩
    · right; exact ⟨Or.inl (by linarith), by linarith, by linarith⟩
  · dsimp only
    have par : ∀ {a b c : K}, a < b → a ≤ c → c ≤ b → ∃ t : K, 0 ≤ t ∧ t ≤ 1 ∧ c = a + t * (b - a) := by
      intro a b c hab h1 h2
      have : 0 < b - a := by linarith
      exact ⟨(c - a) / (b - a), div_nonneg (by linarith) this.le, (div_le_one this).2 (by linarith), by field_simp; ring⟩
    rintro (⟨rfl | rfl, h1, h2⟩ | ⟨rfl | rfl, h1, h2⟩)
    · obtain ⟨t, t0, t1, e⟩ := par hy h1 h2
      exact ⟨_, List.mem_cons_self, t, t0, t1, by ext <;> simp [e]⟩
    · obtain ⟨t, t0, t1, e⟩ := par hy h1 h2
      refine ⟨(⟨qx, y1⟩, ⟨qx, y0⟩), by simp [rectSides], 1 - t, by linarith, by linarith, ?_⟩
      ext
      · simp
      · simp only [P2.add_y, P2.smul_y, P2.sub_y, e]; ring
    · obtain ⟨t, t0, t1, e⟩ := par hx h1 h2
      refine ⟨(⟨x1, qy⟩, ⟨x0, qy⟩), by simp [rectSides], 1 - t, by linarith, by linarith, ?_⟩
      ext
      · simp only [P2.add_x, P2.smul_x, P2.sub_x, e]; ring
      · simp
    · obtain ⟨t, t0, t1, e⟩ := par hx h1 h2
      refine ⟨(⟨x0, qy⟩, ⟨x1, qy⟩), by simp [rectSides], t, t0, t1, ?_⟩
      ext <;> simp [e]

theorem rect_leave {x0 x1 y0 y1 : K} (hx : x0 < x1) (hy : y0 < y1) {p q : P2 K}
    (h : ∀ t : K, 0 ≤ t → t ≤ 1 → ¬OnBorder (rectSides x0 x1 y0 y1) (p + t • (q - p)))
    (hp : InRect x0 x1 y0 y1 p) : InRect x0 x1 y0 y1 q := by
  obtain ⟨p1, p2, p3, p4⟩ := hp
  by_contra hq
  obtain ⟨t, t0, t1, h1, h2⟩ := first_zero
    [(p.x - x0, q.x - x0), (x1 - p.x, x1 - q.x), (p.y - y0, q.y - y0), (y1 - p.y, y1 - q.y)]
    (by simpa using ⟨p1, p2, p3, p4⟩) (by
      by_contra hn
      apply hq
      simp only [List.mem_cons, List.not_mem_nil, or_false, exists_eq_or_imp, exists_eq_left, not_or, not_le] at hn
      exact ⟨by linarith [hn.1], by linarith [hn.2.1], by linarith [hn.2.2.1], by linarith [hn.2.2.2]⟩)
  apply h t t0.le t1
  rw [onBorder_rect hx hy]
  simp only [List.mem_cons, List.not_mem_nil, or_false, forall_eq_or_imp, forall_eq, exists_eq_or_imp, exists_eq_left] at h1 h2
  simp only [P2.add_x, P2.add_y, P2.smul_x, P2.smul_y, P2.sub_x, P2.sub_y]
  obtain ⟨a1, a2, a3, a4⟩ := h1
  rcases h2 with h2 | h2 | h2 | h2
  · left; exact ⟨Or.inl (by linarith), by linarith, by linarith⟩
  · left; exact ⟨Or.inr (by linarith), by linarith, by linarith⟩
  · right; exact ⟨Or.inl (by linarith), by linarith, by linarith⟩
  · right; exact ⟨Or.inr (by linarith), by linarith, by linarith⟩

theorem borderOf_rect {x0 x1 y0 y1 : K} (hx : x0 < x1) (hy : y0 < y1) :
    BorderOf (rectSides x0 x1 y0 y1) (InRect x0 x1 y0 y1) := by
  have hx' : 0 < x1 - x0 := by linarith
  have hy' : 0 < y1 - y0 := by linarith
  have small : ∀ δ : K, 0 < δ → ∃ e : K, 0 < e ∧ e < δ ∧ e * (y1 - y0) < x1 - x0 ∧ e * (x1 - x0) < y1 - y0 := by
    intro δ hδ
    obtain ⟨e, h0, h1⟩ := exists_between (lt_min hδ (lt_min (div_pos hx' hy') (div_pos hy' hx')))
    refine ⟨e, h0, lt_of_lt_of_le h1 (min_le_left _ _), ?_, ?_⟩
    · exact (lt_div_iff₀ hy').1 (lt_of_lt_of_le h1 ((min_le_right _ _).trans (min_le_left _ _)))
    · exact (lt_div_iff₀ hx').1 (lt_of_lt_of_le h1 ((min_le_right _ _).trans (min_le_right _ _)))
  refine ⟨fun p q h => ⟨rect_leave hx hy h, rect_leave hx hy fun t t0 t1 => ?_⟩, ?_, ?_⟩
  · have := h (1 - t) (by linarith) (by linarith)
    have e : q + t • (p - q) = p + (1 - t) • (q - p) := by
      ext <;> simp only [P2.add_x, P2.add_y, P2.smul_x, P2.smul_y, P2.sub_x, P2.sub_y] <;> ring
    rwa [e]
  · rintro s hs x ⟨t, t0, t1, rfl⟩ δ hδ
    obtain ⟨e, e0, e1, e2, e3⟩ := small δ hδ
    refine ⟨e, e0, e1, ?_⟩
    rw [onBorder_rect hx hy]
    unfold InRect
    have k1 := mul_pos t0 hx'
    have k2 := mul_pos t0 hy'
    have k3 := mul_pos (sub_pos.2 t1) hx'
    have k4 := mul_pos (sub_pos.2 t1) hy'
    have k5 := mul_pos e0 hx'
    have k6 := mul_pos e0 hy'
    simp only [rectSides, List.mem_cons, List.not_mem_nil, or_false] at hs
    have key : ∀ q : P2 K, x0 < q.x ∧ q.x < x1 ∧ y0 < q.y ∧ q.y < y1 →
        ¬((q.x = x0 ∨ q.x = x1) ∧ y0 ≤ q.y ∧ q.y ≤ y1 ∨ (q.y = y0 ∨ q.y = y1) ∧ x0 ≤ q.x ∧ q.x ≤ x1) ∧
        x0 < q.x ∧ q.x < x1 ∧ y0 < q.y ∧ q.y < y1 := by
      rintro q ⟨h1, h2, h3, h4⟩
      refine ⟨?_, h1, h2, h3, h4⟩
      rintro (⟨h | h, -⟩ | ⟨h | h, -⟩) <;> linarith
    apply key
    rcases hs with rfl | rfl | rfl | rfl <;>
      simp only [toLeft, P2.add_x, P2.add_y, P2.smul_x, P2.smul_y, P2.sub_x, P2.sub_y] <;>
      refine ⟨?_, ?_, ?_, ?_⟩ <;> linarith
  · rintro s hs x ⟨t, t0, t1, rfl⟩ δ hδ
    obtain ⟨e, e0, e1, e2, e3⟩ := small δ hδ
    refine ⟨e, e0, e1, ?_⟩
    rw [onBorder_rect hx hy]
    unfold InRect
    have k5 := mul_pos e0 hx'
    have k6 := mul_pos e0 hy'
    simp only [rectSides, List.mem_cons, List.not_mem_nil, or_false] at hs
    have key : ∀ q : P2 K, q.x < x0 ∨ x1 < q.x ∨ q.y < y0 ∨ y1 < q.y →
        ¬((q.x = x0 ∨ q.x = x1) ∧ y0 ≤ q.y ∧ q.y ≤ y1 ∨ (q.y = y0 ∨ q.y = y1) ∧ x0 ≤ q.x ∧ q.x ≤ x1) ∧
        ¬(x0 < q.x ∧ q.x < x1 ∧ y0 < q.y ∧ q.y < y1) := by
      intro q h
      constructor
      · rintro (⟨g | g, g1, g2⟩ | ⟨g | g, g1, g2⟩) <;> rcases h with h | h | h | h <;> linarith
      · rintro ⟨g1, g2, g3, g4⟩
        rcases h with h | h | h | h <;> linarith
    apply key
    rcases hs with rfl | rfl | rfl | rfl <;>
      simp only [toLeft, P2.add_x, P2.add_y, P2.smul_x, P2.smul_y, P2.sub_x, P2.sub_y]
    · left; linarith
    · right; right; right; linarith
    · right; left; linarith
    · right; right; left; linarith

/-- Two solids on both sides of a vertical line are one solid. -/
theorem borderOf_append {s1 s2 : List (P2 K × P2 K)} {A B : P2 K → Prop} {m : K} (h1 : BorderOf s1 A) (h2 : BorderOf s2 B)
    (b1 : ∀ s ∈ s1, s.1.x < m ∧ s.2.x < m) (b2 : ∀ s ∈ s2, m < s.1.x ∧ m < s.2.x)
    (ha : ∀ p, A p → p.x < m) (hb : ∀ p, B p → m < p.x) : BorderOf (s1 ++ s2) (fun p => A p ∨ B p) := by
  have app : ∀ q, OnBorder (s1 ++ s2) q ↔ OnBorder s1 q ∨ OnBorder s2 q := by
    intro q
    simp only [OnBorder, List.mem_append]
    constructor
    · rintro ⟨s, h | h, h'⟩
      · exact Or.inl ⟨s, h, h'⟩
      · exact Or.inr ⟨s, h, h'⟩
    · rintro (⟨s, h, h'⟩ | ⟨s, h, h'⟩)
      · exact ⟨s, Or.inl h, h'⟩
      · exact ⟨s, Or.inr h, h'⟩
  have seg1 : ∀ s ∈ s1, ∀ q, OnSegment s.1 s.2 q → q.x < m := by
    rintro s hs q ⟨t, t0, t1, rfl⟩
    obtain ⟨c1, c2⟩ := b1 s hs
    simp only [P2.add_x, P2.smul_x, P2.sub_x]
    rcases eq_or_lt_of_le t0 with rfl | t0
    · linarith
    · have := mul_pos t0 (sub_pos.2 c2)
      have := mul_nonneg (sub_nonneg.2 t1) (sub_pos.2 c1).le
      linarith
  have seg2 : ∀ s ∈ s2, ∀ q, OnSegment s.1 s.2 q → m < q.x := by
    rintro s hs q ⟨t, t0, t1, rfl⟩
    obtain ⟨c1, c2⟩ := b2 s hs
    simp only [P2.add_x, P2.smul_x, P2.sub_x]
    rcases eq_or_lt_of_le t0 with rfl | t0
    · linarith
    · have := mul_pos t0 (sub_pos.2 c2)
      have := mul_nonneg (sub_nonneg.2 t1) (sub_pos.2 c1).le
      linarith
  have small : ∀ (x v δ : K), 0 < δ → x ≠ m → ∃ μ : K, 0 < μ ∧ μ ≤ δ ∧ ∀ e : K, 0 < e → e < μ → |e * v| < |x - m| := by
    intro x v δ hδ hx
    have hpos := abs_pos.2 (sub_ne_zero.2 hx)
    have hv : 0 < |v| + 1 := by have := abs_nonneg v; linarith
    refine ⟨min δ (|x - m| / (|v| + 1)), lt_min hδ (div_pos hpos hv), min_le_left _ _, fun e he he' => ?_⟩
    have := (lt_div_iff₀ hv).1 (lt_of_lt_of_le he' (min_le_right _ _))
    rw [abs_mul, abs_of_pos he]
    linarith
  have inside_on : ∀ {a b x : P2 K}, InsideSegment a b x → OnSegment a b x := by
    rintro a b x ⟨t, t0, t1, h⟩
    exact ⟨t, t0.le, t1.le, h⟩
  refine ⟨?_, ?_, ?_⟩
  · intro p q h
    have e1 := h1.across p q fun t t0 t1 hc => h t t0 t1 ((app _).2 (Or.inl hc))
    have e2 := h2.across p q fun t t0 t1 hc => h t t0 t1 ((app _).2 (Or.inr hc))
    rw [e1, e2]
  · intro s hs x hx δ hδ
    rcases List.mem_append.1 hs with hs | hs
    · have hlt := seg1 s hs x (inside_on hx)
      obtain ⟨μ, m0, m1, hm⟩ := small x.x (toLeft s).x δ hδ hlt.ne
      obtain ⟨e, e0, e1, e2, e3⟩ := h1.right s hs x hx μ m0
      have := hm e e0 e1
      rw [abs_of_neg (sub_neg.2 hlt), abs_lt] at this
      refine ⟨e, e0, lt_of_lt_of_le e1 m1, ?_, Or.inl e3⟩
      rw [app]
      rintro (h | ⟨r, hr, h⟩)
      · exact e2 h
      · have := seg2 r hr _ h
        simp only [P2.sub_x, P2.smul_x] at this
        linarith
    · have hlt := seg2 s hs x (inside_on hx)
      obtain ⟨μ, m0, m1, hm⟩ := small x.x (toLeft s).x δ hδ hlt.ne'
      obtain ⟨e, e0, e1, e2, e3⟩ := h2.right s hs x hx μ m0
      have := hm e e0 e1
      rw [abs_of_pos (sub_pos.2 hlt), abs_lt] at this
      refine ⟨e, e0, lt_of_lt_of_le e1 m1, ?_, Or.inr e3⟩
      rw [app]
      rintro (⟨r, hr, h⟩ | h)
      · have := seg1 r hr _ h
        simp only [P2.sub_x, P2.smul_x] at this
        linarith
      · exact e2 h
  · intro s hs x hx δ hδ
    rcases List.mem_append.1 hs with hs | hs
    · have hlt := seg1 s hs x (inside_on hx)
      obtain ⟨μ, m0, m1, hm⟩ := small x.x (toLeft s).x δ hδ hlt.ne
      obtain ⟨e, e0, e1, e2, e3⟩ := h1.left s hs x hx μ m0
      have := hm e e0 e1
      rw [abs_of_neg (sub_neg.2 hlt), abs_lt] at this
      refine ⟨e, e0, lt_of_lt_of_le e1 m1, ?_, ?_⟩
      · rw [app]
        rintro (h | ⟨r, hr, h⟩)
        · exact e2 h
        · have := seg2 r hr _ h
          simp only [P2.add_x, P2.smul_x] at this
          linarith
      · rintro (h | h)
        · exact e3 h
        · have := hb _ h
          simp only [P2.add_x, P2.smul_x] at this
          linarith
    · have hlt := seg2 s hs x (inside_on hx)
      obtain ⟨μ, m0, m1, hm⟩ := small x.x (toLeft s).x δ hδ hlt.ne'
      obtain ⟨e, e0, e1, e2, e3⟩ := h2.left s hs x hx μ m0
      have := hm e e0 e1
      rw [abs_of_pos (sub_pos.2 hlt), abs_lt] at this
      refine ⟨e, e0, lt_of_lt_of_le e1 m1, ?_, ?_⟩
      · rw [app]
        rintro (⟨r, hr, h⟩ | h)
        · have := seg1 r hr _ h
          simp only [P2.add_x, P2.smul_x] at this
          linarith
        · exact e2 h
      · rintro (h | h)
        · have := ha _ h
          simp only [P2.add_x, P2.smul_x] at this
          linarith
        · exact e3 h

/-- The hyperplane of an axis-parallel segment without square roots, for concrete cases. -/
def axisPlane (a b : P2 K) : Res (Plane2 K) :=
  let l := |b.x - a.x| + |b.y - a.y|
  .ok ⟨⟨(a.y - b.y) / l, (b.x - a.x) / l⟩, (a.y - b.y) / l * a.x + (b.x - a.x) / l * a.y⟩

theorem axisPlane_spec {a b : P2 K} (hne : a ≠ b) (h : a.x = b.x ∨ a.y = b.y) :
    ∃ pl, axisPlane a b = .ok pl ∧ NormalForm a b pl.n pl.d := by
  refine ⟨_, rfl, ?_⟩
  obtain ⟨ax, ay⟩ := a
  obtain ⟨bx, by'⟩ := b
  have hl : 0 < |bx - ax| + |by' - ay| := by
    have h1 := abs_nonneg (bx - ax)
    have h2 := abs_nonneg (by' - ay)
    rcases eq_or_lt_of_le (add_nonneg h1 h2) with h0 | h0
    · have e1 : |bx - ax| = 0 := by linarith
      have e2 : |by' - ay| = 0 := by linarith
      rw [abs_eq_zero] at e1 e2
      exact absurd (by rw [P2.mk.injEq]; exact ⟨by linarith, by linarith⟩) hne
    · exact h0
  refine ⟨|bx - ax| + |by' - ay|, hl, ?_, ?_, ?_, rfl⟩
  · simp only at h
    unfold sqDist
    rcases h with rfl | rfl
    · simp only [sub_self, abs_zero, zero_add, sq_abs]; ring
    · simp only [sub_self, abs_zero, add_zero, sq_abs]; ring
  · dsimp only; field_simp
  · dsimp only; field_simp

theorem axisPlane_rect {x0 x1 y0 y1 : K} (hx : x0 < x1) (hy : y0 < y1) : ∀ s ∈ rectSides x0 x1 y0 y1,
    ∃ pl, axisPlane s.1 s.2 = .ok pl ∧ NormalForm s.1 s.2 pl.n pl.d := by
  intro s hs
  simp only [rectSides, List.mem_cons, List.not_mem_nil, or_false] at hs
  rcases hs with rfl | rfl | rfl | rfl
  · exact axisPlane_spec (by simp [hy.ne]) (by simp)
  · exact axisPlane_spec (by simp [hx.ne]) (by simp)
  · exact axisPlane_spec (by simp [hy.ne']) (by simp)
  · exact axisPlane_spec (by simp [hx.ne']) (by simp)

/-- A result and a check of it. -/
def okCheck {α : Type*} (x : Res α) (P : α → Bool) : Bool :=
  match x with
  | .ok t => P t
  | .error _ => false

theorem ok_of_check {α : Type*} {x : Res α} {P : α → Bool} (h : okCheck x P = true) : ∃ t, x = .ok t ∧ P t = true := by
  cases x with
  | ok t => exact ⟨t, rfl, h⟩
  | error e => simp [okCheck] at h

theorem onBorder_append {s1 s2 : List (P2 K × P2 K)} {p : P2 K} : OnBorder (s1 ++ s2) p ↔ OnBorder s1 p ∨ OnBorder s2 p := by
  simp only [OnBorder, List.mem_append]
  constructor
  · rintro ⟨s, h | h, h'⟩
    · exact Or.inl ⟨s, h, h'⟩
    · exact Or.inr ⟨s, h, h'⟩
  · rintro (⟨s, h, h'⟩ | ⟨s, h, h'⟩)
    · exact ⟨s, Or.inl h, h'⟩
    · exact ⟨s, Or.inr h, h'⟩

/-- Two rectangles side by side. -/
theorem borderOf_two {a b c d e f g h : K} (h1 : a < b) (h2 : c < d) (h3 : e < f) (h4 : g < h) (h5 : b < e) :
    BorderOf (rectSides a b c d ++ rectSides e f g h) (fun p => InRect a b c d p ∨ InRect e f g h p) := by
  obtain ⟨m, m1, m2⟩ := exists_between h5
  refine borderOf_append (m := m) (borderOf_rect h1 h2) (borderOf_rect h3 h4) ?_ ?_ ?_ ?_
  · intro s hs
    simp only [rectSides, List.mem_cons, List.not_mem_nil, or_false] at hs
    rcases hs with rfl | rfl | rfl | rfl <;> constructor <;> dsimp only <;> linarith
  · intro s hs
    simp only [rectSides, List.mem_cons, List.not_mem_nil, or_false] at hs
    rcases hs with rfl | rfl | rfl | rfl <;> constructor <;> dsimp only <;> linarith
  · intro p hp; linarith [hp.2.1]
  · intro p hp; linarith [hp.1]

theorem axisPlane_two {a b c d e f g h : K} (h1 : a < b) (h2 : c < d) (h3 : e < f) (h4 : g < h) :
    ∀ s ∈ rectSides a b c d ++ rectSides e f g h, ∃ pl, axisPlane s.1 s.2 = .ok pl ∧ NormalForm s.1 s.2 pl.n pl.d := by
  intro s hs
  rcases List.mem_append.1 hs with hs | hs
  · exact axisPlane_rect h1 h2 s hs
  · exact axisPlane_rect h3 h4 s hs

end Geometrix
