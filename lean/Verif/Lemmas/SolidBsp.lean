import Verif.Model.SolidBsp
import Verif.Spec.SolidBsp
import Verif.Lemmas.Distance

/-!
# Helpers for solid leaf trees: how the tree is built
-/

set_option linter.unusedSectionVars false

namespace Geometrix
open Spec

variable {K : Type*} [Field K] [LinearOrder K] [IsStrictOrderedRing K]

/-- A half plane: a line and whether it is the front. -/
abbrev Half (K : Type*) := Plane2 K × Bool

/-- The distance from the border of the half plane, positive inside. -/
def halfDist (c : Half K) (x : P2 K) : K := if c.2 then planeDist c.1 x else -planeDist c.1 x

/-- `x` is strictly inside all the half planes. -/
def InCell (C : List (Half K)) (x : P2 K) : Prop := ∀ c ∈ C, 0 < halfDist c x

/-- `x` is in all the closed half planes. -/
def InClosure (C : List (Half K)) (x : P2 K) : Prop := ∀ c ∈ C, 0 ≤ halfDist c x

theorem planeDist_line (pl : Plane2 K) (p q : P2 K) (t : K) :
    planeDist pl (p + t • (q - p)) = (1 - t) * planeDist pl p + t * planeDist pl q := by
  simp only [planeDist, dot, P2.add_x, P2.add_y, P2.smul_x, P2.smul_y, P2.sub_x, P2.sub_y]; ring

theorem halfDist_line (c : Half K) (p q : P2 K) (t : K) :
    halfDist c (p + t • (q - p)) = (1 - t) * halfDist c p + t * halfDist c q := by
  unfold halfDist
  split_ifs
  · exact planeDist_line _ _ _ _
  · rw [planeDist_line]; ring

theorem planeDist_step (pl : Plane2 K) (p v : P2 K) (t : K) :
    planeDist pl (p + t • v) = planeDist pl p + t * dot v pl.n := by
  simp only [planeDist, dot, P2.add_x, P2.add_y, P2.smul_x, P2.smul_y]; ring

/-- The hyperplane of the side. -/
def PlaneOf (s : P2 K × P2 K) (pl : Plane2 K) : Prop := NormalForm s.1 s.2 pl.n pl.d

theorem PlaneOf.start {s : P2 K × P2 K} {pl : Plane2 K} (h : PlaneOf s pl) : planeDist pl s.1 = 0 := by
  obtain ⟨l, -, -, -, -, h5⟩ := h
  unfold planeDist dot; rw [h5]; ring

theorem PlaneOf.dist {s : P2 K × P2 K} {pl : Plane2 K} (h : PlaneOf s pl) :
    ∃ l : K, 0 < l ∧ ∀ x, l * planeDist pl x = area2 s.1 s.2 x := by
  obtain ⟨l, h1, -, h3, h4, h5⟩ := h
  refine ⟨l, h1, fun x => ?_⟩
  unfold planeDist dot area2
  rw [h5]
  linear_combination (x.x - s.1.x) * h3 + (x.y - s.1.y) * h4

theorem PlaneOf.finish {s : P2 K × P2 K} {pl : Plane2 K} (h : PlaneOf s pl) : planeDist pl s.2 = 0 := by
  obtain ⟨l, h1, h2⟩ := h.dist
  have := h2 s.2
  have h3 : area2 s.1 s.2 s.2 = 0 := by unfold area2; ring
  rw [h3] at this
  rcases mul_eq_zero.1 this with h | h
  · exact absurd h h1.ne'
  · exact h

theorem PlaneOf.ne {s : P2 K × P2 K} {pl : Plane2 K} (h : PlaneOf s pl) : s.1 ≠ s.2 := by
  obtain ⟨l, h1, h2, -⟩ := h
  intro he
  rw [he] at h2
  have : sqDist s.2 s.2 = 0 := by unfold sqDist; ring
  rw [this] at h2
  have := pow_pos h1 2
  linarith

theorem PlaneOf.unit {s : P2 K × P2 K} {pl : Plane2 K} (h : PlaneOf s pl) : dot pl.n pl.n = 1 := by
  obtain ⟨l, h1, h2, h3, h4, -⟩ := h
  have h5 : l ^ 2 * (dot pl.n pl.n - 1) = 0 := by
    rw [mul_sub, h2]
    unfold dot sqDist at *
    have e3 : (l * pl.n.x) ^ 2 = (s.1.y - s.2.y) ^ 2 := by rw [h3]
    have e4 : (l * pl.n.y) ^ 2 = (s.2.x - s.1.x) ^ 2 := by rw [h4]
    linear_combination e3 + e4 - (pl.n.x * pl.n.x + pl.n.y * pl.n.y) * h2
  rcases mul_eq_zero.1 h5 with h | h
  · exact absurd h (pow_pos h1 2).ne'
  · linarith

theorem PlaneOf.left {s : P2 K × P2 K} {pl : Plane2 K} (h : PlaneOf s pl) : 0 < dot (toLeft s) pl.n := by
  have hu := h.unit
  obtain ⟨l, h1, h2, h3, h4, -⟩ := h
  have : dot (toLeft s) pl.n = l * dot pl.n pl.n := by
    unfold toLeft dot
    linear_combination -(pl.n.x) * h3 - pl.n.y * h4
  rw [this, hu]; linarith

/-- The half plane is the front of the line. -/
def FrontOf (pl : Plane2 K) (c : Half K) : Prop := ∃ k : K, 0 < k ∧ ∀ y, halfDist c y = k * planeDist pl y

/-- The part of a side which an element of the lists is. -/
structure ItemOk (sides : List (P2 K × P2 K)) (C : List (Half K)) (it : BspItem K) : Prop where
  side : ∃ s, sides[it.idx]? = some s ∧ PlaneOf s it.plane ∧ OnSegment s.1 s.2 it.a ∧
    OnSegment s.1 s.2 it.b ∧ ∃ k : K, 0 < k ∧ it.b - it.a = k • (s.2 - s.1)
  inside : ∀ x, InsideSegment it.a it.b x → ∀ c ∈ C, 0 < halfDist c x ∨ FrontOf it.plane c
  used : it.used = true → ∃ c ∈ C, FrontOf it.plane c

theorem onSegment_trans {A B P Q R : P2 K} (hP : OnSegment A B P) (hQ : OnSegment A B Q) (hR : OnSegment P Q R) :
    OnSegment A B R := by
  obtain ⟨p, p0, p1, rfl⟩ := hP
  obtain ⟨q, q0, q1, rfl⟩ := hQ
  obtain ⟨t, t0, t1, rfl⟩ := hR
  refine ⟨(1 - t) * p + t * q, ?_, ?_, ?_⟩
  · have := mul_nonneg (sub_nonneg.2 t1) p0; have := mul_nonneg t0 q0; linarith
  · nlinarith
  · ext <;> simp <;> ring

theorem planeDist_onSegment {pl : Plane2 K} {A B x : P2 K} (hA : planeDist pl A = 0) (hB : planeDist pl B = 0)
    (h : OnSegment A B x) : planeDist pl x = 0 := by
  obtain ⟨t, -, -, rfl⟩ := h
  rw [planeDist_line, hA, hB]; ring

theorem ItemOk.zero_a {sides : List (P2 K × P2 K)} {C : List (Half K)} {it : BspItem K} (h : ItemOk sides C it) :
    planeDist it.plane it.a = 0 := by
  obtain ⟨s, -, hp, ha, -⟩ := h.side
  exact planeDist_onSegment hp.start hp.finish ha

theorem ItemOk.zero_b {sides : List (P2 K × P2 K)} {C : List (Half K)} {it : BspItem K} (h : ItemOk sides C it) :
    planeDist it.plane it.b = 0 := by
  obtain ⟨s, -, hp, -, hb, -⟩ := h.side
  exact planeDist_onSegment hp.start hp.finish hb

theorem insideSegment_onSegment {A B x : P2 K} (h : InsideSegment A B x) : OnSegment A B x := by
  obtain ⟨t, t0, t1, rfl⟩ := h
  exact ⟨t, t0.le, t1.le, rfl⟩

theorem classifyPoint_direct (p : P2 K) (pl : Plane2 K) :
    classifyPoint Cmp.direct p pl =
      if 0 < planeDist pl p then .front else if planeDist pl p < 0 then .back else .coplanar := by
  simp only [classifyPoint, direct_gt, direct_lt]

/-- The four cases of the classification of a segment. -/
theorem classifySegment_cases (a b : P2 K) (pl : Plane2 K) :
    (classifySimplex Cmp.direct [a, b] pl = .coplanar ∧ planeDist pl a = 0 ∧ planeDist pl b = 0) ∨
    (classifySimplex Cmp.direct [a, b] pl = .front ∧ 0 ≤ planeDist pl a ∧ 0 ≤ planeDist pl b ∧
      (0 < planeDist pl a ∨ 0 < planeDist pl b)) ∨
    (classifySimplex Cmp.direct [a, b] pl = .back ∧ planeDist pl a ≤ 0 ∧ planeDist pl b ≤ 0 ∧
      (planeDist pl a < 0 ∨ planeDist pl b < 0)) ∨
    (classifySimplex Cmp.direct [a, b] pl = .straddling ∧
      ((0 < planeDist pl a ∧ planeDist pl b < 0) ∨ (planeDist pl a < 0 ∧ 0 < planeDist pl b))) := by
  have key : ∀ x : K, (0 < x ∧ ¬x < 0) ∨ (¬0 < x ∧ x < 0) ∨ (¬0 < x ∧ ¬x < 0 ∧ x = 0) := by
    intro x
    rcases lt_trichotomy x 0 with h | h | h
    · exact Or.inr (Or.inl ⟨not_lt.2 h.le, h⟩)
    · exact Or.inr (Or.inr ⟨by rw [h]; exact lt_irrefl _, by rw [h]; exact lt_irrefl _, h⟩)
    · exact Or.inl ⟨h, not_lt.2 h.le⟩
  simp only [classifySimplex, classifyPoint_direct]
  rcases key (planeDist pl a) with ⟨a1, a2⟩ | ⟨a1, a2⟩ | ⟨a1, a2, a3⟩ <;>
  rcases key (planeDist pl b) with ⟨b1, b2⟩ | ⟨b1, b2⟩ | ⟨b1, b2, b3⟩ <;>
  simp_all [le_of_lt]

theorem splitPoint_direct {a b : P2 K} {pl : Plane2 K}
    (h : (0 < planeDist pl a ∧ planeDist pl b < 0) ∨ (planeDist pl a < 0 ∧ 0 < planeDist pl b)) :
    ∃ t : K, 0 < t ∧ t < 1 ∧ planeDist pl (a + t • (b - a)) = 0 ∧
      splitPoint Cmp.direct a b pl = .ok (a + t • (b - a)) := by
  set α := planeDist pl a with hα
  set β := planeDist pl b with hβ
  have hne : α - β ≠ 0 := by
    rcases h with ⟨h1, h2⟩ | ⟨h1, h2⟩
    · exact (by linarith : (0 : K) < α - β).ne'
    · exact (by linarith : α - β < (0 : K)).ne
  have ht : 0 < α / (α - β) ∧ α / (α - β) < 1 := by
    rcases h with ⟨h1, h2⟩ | ⟨h1, h2⟩
    · have : 0 < α - β := by linarith
      exact ⟨div_pos h1 this, by rw [div_lt_one this]; linarith⟩
    · have : α - β < 0 := by linarith
      exact ⟨div_pos_of_neg_of_neg h1 this, by rw [div_lt_one_of_neg this]; linarith⟩
  refine ⟨α / (α - β), ht.1, ht.2, ?_, ?_⟩
  · rw [planeDist_line, ← hα, ← hβ]; field_simp; ring
  · have e1 : pl.d - dot pl.n b = -β := by rw [hβ]; unfold planeDist dot; ring
    have e2 : dot pl.n (a - b) = α - β := by
      rw [hα, hβ]; unfold planeDist dot; simp only [P2.sub_x, P2.sub_y]; ring
    have e3 : b + (-β / (α - β)) • (a - b) = a + (α / (α - β)) • (b - a) := by
      ext <;> simp only [P2.add_x, P2.add_y, P2.smul_x, P2.smul_y, P2.sub_x, P2.sub_y] <;> field_simp <;> ring
    have e4 : -β / (α - β) = 1 - α / (α - β) := by field_simp; ring
    have e5 : -β / (α - β) ≥ 0 ∧ -β / (α - β) ≤ 1 := by
      rw [e4]; exact ⟨by linarith [ht.2], by linarith [ht.1]⟩
    have e6 : planeDist pl (a + (α / (α - β)) • (b - a)) = 0 := by
      rw [planeDist_line, ← hα, ← hβ]; field_simp; ring
    have e7 : classifyPoint Cmp.direct (a + (α / (α - β)) • (b - a)) pl = .coplanar := by
      rw [classifyPoint_direct, e6]; simp
    unfold splitPoint segPlane
    simp only [e1, e2, cdiv, if_neg hne, if_pos e5, e3, e7, if_true]

/-- Two lines through the same two points. -/
theorem same_line {p q : Plane2 K} {a b : P2 K} (hab : a ≠ b) (hp : dot p.n p.n = 1) (hq : dot q.n q.n = 1)
    (pa : planeDist p a = 0) (pb : planeDist p b = 0) (qa : planeDist q a = 0) (qb : planeDist q b = 0) :
    (dot p.n q.n = 1 ∨ dot p.n q.n = -1) ∧ ∀ y, planeDist q y = dot p.n q.n * planeDist p y := by
  obtain ⟨⟨px, py⟩, pd⟩ := p
  obtain ⟨⟨qx, qy⟩, qd⟩ := q
  obtain ⟨ax, ay⟩ := a
  obtain ⟨bx, by'⟩ := b
  simp only [planeDist, dot] at *
  have hw : bx - ax ≠ 0 ∨ by' - ay ≠ 0 := by
    by_contra h
    push Not at h
    exact hab (by rw [P2.mk.injEq]; exact ⟨by linarith [h.1], by linarith [h.2]⟩)
  have hpw : px * (bx - ax) + py * (by' - ay) = 0 := by linear_combination pb - pa
  have hqw : qx * (bx - ax) + qy * (by' - ay) = 0 := by linear_combination qb - qa
  have hc : px * qy - py * qx = 0 := by
    rcases hw with h | h
    · have : (px * qy - py * qx) * (bx - ax) = 0 := by linear_combination qy * hpw - py * hqw
      exact (mul_eq_zero.1 this).resolve_right h
    · have : (px * qy - py * qx) * (by' - ay) = 0 := by linear_combination px * hqw - qx * hpw
      exact (mul_eq_zero.1 this).resolve_right h
  have hd : (px * qx + py * qy) ^ 2 = 1 := by
    linear_combination (qx * qx + qy * qy) * hp + hq - (px * qy - py * qx) * hc
  have hx : qx = (px * qx + py * qy) * px := by linear_combination -qx * hp - py * hc
  have hy : qy = (px * qx + py * qy) * py := by linear_combination -qy * hp + px * hc
  refine ⟨by
    have : (px * qx + py * qy - 1) * (px * qx + py * qy + 1) = 0 := by linear_combination hd
    rcases mul_eq_zero.1 this with h | h
    · exact Or.inl (by linarith)
    · exact Or.inr (by linarith), fun y => ?_⟩
  linear_combination qa - (px * qx + py * qy) * pa + (y.x - ax) * hx + (y.y - ay) * hy

theorem inside_pos {pl : Plane2 K} {a b x : P2 K} (ha : 0 ≤ planeDist pl a) (hb : 0 ≤ planeDist pl b)
    (hab : 0 < planeDist pl a ∨ 0 < planeDist pl b) (hx : InsideSegment a b x) : 0 < planeDist pl x := by
  obtain ⟨t, t0, t1, rfl⟩ := hx
  rw [planeDist_line]
  rcases hab with h | h
  · have := mul_pos (sub_pos.2 t1) h; have := mul_nonneg t0.le hb; linarith
  · have := mul_pos t0 h; have := mul_nonneg (sub_pos.2 t1).le ha; linarith

theorem inside_neg {pl : Plane2 K} {a b x : P2 K} (ha : planeDist pl a ≤ 0) (hb : planeDist pl b ≤ 0)
    (hab : planeDist pl a < 0 ∨ planeDist pl b < 0) (hx : InsideSegment a b x) : planeDist pl x < 0 := by
  obtain ⟨t, t0, t1, rfl⟩ := hx
  rw [planeDist_line]
  rcases hab with h | h
  · have := mul_neg_of_pos_of_neg (sub_pos.2 t1) h; have := mul_nonpos_of_nonneg_of_nonpos t0.le hb; linarith
  · have := mul_neg_of_pos_of_neg t0 h; have := mul_nonpos_of_nonneg_of_nonpos (sub_pos.2 t1).le ha; linarith

theorem on_nonneg {pl : Plane2 K} {a b x : P2 K} (ha : 0 ≤ planeDist pl a) (hb : 0 ≤ planeDist pl b)
    (hx : OnSegment a b x) : 0 ≤ planeDist pl x := by
  obtain ⟨t, t0, t1, rfl⟩ := hx
  rw [planeDist_line]
  have := mul_nonneg (sub_nonneg.2 t1) ha; have := mul_nonneg t0 hb; linarith

theorem on_nonpos {pl : Plane2 K} {a b x : P2 K} (ha : planeDist pl a ≤ 0) (hb : planeDist pl b ≤ 0)
    (hx : OnSegment a b x) : planeDist pl x ≤ 0 := by
  obtain ⟨t, t0, t1, rfl⟩ := hx
  rw [planeDist_line]
  have := mul_nonpos_of_nonneg_of_nonpos (sub_nonneg.2 t1) ha
  have := mul_nonpos_of_nonneg_of_nonpos t0 hb; linarith

theorem ItemOk.ne {sides : List (P2 K × P2 K)} {C : List (Half K)} {it : BspItem K} (h : ItemOk sides C it) :
    it.a ≠ it.b := by
  obtain ⟨s, -, hp, -, -, k, hk, he⟩ := h.side
  intro hab
  have hne := hp.ne
  apply hne
  rw [hab] at he
  have hx := congrArg P2.x he
  have hy := congrArg P2.y he
  simp only [P2.sub_x, P2.sub_y, P2.smul_x, P2.smul_y, sub_self] at hx hy
  ext
  · have := (mul_eq_zero.1 hx.symm).resolve_left hk.ne'; linarith
  · have := (mul_eq_zero.1 hy.symm).resolve_left hk.ne'; linarith

/-- The part of an element from the parameter `u` to the parameter `v` is one again. -/
theorem ItemOk.part {sides : List (P2 K × P2 K)} {C : List (Half K)} {it : BspItem K} (h : ItemOk sides C it)
    {u v : K} (hu : 0 ≤ u) (huv : u < v) (hv : v ≤ 1) (c : Half K)
    (hc : ∀ x, InsideSegment (it.a + u • (it.b - it.a)) (it.a + v • (it.b - it.a)) x → 0 < halfDist c x) :
    ItemOk sides (c :: C) { it with a := it.a + u • (it.b - it.a), b := it.a + v • (it.b - it.a) } := by
  obtain ⟨s, h1, h2, h3, h4, k, hk, he⟩ := h.side
  refine ⟨⟨s, h1, h2, ?_, ?_, (v - u) * k, mul_pos (sub_pos.2 huv) hk, ?_⟩, ?_, ?_⟩
  · exact onSegment_trans h3 h4 ⟨u, hu, by linarith, rfl⟩
  · exact onSegment_trans h3 h4 ⟨v, by linarith, hv, rfl⟩
  · have hx := congrArg P2.x he
    have hy := congrArg P2.y he
    simp only [P2.sub_x, P2.sub_y, P2.smul_x, P2.smul_y] at hx hy
    ext
    · simp only [P2.sub_x, P2.smul_x, P2.add_x]; linear_combination (v - u) * hx
    · simp only [P2.sub_y, P2.smul_y, P2.add_y]; linear_combination (v - u) * hy
  · intro x hx d hd
    rcases List.mem_cons.1 hd with rfl | hd
    · exact Or.inl (hc x hx)
    · apply h.inside x _ d hd
      obtain ⟨t, t0, t1, rfl⟩ := hx
      refine ⟨u + t * (v - u), ?_, ?_, ?_⟩
      · have := mul_pos t0 (sub_pos.2 huv); linarith
      · have := mul_lt_mul_of_pos_right t1 (sub_pos.2 huv); linarith
      · ext <;> simp only [P2.sub_x, P2.sub_y, P2.smul_x, P2.smul_y, P2.add_x, P2.add_y] <;> ring
  · intro hus
    obtain ⟨d, hd, hf⟩ := h.used hus
    exact ⟨d, List.mem_cons_of_mem _ hd, hf⟩

/-- What is sent to the front and to the back of a line. -/
structure Sent (sides : List (P2 K × P2 K)) (C : List (Half K)) (pl : Plane2 K) (items F B : List (BspItem K))
    (Ix : List Nat) : Prop where
  front : ∀ i ∈ F, ItemOk sides ((pl, true) :: C) i ∧ ∀ x, OnSegment i.a i.b x → 0 ≤ planeDist pl x
  back : ∀ i ∈ B, ItemOk sides ((pl, false) :: C) i ∧ ∀ x, OnSegment i.a i.b x → planeDist pl x ≤ 0
  cover : ∀ it ∈ items, ∀ x, OnSegment it.a it.b x →
    (0 ≤ planeDist pl x ∧ ∃ i ∈ F, OnSegment i.a i.b x) ∨ (planeDist pl x ≤ 0 ∧ ∃ i ∈ B, OnSegment i.a i.b x)
  frontOf : (F.map fun i => (i.idx, i.used)).Sublist (items.map fun i => (i.idx, i.used))
  backOf : (B.map fun i => (i.idx, i.used)).Sublist (items.map fun i => (i.idx, i.used))
  indices : Ix.Sublist (items.map (·.idx))
  own : ∀ it ∈ items, it.plane = pl → it.idx ∈ Ix
  onLine : ∀ j ∈ Ix, ∃ i ∈ items, i.idx = j ∧ planeDist pl i.a = 0 ∧ planeDist pl i.b = 0

/-- The hypothesis on an element which is about to be sent: its bit may have been set because of its own line. -/
def Pending (sides : List (P2 K × P2 K)) (C : List (Half K)) (pl : Plane2 K) (it : BspItem K) : Prop :=
  ItemOk sides C it ∨ (it.plane = pl ∧ ItemOk sides C { it with used := false })

theorem sendItem_spec {sides : List (P2 K × P2 K)} {C : List (Half K)} {pl : Plane2 K} {s0 : P2 K × P2 K}
    (hpl : PlaneOf s0 pl) {it : BspItem K} (hit : Pending sides C pl it) :
    ∃ F B Ix, sendItem Cmp.direct pl it = .ok (F, B, Ix) ∧ Sent sides C pl [it] F B Ix := by
  have hcop : planeDist pl it.a = 0 → planeDist pl it.b = 0 →
      (dot it.plane.n pl.n = 1 ∨ dot it.plane.n pl.n = -1) ∧
        ∀ y, planeDist pl y = dot it.plane.n pl.n * planeDist it.plane y := by
    intro ha hb
    rcases hit with h | ⟨-, h⟩
    · obtain ⟨s, -, hp, -⟩ := h.side
      exact same_line h.ne hp.unit hpl.unit h.zero_a h.zero_b ha hb
    · obtain ⟨s, -, hp, -⟩ := h.side
      exact same_line h.ne hp.unit hpl.unit h.zero_a h.zero_b ha hb
  have hown : it.plane = pl → planeDist pl it.a = 0 ∧ planeDist pl it.b = 0 := by
    intro he
    rcases hit with h | ⟨-, h⟩
    · exact ⟨he ▸ h.zero_a, he ▸ h.zero_b⟩
    · exact ⟨he ▸ h.zero_a, he ▸ h.zero_b⟩
  unfold sendItem
  rcases classifySegment_cases it.a it.b pl with ⟨hc, ha, hb⟩ | ⟨hc, ha, hb, hab⟩ | ⟨hc, ha, hb, hab⟩ | ⟨hc, hab⟩
  · -- on the line
    rw [hc]
    dsimp only
    obtain ⟨hdp, hpy⟩ := hcop ha hb
    have hon : ∀ x, OnSegment it.a it.b x → planeDist pl x = 0 := fun x hx => planeDist_onSegment ha hb hx
    have hok : ∀ c : Half K, FrontOf it.plane c → ItemOk sides (c :: C) it := by
      intro c hf
      have base : ItemOk sides C { it with used := false } := by
        rcases hit with h | ⟨-, h⟩
        · exact ⟨h.side, h.inside, fun h => by simp at h⟩
        · exact h
      refine ⟨base.side, ?_, fun _ => ⟨c, by simp, hf⟩⟩
      intro x hx d hd
      rcases List.mem_cons.1 hd with rfl | hd
      · exact Or.inr hf
      · exact base.inside x hx d hd
    have e1 : (Cmp.direct.equals (dot it.plane.n pl.n) 1 || Cmp.direct.equals (dot it.plane.n pl.n) (-1)) = true := by
      rw [Bool.or_eq_true, direct_equals, direct_equals]; exact hdp
    rw [if_pos e1]
    rcases hdp with h1 | h1
    · rw [if_neg (by rw [h1]; norm_num)]
      refine ⟨_, _, _, rfl, ?_, ?_, ?_, ?_, ?_, ?_, ?_, by simp [ha, hb]⟩
      · intro i hi
        rw [List.mem_singleton.1 hi]
        exact ⟨hok _ ⟨1, one_pos, fun y => by simp [halfDist, hpy y, h1]⟩, fun x hx => (hon x hx).ge⟩
      · simp
      · intro j hj x hx
        rw [List.mem_singleton.1 hj] at hx
        exact Or.inl ⟨(hon x hx).ge, it, by simp, hx⟩
      · simp
      · simp
      · simp
      · simp
    · rw [if_pos (by rw [h1]; norm_num)]
      refine ⟨_, _, _, rfl, ?_, ?_, ?_, ?_, ?_, ?_, ?_, by simp [ha, hb]⟩
      · simp
      · intro i hi
        rw [List.mem_singleton.1 hi]
        exact ⟨hok _ ⟨1, one_pos, fun y => by simp [halfDist, hpy y, h1]⟩, fun x hx => (hon x hx).le⟩
      · intro j hj x hx
        rw [List.mem_singleton.1 hj] at hx
        exact Or.inr ⟨(hon x hx).le, it, by simp, hx⟩
      · simp
      · simp
      · simp
      · simp
  all_goals
    have hne : it.plane ≠ pl := by
      intro he
      obtain ⟨h1, h2⟩ := hown he
      rw [h1, h2] at hab
      simp at hab
    have hit' : ItemOk sides C it := hit.resolve_right fun h => hne h.1
  · -- in front
    rw [hc]
    refine ⟨_, _, _, rfl, ?_, ?_, ?_, ?_, ?_, ?_, ?_, by simp⟩
    · intro i hi
      rw [List.mem_singleton.1 hi]
      refine ⟨⟨hit'.side, ?_, ?_⟩, fun x hx => on_nonneg ha hb hx⟩
      · intro x hx d hd
        rcases List.mem_cons.1 hd with rfl | hd
        · exact Or.inl (by simpa [halfDist] using inside_pos ha hb hab hx)
        · exact hit'.inside x hx d hd
      · intro hus
        obtain ⟨d, hd, hf⟩ := hit'.used hus
        exact ⟨d, List.mem_cons_of_mem _ hd, hf⟩
    · simp
    · intro j hj x hx
      rw [List.mem_singleton.1 hj] at hx
      exact Or.inl ⟨on_nonneg ha hb hx, it, by simp, hx⟩
    · simp
    · simp
    · simp
    · intro j hj he
      rw [List.mem_singleton.1 hj] at he
      exact absurd he hne
  · -- behind
    rw [hc]
    refine ⟨_, _, _, rfl, ?_, ?_, ?_, ?_, ?_, ?_, ?_, by simp⟩
    · simp
    · intro i hi
      rw [List.mem_singleton.1 hi]
      refine ⟨⟨hit'.side, ?_, ?_⟩, fun x hx => on_nonpos ha hb hx⟩
      · intro x hx d hd
        rcases List.mem_cons.1 hd with rfl | hd
        · exact Or.inl (by simpa [halfDist] using inside_neg ha hb hab hx)
        · exact hit'.inside x hx d hd
      · intro hus
        obtain ⟨d, hd, hf⟩ := hit'.used hus
        exact ⟨d, List.mem_cons_of_mem _ hd, hf⟩
    · intro j hj x hx
      rw [List.mem_singleton.1 hj] at hx
      exact Or.inr ⟨on_nonpos ha hb hx, it, by simp, hx⟩
    · simp
    · simp
    · simp
    · intro j hj he
      rw [List.mem_singleton.1 hj] at he
      exact absurd he hne
  · -- on both sides
    rw [hc]
    dsimp only
    obtain ⟨t, t0, t1, hz, hs⟩ := splitPoint_direct hab
    have ea : it.a + (0 : K) • (it.b - it.a) = it.a := by ext <;> simp
    have eb : it.a + (1 : K) • (it.b - it.a) = it.b := by ext <;> simp
    have lower : ∀ (c : Half K), (∀ x, InsideSegment it.a (it.a + t • (it.b - it.a)) x → 0 < halfDist c x) →
        ItemOk sides (c :: C) { it with b := it.a + t • (it.b - it.a) } := by
      intro c hc
      have := hit'.part (le_refl 0) t0 t1.le c (by rw [ea]; exact hc)
      rw [ea] at this
      exact this
    have upper : ∀ (c : Half K), (∀ x, InsideSegment (it.a + t • (it.b - it.a)) it.b x → 0 < halfDist c x) →
        ItemOk sides (c :: C) { it with a := it.a + t • (it.b - it.a) } := by
      intro c hc
      have := hit'.part t0.le t1 (le_refl 1) c (by rw [eb]; exact hc)
      rw [eb] at this
      exact this
    have parts : ∀ x, OnSegment it.a it.b x →
        OnSegment it.a (it.a + t • (it.b - it.a)) x ∨ OnSegment (it.a + t • (it.b - it.a)) it.b x := by
      rintro x ⟨u, u0, u1, rfl⟩
      rcases le_total u t with h | h
      · left
        refine ⟨u / t, div_nonneg u0 t0.le, (div_le_one t0).2 h, ?_⟩
        ext <;> simp only [P2.sub_x, P2.sub_y, P2.smul_x, P2.smul_y, P2.add_x, P2.add_y] <;> field_simp <;> ring
      · right
        have h1t : 0 < 1 - t := by linarith
        refine ⟨(u - t) / (1 - t), div_nonneg (by linarith) h1t.le, (div_le_one h1t).2 (by linarith), ?_⟩
        ext <;> simp only [P2.sub_x, P2.sub_y, P2.smul_x, P2.smul_y, P2.add_x, P2.add_y] <;> field_simp <;> ring
    rcases hab with ⟨ha, hb⟩ | ⟨ha, hb⟩
    · have e : splitSimplex Cmp.direct it.a it.b pl =
          .ok ((it.a, it.a + t • (it.b - it.a)), (it.a + t • (it.b - it.a), it.b)) := by
        unfold splitSimplex
        rw [classifyPoint_direct, classifyPoint_direct, if_pos ha, if_neg (not_lt.2 hb.le), if_pos hb]
        dsimp only
        rw [hs]
      rw [e]
      refine ⟨_, _, _, rfl, ?_, ?_, ?_, ?_, ?_, ?_, ?_, by simp⟩
      · intro i hi
        rw [List.mem_singleton.1 hi]
        exact ⟨lower _ fun x hx => by simpa [halfDist] using inside_pos ha.le hz.ge (Or.inl ha) hx,
          fun x hx => on_nonneg ha.le hz.ge hx⟩
      · intro i hi
        rw [List.mem_singleton.1 hi]
        exact ⟨upper _ fun x hx => by simpa [halfDist] using inside_neg hz.le hb.le (Or.inr hb) hx,
          fun x hx => on_nonpos hz.le hb.le hx⟩
      · intro j hj x hx
        rw [List.mem_singleton.1 hj] at hx
        rcases parts x hx with h | h
        · exact Or.inl ⟨on_nonneg ha.le hz.ge h, _, by simp; rfl, h⟩
        · exact Or.inr ⟨on_nonpos hz.le hb.le h, _, by simp; rfl, h⟩
      · simp
      · simp
      · simp
      · intro j hj he
        rw [List.mem_singleton.1 hj] at he
        exact absurd he hne
    · have e : splitSimplex Cmp.direct it.a it.b pl =
          .ok ((it.a + t • (it.b - it.a), it.b), (it.a, it.a + t • (it.b - it.a))) := by
        unfold splitSimplex
        rw [classifyPoint_direct, classifyPoint_direct, if_neg (not_lt.2 ha.le), if_pos ha, if_pos hb]
        dsimp only
        rw [hs]
      rw [e]
      refine ⟨_, _, _, rfl, ?_, ?_, ?_, ?_, ?_, ?_, ?_, by simp⟩
      · intro i hi
        rw [List.mem_singleton.1 hi]
        exact ⟨upper _ fun x hx => by simpa [halfDist] using inside_pos hz.ge hb.le (Or.inr hb) hx,
          fun x hx => on_nonneg hz.ge hb.le hx⟩
      · intro i hi
        rw [List.mem_singleton.1 hi]
        exact ⟨lower _ fun x hx => by simpa [halfDist] using inside_neg ha.le hz.le (Or.inl ha) hx,
          fun x hx => on_nonpos ha.le hz.le hx⟩
      · intro j hj x hx
        rw [List.mem_singleton.1 hj] at hx
        rcases parts x hx with h | h
        · exact Or.inr ⟨on_nonpos ha.le hz.le h, _, by simp; rfl, h⟩
        · exact Or.inl ⟨on_nonneg hz.ge hb.le h, _, by simp; rfl, h⟩
      · simp
      · simp
      · simp
      · intro j hj he
        rw [List.mem_singleton.1 hj] at he
        exact absurd he hne

theorem sendItems_spec {sides : List (P2 K × P2 K)} {C : List (Half K)} {pl : Plane2 K} {s0 : P2 K × P2 K}
    (hpl : PlaneOf s0 pl) : ∀ {items : List (BspItem K)}, (∀ it ∈ items, Pending sides C pl it) →
    ∃ F B Ix, sendItems Cmp.direct pl items = .ok (F, B, Ix) ∧ Sent sides C pl items F B Ix
  | [], _ => ⟨[], [], [], rfl, by constructor <;> simp⟩
  | it :: rest, h => by
    obtain ⟨F, B, Ix, h1, s1⟩ := sendItem_spec hpl (h it (by simp))
    obtain ⟨F', B', Ix', h2, s2⟩ := sendItems_spec hpl (items := rest) fun i hi => h i (by simp [hi])
    refine ⟨F ++ F', B ++ B', Ix ++ Ix', ?_, ?_, ?_, ?_, ?_, ?_, ?_, ?_, ?_⟩
    · unfold sendItems; rw [h1, h2]
    · intro i hi
      rcases List.mem_append.1 hi with hi | hi
      · exact s1.front i hi
      · exact s2.front i hi
    · intro i hi
      rcases List.mem_append.1 hi with hi | hi
      · exact s1.back i hi
      · exact s2.back i hi
    · intro j hj x hx
      rcases List.mem_cons.1 hj with rfl | hj
      · rcases s1.cover _ (by simp) x hx with ⟨h, i, hi, hx⟩ | ⟨h, i, hi, hx⟩
        · exact Or.inl ⟨h, i, List.mem_append_left _ hi, hx⟩
        · exact Or.inr ⟨h, i, List.mem_append_left _ hi, hx⟩
      · rcases s2.cover j hj x hx with ⟨h, i, hi, hx⟩ | ⟨h, i, hi, hx⟩
        · exact Or.inl ⟨h, i, List.mem_append_right _ hi, hx⟩
        · exact Or.inr ⟨h, i, List.mem_append_right _ hi, hx⟩
    · simpa using s1.frontOf.append s2.frontOf
    · simpa using s1.backOf.append s2.backOf
    · simpa using s1.indices.append s2.indices
    · intro j hj he
      rcases List.mem_cons.1 hj with rfl | hj
      · exact List.mem_append_left _ (s1.own _ (by simp) he)
      · exact List.mem_append_right _ (s2.own j hj he)
    · intro j hj
      rcases List.mem_append.1 hj with hj | hj
      · obtain ⟨i, hi, h⟩ := s1.onLine j hj
        exact ⟨i, by rw [List.mem_singleton.1 hi]; simp, h⟩
      · obtain ⟨i, hi, h⟩ := s2.onLine j hj
        exact ⟨i, List.mem_cons_of_mem _ hi, h⟩

/-- Each line of the cell is the line of a side of which no unused part is left. -/
def Fresh (sides : List (P2 K × P2 K)) (C : List (Half K)) (items : List (BspItem K)) : Prop :=
  ∀ c ∈ C, ∃ j s, sides[j]? = some s ∧ PlaneOf s c.1 ∧ ∀ it ∈ items, it.idx = j → it.used = true

/-- The tree is built from the parts `items` of the sides in the cell `C`. -/
inductive Built (sides : List (P2 K × P2 K)) : List (Half K) → Bool → List (BspItem K) → SolidTree K → Prop
  | leaf (C : List (Half K)) (flag : Bool) (items : List (BspItem K))
      (ok : ∀ it ∈ items, ItemOk sides C it) (used : ∀ it ∈ items, it.used = true) :
      Built sides C flag items (.leaf (items.map (·.idx)) flag)
  | node (C : List (Half K)) (flag : Bool) (items F B : List (BspItem K)) (it : BspItem K) (Ix : List Nat)
      (f b : SolidTree K) (ok : ∀ it ∈ items, ItemOk sides C it) (fresh : Fresh sides C items)
      (mem : it ∈ items) (unused : it.used = false)
      (inFront : ∀ i ∈ F, ∀ x, OnSegment i.a i.b x → 0 ≤ planeDist it.plane x)
      (inBack : ∀ i ∈ B, ∀ x, OnSegment i.a i.b x → planeDist it.plane x ≤ 0)
      (cover : ∀ j ∈ items, ∀ x, OnSegment j.a j.b x → (0 ≤ planeDist it.plane x ∧ ∃ i ∈ F, OnSegment i.a i.b x) ∨
        (planeDist it.plane x ≤ 0 ∧ ∃ i ∈ B, OnSegment i.a i.b x))
      (indices : ∀ j ∈ Ix, ∃ s, sides[j]? = some s ∧ s.1 ≠ s.2 ∧ planeDist it.plane s.1 = 0 ∧ planeDist it.plane s.2 = 0)
      (own : it.idx ∈ Ix)
      (front : Built sides ((it.plane, true) :: C) false F f) (back : Built sides ((it.plane, false) :: C) true B b) :
      Built sides C flag items (.node it.plane Ix f b)

/-- A selector policy: it selects an element whose bit is not set, and nothing only if there is none. -/
def Selects (sel : List (BspItem K) → Option Nat) : Prop :=
  ∀ items, (∀ k, sel items = some k → ∃ it, items[k]? = some it ∧ it.used = false) ∧
    (sel items = none → ∀ it ∈ items, it.used = true)

theorem autoSelect_selects : Selects (K := K) autoSelect := by
  intro items
  constructor
  · intro k hk
    unfold autoSelect at hk
    rw [List.findIdx?_eq_some_iff_getElem] at hk
    obtain ⟨h, h1, -⟩ := hk
    exact ⟨items[k], List.getElem?_eq_getElem h, by simpa using h1⟩
  · intro h it hit
    unfold autoSelect at h
    rw [List.findIdx?_eq_none_iff] at h
    simpa using h it hit

theorem scoredLoop_spec (cmp : Cmp K) (items : List (BspItem K)) : ∀ (l : List (BspItem K)) (i : Nat) (best : Option (Nat × K)),
    l = items.drop i → (∀ b, best = some b → ∃ it, items[b.1]? = some it ∧ it.used = false) →
    (∀ b, scoredLoop cmp items l i best = some b → ∃ it, items[b.1]? = some it ∧ it.used = false) ∧
    (scoredLoop cmp items l i best = none → best = none ∧ ∀ it ∈ l, it.used = true)
  | [], i, best, _, hb => by
    unfold scoredLoop
    exact ⟨hb, fun h => ⟨h, by simp⟩⟩
  | it :: rest, i, best, hl, hb => by
    have hi : items[i]? = some it := by
      have : (items.drop i)[0]? = some it := by rw [← hl]; rfl
      simpa using this
    have hr : rest = items.drop (i + 1) := by
      have : (items.drop i).tail = rest := by rw [← hl]; rfl
      rw [← this, List.tail_drop]
    unfold scoredLoop
    by_cases hu : it.used = true
    · rw [if_pos hu]
      obtain ⟨h1, h2⟩ := scoredLoop_spec cmp items rest (i + 1) best hr hb
      refine ⟨h1, fun h => ⟨(h2 h).1, ?_⟩⟩
      intro j hj
      rcases List.mem_cons.1 hj with rfl | hj
      · exact hu
      · exact (h2 h).2 j hj
    · rw [if_neg hu]
      have hf : it.used = false := by simpa using hu
      dsimp only
      have hnew : ∀ b : Nat × K, some (i, bspScore cmp items i it) = some b →
          ∃ it, items[b.1]? = some it ∧ it.used = false := by
        intro b hb
        obtain rfl := Option.some.inj hb
        exact ⟨it, hi, hf⟩
      cases best with
      | none =>
        dsimp only
        obtain ⟨h1, h2⟩ := scoredLoop_spec cmp items rest (i + 1) _ hr hnew
        exact ⟨h1, fun h => absurd (h2 h).1 (by simp)⟩
      | some b =>
        dsimp only
        obtain ⟨h1, h2⟩ := scoredLoop_spec cmp items rest (i + 1)
          (if bspScore cmp items i it < b.2 then some (i, bspScore cmp items i it) else some b) hr
          (by split_ifs
              · exact hnew
              · exact hb)
        refine ⟨h1, fun h => absurd (h2 h).1 ?_⟩
        split_ifs <;> simp

theorem scoredSelect_selects (cmp : Cmp K) : Selects (K := K) (scoredSelect cmp) := by
  intro items
  obtain ⟨h1, h2⟩ := scoredLoop_spec cmp items items 0 none (by simp) (by simp)
  unfold scoredSelect
  constructor
  · intro k hk
    rw [Option.map_eq_some_iff] at hk
    obtain ⟨b, hb, rfl⟩ := hk
    exact h1 b hb
  · intro h
    rw [Option.map_eq_none_iff] at h
    exact (h2 h).2

/-- The number of elements whose bit is not set. -/
def unusedCount (items : List (BspItem K)) : Nat := items.countP (fun it => !it.used)

theorem unusedCount_sublist {l m : List (BspItem K)}
    (h : (l.map fun i => (i.idx, i.used)).Sublist (m.map fun i => (i.idx, i.used))) : unusedCount l ≤ unusedCount m := by
  have key : ∀ l : List (BspItem K), unusedCount l = (l.map fun i => (i.idx, i.used)).countP (fun x => !x.2) := by
    intro l; unfold unusedCount; rw [List.countP_map]; rfl
  rw [key, key]
  exact h.countP_le

theorem markUsed_cons (it : BspItem K) (l : List (BspItem K)) (k : Nat) :
    markUsed (it :: l) (k + 1) = it :: markUsed l k := by
  unfold markUsed; rfl

theorem markUsed_count : ∀ {items : List (BspItem K)} {k : Nat} {it : BspItem K}, items[k]? = some it → it.used = false →
    unusedCount (markUsed items k) + 1 = unusedCount items
  | [], k, it, h, _ => by simp at h
  | j :: l, 0, it, h, hu => by
    simp only [List.getElem?_cons_zero, Option.some.injEq] at h
    subst h
    simp [markUsed, unusedCount, hu]
  | j :: l, k + 1, it, h, hu => by
    rw [List.getElem?_cons_succ] at h
    have := markUsed_count h hu
    rw [markUsed_cons]
    unfold unusedCount at *
    rw [List.countP_cons, List.countP_cons]
    omega

theorem markUsed_idx (items : List (BspItem K)) (k : Nat) : (markUsed items k).map (·.idx) = items.map (·.idx) := by
  induction items generalizing k with
  | nil => simp [markUsed]
  | cons j l ih =>
    cases k with
    | zero => simp [markUsed]
    | succ k => rw [markUsed_cons, List.map_cons, ih, List.map_cons]

theorem mem_markUsed : ∀ {items : List (BspItem K)} {k : Nat} {it j : BspItem K}, items[k]? = some it →
    j ∈ markUsed items k → j = { it with used := true } ∨ j ∈ items
  | [], k, it, j, h, _ => by simp at h
  | i :: l, 0, it, j, h, hj => by
    simp only [List.getElem?_cons_zero, Option.some.injEq] at h
    subst h
    simp only [markUsed, List.modify_zero_cons, List.mem_cons] at hj
    rcases hj with h | h
    · exact Or.inl h
    · exact Or.inr (List.mem_cons_of_mem _ h)
  | i :: l, k + 1, it, j, h, hj => by
    rw [List.getElem?_cons_succ] at h
    rw [markUsed_cons] at hj
    rcases List.mem_cons.1 hj with rfl | hj
    · exact Or.inr (by simp)
    · rcases mem_markUsed h hj with h | h
      · exact Or.inl h
      · exact Or.inr (List.mem_cons_of_mem _ h)

theorem mem_markUsed' : ∀ {items : List (BspItem K)} {k : Nat} {it j : BspItem K}, items[k]? = some it → j ∈ items →
    (j ∈ markUsed items k ∨ j = it) ∧ { it with used := true } ∈ markUsed items k
  | [], k, it, j, h, _ => by simp at h
  | i :: l, 0, it, j, h, hj => by
    simp only [List.getElem?_cons_zero, Option.some.injEq] at h
    subst h
    simp only [markUsed, List.modify_zero_cons, List.mem_cons] at hj ⊢
    tauto
  | i :: l, k + 1, it, j, h, hj => by
    rw [List.getElem?_cons_succ] at h
    rw [markUsed_cons]
    have hit : it ∈ l := List.mem_of_getElem? h
    have h2 := (mem_markUsed' h hit).2
    rcases List.mem_cons.1 hj with rfl | hj
    · exact ⟨Or.inl (by simp), List.mem_cons_of_mem _ h2⟩
    · exact ⟨(mem_markUsed' h hj).1.imp (List.mem_cons_of_mem _) id, List.mem_cons_of_mem _ h2⟩

theorem mem_of_nodup_idx {items : List (BspItem K)} (h : (items.map (·.idx)).Nodup) {i j : BspItem K} (hi : i ∈ items)
    (hj : j ∈ items) (he : i.idx = j.idx) : i = j :=
  List.inj_on_of_nodup_map h hi hj he

theorem sublist_idx {F items : List (BspItem K)}
    (h : (F.map fun i => (i.idx, i.used)).Sublist (items.map fun i => (i.idx, i.used))) :
    (F.map (·.idx)).Sublist (items.map (·.idx)) := by
  have := h.map Prod.fst
  simpa [List.map_map, Function.comp_def] using this

theorem fresh_sub {sides : List (P2 K × P2 K)} {C : List (Half K)} {F items : List (BspItem K)}
    (h : (F.map fun i => (i.idx, i.used)).Sublist (items.map fun i => (i.idx, i.used)))
    (hf : Fresh sides C items) : Fresh sides C F := by
  intro c hc
  obtain ⟨j, s, h1, h2, h3⟩ := hf c hc
  refine ⟨j, s, h1, h2, fun it hit he => ?_⟩
  have : (it.idx, it.used) ∈ items.map fun i => (i.idx, i.used) := h.subset (List.mem_map.2 ⟨it, hit, rfl⟩)
  obtain ⟨i, hi, hie⟩ := List.mem_map.1 this
  rw [Prod.mk.injEq] at hie
  rw [← hie.2]
  exact h3 i hi (hie.1.trans he)

theorem buildSolid_built {sides : List (P2 K × P2 K)} {sel : List (BspItem K) → Option Nat} (hsel : Selects sel) :
    ∀ (fuel : Nat) (C : List (Half K)) (flag : Bool) (items : List (BspItem K)), unusedCount items < fuel →
    (∀ it ∈ items, ItemOk sides C it) → Fresh sides C items → (items.map (·.idx)).Nodup →
    ∃ t, buildSolid Cmp.direct sel fuel flag items = .ok t ∧ Built sides C flag items t
  | 0, C, flag, items, h, _, _, _ => by omega
  | fuel + 1, C, flag, items, hfuel, hok, hfr, hnd => by
    unfold buildSolid
    by_cases he : items.isEmpty = true
    · rw [if_pos he]
      rw [List.isEmpty_iff] at he
      subst he
      exact ⟨_, rfl, Built.leaf C flag [] (by simp) (by simp)⟩
    · rw [if_neg he]
      cases hs : sel items with
      | none => exact ⟨_, rfl, Built.leaf C flag items hok ((hsel items).2 hs)⟩
      | some k =>
        dsimp only
        obtain ⟨it, hk, hu⟩ := (hsel items).1 k hs
        have hmem : it ∈ items := List.mem_of_getElem? hk
        rw [hk]
        dsimp only
        obtain ⟨s, hs1, hs2, -⟩ := (hok it hmem).side
        have hp : ∀ j ∈ markUsed items k, Pending sides C it.plane j := by
          intro j hj
          rcases mem_markUsed hk hj with rfl | hj
          · refine Or.inr ⟨rfl, ?_⟩
            have : ({ it with used := false } : BspItem K) = it := by rw [← hu]
            dsimp only
            rw [this]
            exact hok it hmem
          · exact Or.inl (hok j hj)
        obtain ⟨F, B, Ix, h1, h2⟩ := sendItems_spec hs2 hp
        have hcount := markUsed_count hk hu
        have hnd' : ((markUsed items k).map (·.idx)).Nodup := by rw [markUsed_idx]; exact hnd
        have hfr' : ∀ side : Bool, Fresh sides ((it.plane, side) :: C) (markUsed items k) := by
          intro side c hc
          rcases List.mem_cons.1 hc with rfl | hc
          · refine ⟨it.idx, s, hs1, hs2, fun j hj he => ?_⟩
            have := mem_of_nodup_idx hnd' hj (mem_markUsed' hk hmem).2 he
            rw [this]
          · obtain ⟨j, s, h1, h2, h3⟩ := hfr c hc
            refine ⟨j, s, h1, h2, fun i hi he => ?_⟩
            rcases mem_markUsed hk hi with rfl | hi
            · rfl
            · exact h3 i hi he
        have hcover : ∀ j ∈ items, ∀ x, OnSegment j.a j.b x →
            (0 ≤ planeDist it.plane x ∧ ∃ i ∈ F, OnSegment i.a i.b x) ∨
            (planeDist it.plane x ≤ 0 ∧ ∃ i ∈ B, OnSegment i.a i.b x) := by
          intro j hj x hx
          rcases (mem_markUsed' hk hj).1 with hj | rfl
          · exact h2.cover j hj x hx
          · exact h2.cover _ (mem_markUsed' hk hmem).2 x hx
        have hind : ∀ j ∈ Ix, ∃ s, sides[j]? = some s ∧ s.1 ≠ s.2 ∧ planeDist it.plane s.1 = 0 ∧
            planeDist it.plane s.2 = 0 := by
          intro j hj
          obtain ⟨i, hi, rfl, ha, hb⟩ := h2.onLine j hj
          have hit : ∃ i' ∈ items, i'.idx = i.idx ∧ i'.a = i.a ∧ i'.b = i.b := by
            rcases mem_markUsed hk hi with rfl | hi
            · exact ⟨it, hmem, rfl, rfl, rfl⟩
            · exact ⟨i, hi, rfl, rfl, rfl⟩
          obtain ⟨i', hi', e1, e2, e3⟩ := hit
          have ok := hok i' hi'
          obtain ⟨r, h, hr, -⟩ := ok.side
          obtain ⟨-, hz⟩ := same_line ok.ne hr.unit hs2.unit ok.zero_a ok.zero_b (by rw [e2]; exact ha) (by rw [e3]; exact hb)
          exact ⟨r, by rw [← e1]; exact h, hr.ne, by rw [hz, hr.start, mul_zero], by rw [hz, hr.finish, mul_zero]⟩
        have hown : it.idx ∈ Ix := h2.own { it with used := true } (mem_markUsed' hk hmem).2 rfl
        obtain ⟨f, hf1, hf2⟩ := buildSolid_built hsel fuel ((it.plane, true) :: C) false F
          (by have := unusedCount_sublist h2.frontOf; omega) (fun i hi => (h2.front i hi).1)
          (fresh_sub h2.frontOf (hfr' true)) ((sublist_idx h2.frontOf).nodup hnd')
        obtain ⟨b, hb1, hb2⟩ := buildSolid_built hsel fuel ((it.plane, false) :: C) true B
          (by have := unusedCount_sublist h2.backOf; omega) (fun i hi => (h2.back i hi).1)
          (fresh_sub h2.backOf (hfr' false)) ((sublist_idx h2.backOf).nodup hnd')
        rw [h1]
        dsimp only
        rw [hf1, hb1]
        exact ⟨_, rfl, Built.node C flag items F B it Ix f b hok hfr hmem hu
          (fun i hi => (h2.front i hi).2) (fun i hi => (h2.back i hi).2) hcover hind hown hf2 hb2⟩

/-- `mk` gives the normal form of the lines of the sides. -/
def MakesPlanes (mk : P2 K → P2 K → Res (Plane2 K)) (sides : List (P2 K × P2 K)) : Prop :=
  ∀ s ∈ sides, ∃ pl, mk s.1 s.2 = .ok pl ∧ NormalForm s.1 s.2 pl.n pl.d

theorem makeItems_spec {mk : P2 K → P2 K → Res (Plane2 K)} {all : List (P2 K × P2 K)} : ∀ (sides : List (P2 K × P2 K)) (i : Nat),
    sides = all.drop i → MakesPlanes mk sides → ∃ items, makeItems mk sides i = .ok items ∧
    (∀ it ∈ items, ItemOk all [] it) ∧ items.map (·.idx) = List.range' i sides.length ∧
    (∀ x, OnBorder sides x → ∃ it ∈ items, OnSegment it.a it.b x) ∧ unusedCount items = sides.length
  | [], i, _, _ => ⟨[], rfl, by simp, by simp, by simp [OnBorder], rfl⟩
  | s :: rest, i, hd, hm => by
    obtain ⟨pl, h1, h2⟩ := hm s (by simp)
    have hs : all[i]? = some s := by
      have : (all.drop i)[0]? = some s := by rw [← hd]; rfl
      simpa using this
    have hr : rest = all.drop (i + 1) := by
      have : (all.drop i).tail = rest := by rw [← hd]; rfl
      rw [← this, List.tail_drop]
    obtain ⟨items, e1, e2, e3, e4, e5⟩ := makeItems_spec rest (i + 1) hr fun s hs => hm s (by simp [hs])
    refine ⟨⟨s.1, s.2, false, i, pl⟩ :: items, ?_, ?_, ?_, ?_, ?_⟩
    · unfold makeItems; rw [h1]; dsimp only; rw [e1]
    · intro it hit
      rcases List.mem_cons.1 hit with rfl | hit
      · refine ⟨⟨s, hs, h2, ⟨0, le_refl _, zero_le_one, by ext <;> simp⟩, ⟨1, zero_le_one, le_refl _, by ext <;> simp⟩, 1,
          one_pos, by ext <;> simp⟩, by simp, by simp⟩
      · exact e2 it hit
    · simp [e3, List.range'_succ]
    · rintro x ⟨s', hs', hx⟩
      rcases List.mem_cons.1 hs' with rfl | hs'
      · exact ⟨_, List.mem_cons_self, hx⟩
      · obtain ⟨it, hit, hx⟩ := e4 x ⟨s', hs', hx⟩
        exact ⟨it, List.mem_cons_of_mem _ hit, hx⟩
    · unfold unusedCount at *
      simp [e5]

/-- The constructor builds a tree. -/
theorem solidBsp_built {mk : P2 K → P2 K → Res (Plane2 K)} {sel : List (BspItem K) → Option Nat} (hsel : Selects sel)
    {sides : List (P2 K × P2 K)} (hm : MakesPlanes mk sides) {fuel : Nat} (hf : sides.length < fuel) :
    ∃ t items, solidBsp mk Cmp.direct sel fuel sides = .ok t ∧ Built sides [] false items t ∧
      (∀ x, OnBorder sides x → ∃ it ∈ items, OnSegment it.a it.b x) := by
  obtain ⟨items, e1, e2, e3, e4, e5⟩ := makeItems_spec (all := sides) sides 0 (by simp) hm
  obtain ⟨t, h1, h2⟩ := buildSolid_built hsel fuel [] false items (by omega) e2 (by simp [Fresh])
    (by rw [e3]; exact List.nodup_range')
  refine ⟨t, items, ?_, h2, e4⟩
  unfold solidBsp
  rw [e1]
  exact h1

end Geometrix
