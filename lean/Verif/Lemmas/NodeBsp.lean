import Verif.Model.NodeBsp
import Verif.Spec.NodeBsp
import Verif.Lemmas.SolidBspPoint
import Verif.Lemmas.Orientation
import Verif.Lemmas.Between
import Mathlib.Tactic.Linarith
import Mathlib.Tactic.FieldSimp

/-!
# Helpers for trees with the segments at the nodes: how the tree is built
-/

set_option linter.unusedSectionVars false

namespace Geometrix
open Spec

variable {K : Type*} [Field K] [LinearOrder K] [IsStrictOrderedRing K]

/-- The line through the segment, with a normal that is not of unit length. -/
def linePlane (s : P2 K × P2 K) : Plane2 K := ⟨toLeft s, dot s.1 (toLeft s)⟩

theorem linePlane_dist (s : P2 K × P2 K) (x : P2 K) : planeDist (linePlane s) x = area2 s.1 s.2 x := by
  simp only [planeDist, linePlane, dot, toLeft, area2]; ring

/-- What each answer of `classify` means. -/
def EdgeCase (s e : P2 K × P2 K) : EdgeClass K → Prop
  | .crosses P N => ∃ x, InsideSegment e.1 e.2 x ∧ planeDist (linePlane s) x = 0 ∧
      ((P = (x, e.2) ∧ N = (e.1, x) ∧ planeDist (linePlane s) e.1 < 0 ∧ 0 < planeDist (linePlane s) e.2) ∨
       (P = (e.1, x) ∧ N = (x, e.2) ∧ 0 < planeDist (linePlane s) e.1 ∧ planeDist (linePlane s) e.2 < 0))
  | .positive => 0 ≤ planeDist (linePlane s) e.1 ∧ 0 ≤ planeDist (linePlane s) e.2 ∧
      (0 < planeDist (linePlane s) e.1 ∨ 0 < planeDist (linePlane s) e.2)
  | .negative => planeDist (linePlane s) e.1 ≤ 0 ∧ planeDist (linePlane s) e.2 ≤ 0 ∧
      (planeDist (linePlane s) e.1 < 0 ∨ planeDist (linePlane s) e.2 < 0)
  | .coincident => planeDist (linePlane s) e.1 = 0 ∧ planeDist (linePlane s) e.2 = 0

theorem lineSegment_crossing {A B C D : P2 K}
    (h : (0 < area2 A B C ∧ area2 A B D < 0) ∨ (area2 A B C < 0 ∧ 0 < area2 A B D)) :
    ∃ x, lineSegmentIntersect Cmp.direct A B C D = .ok (.crossing, some x) ∧ InsideSegment C D x ∧ area2 A B x = 0 := by
  have hd : xDenom A B C D = area2 A B C - area2 A B D := by simp only [xDenom, area2]; ring
  have hn : xNumT A B C = area2 A B C := by simp only [xNumT, area2]; ring
  have hne : xDenom A B C D ≠ 0 := by
    rw [hd]; rcases h with ⟨h1, h2⟩ | ⟨h1, h2⟩
    · exact (by linarith : 0 < area2 A B C - area2 A B D).ne'
    · exact (by linarith : area2 A B C - area2 A B D < 0).ne
  set t := xNumT A B C / xDenom A B C D with ht
  have t01 : 0 < t ∧ t < 1 := by
    rw [ht, hd, hn]
    rcases h with ⟨h1, h2⟩ | ⟨h1, h2⟩
    · have : 0 < area2 A B C - area2 A B D := by linarith
      exact ⟨div_pos h1 this, (div_lt_one this).2 (by linarith)⟩
    · have : area2 A B C - area2 A B D < 0 := by linarith
      exact ⟨div_pos_of_neg_of_neg h1 this, (div_lt_one_of_neg this).2 (by linarith)⟩
  refine ⟨C + t • (D - C), ?_, ⟨t, t01.1, t01.2, rfl⟩, ?_⟩
  · simp [lineSegmentIntersect, hne, cdiv, ← ht, t01.1, t01.2, t01.1.not_gt, t01.2.not_gt]
  · have e : area2 A B (C + t • (D - C)) = area2 A B C - t * (area2 A B C - area2 A B D) := by
      simp only [area2, P2.add_x, P2.add_y, P2.smul_x, P2.smul_y, P2.sub_x, P2.sub_y]; ring
    rw [e, ← hd, ht, hn]
    field_simp
    ring

theorem edgeSide_case {s e : P2 K × P2 K}
    (h : ¬((0 < area2 s.1 s.2 e.1 ∧ area2 s.1 s.2 e.2 < 0) ∨ (area2 s.1 s.2 e.1 < 0 ∧ 0 < area2 s.1 s.2 e.2))) :
    EdgeCase s e (edgeSide (getOrientation Cmp.direct s.1 s.2 e.1) (getOrientation Cmp.direct s.1 s.2 e.2)) := by
  obtain ⟨l1, r1, -⟩ := orientation_sign s.1 s.2 e.1
  obtain ⟨l2, r2, -⟩ := orientation_sign s.1 s.2 e.2
  unfold edgeSide
  push Not at h
  obtain ⟨h1, h2⟩ := h
  split_ifs with c1 c2 <;> simp only [l1, l2, r1, r2] at c1 <;> try simp only [l1, l2, r1, r2] at c2
  · simp only [EdgeCase, linePlane_dist]
    refine ⟨?_, ?_, c1⟩
    · rcases c1 with c | c
      · exact c.le
      · by_contra hh; exact absurd (h2 (not_le.1 hh)) (not_le.2 c)
    · rcases c1 with c | c
      · exact h1 c
      · exact c.le
  · push Not at c1
    simp only [EdgeCase, linePlane_dist]
    exact ⟨c1.1, c1.2, c2⟩
  · push Not at c1 c2
    simp only [EdgeCase, linePlane_dist]
    exact ⟨le_antisymm c1.1 c2.1, le_antisymm c1.2 c2.2⟩

theorem classifyEdge_case (s e : P2 K × P2 K) : ∃ c, classifyEdge Cmp.direct s e = .ok c ∧ EdgeCase s e c := by
  obtain ⟨l1, r1, -⟩ := orientation_sign s.1 s.2 e.1
  obtain ⟨l2, r2, -⟩ := orientation_sign s.1 s.2 e.2
  unfold classifyEdge
  dsimp only
  by_cases h : (0 < area2 s.1 s.2 e.1 ∧ area2 s.1 s.2 e.2 < 0) ∨ (area2 s.1 s.2 e.1 < 0 ∧ 0 < area2 s.1 s.2 e.2)
  · rw [if_pos (by rw [l1, l2, r1, r2]; exact h)]
    obtain ⟨x, hx, hin, h0⟩ := lineSegment_crossing h
    rw [hx]
    refine ⟨_, rfl, ?_⟩
    have n1 : ¬seqEquals Cmp.direct e.1 x = true := by
      rw [seqEquals_direct]; intro hh; rw [← hh] at h0; rcases h with h | h <;> linarith [h.1]
    have n2 : ¬seqEquals Cmp.direct e.2 x = true := by
      rw [seqEquals_direct]; intro hh; rw [← hh] at h0; rcases h with h | h <;> linarith [h.2]
    unfold edgeCut
    rw [if_neg n1, if_neg n2, if_neg n1, if_neg n2]
    split_ifs with hl <;> rw [l2] at hl
    · simp only [EdgeCase, linePlane_dist]
      refine ⟨x, hin, h0, Or.inl ⟨rfl, rfl, ?_, hl⟩⟩
      rcases h with h | h <;> linarith [h.1, h.2]
    · simp only [EdgeCase, linePlane_dist]
      refine ⟨x, hin, h0, Or.inr ⟨rfl, rfl, ?_, ?_⟩⟩
      · rcases h with h | h
        · exact h.1
        · exact absurd h.2 hl
      · rcases h with h | h
        · exact h.2
        · exact absurd h.2 hl
  · rw [if_neg (by rw [l1, l2, r1, r2]; exact h)]
    exact ⟨_, rfl, edgeSide_case h⟩

/-- Where each segment goes. -/
inductive SortsTo (s : P2 K × P2 K) : List (P2 K × P2 K) → Sorted K → Prop where
  | nil : SortsTo s [] ⟨[], [], []⟩
  | cons {e l r c} (hc : EdgeCase s e c) (h : SortsTo s l r) : SortsTo s (e :: l) (r.add e c)

theorem sortEdges_sortsTo (s : P2 K × P2 K) : ∀ l, ∃ r, sortEdges Cmp.direct s l = .ok r ∧ SortsTo s l r
  | [] => ⟨_, rfl, .nil⟩
  | e :: l => by
    obtain ⟨c, h1, h2⟩ := classifyEdge_case s e
    obtain ⟨r, h3, h4⟩ := sortEdges_sortsTo s l
    exact ⟨r.add e c, by rw [sortEdges, h1, h3], .cons h2 h4⟩

/-- `f` is a part of `e`, in the same direction. -/
def Part (e f : P2 K × P2 K) : Prop :=
  ∃ u v : K, 0 ≤ u ∧ u < v ∧ v ≤ 1 ∧ f.1 = e.1 + u • (e.2 - e.1) ∧ f.2 = e.1 + v • (e.2 - e.1)

theorem Part.refl (e : P2 K × P2 K) : Part e e :=
  ⟨0, 1, le_refl _, one_pos, le_refl _, by ext <;> simp, by ext <;> simp⟩

theorem Part.trans {e f g : P2 K × P2 K} (h1 : Part e f) (h2 : Part f g) : Part e g := by
  obtain ⟨u, v, a1, a2, a3, a4, a5⟩ := h1
  obtain ⟨u', v', b1, b2, b3, b4, b5⟩ := h2
  have hvu : 0 < v - u := by linarith
  refine ⟨u + u' * (v - u), u + v' * (v - u), ?_, ?_, ?_, ?_, ?_⟩
  · have := mul_nonneg b1 hvu.le; linarith
  · have := mul_pos (sub_pos.2 b2) hvu; linarith
  · have := mul_nonneg (sub_nonneg.2 b3) hvu.le; linarith
  · rw [b4, a4, a5]
    ext <;> simp only [P2.sub_x, P2.sub_y, P2.smul_x, P2.smul_y, P2.add_x, P2.add_y] <;> ring
  · rw [b5, a4, a5]
    ext <;> simp only [P2.sub_x, P2.sub_y, P2.smul_x, P2.smul_y, P2.add_x, P2.add_y] <;> ring

theorem Part.ne {e f : P2 K × P2 K} (h : Part e f) (he : e.1 ≠ e.2) : f.1 ≠ f.2 := by
  obtain ⟨u, v, -, a2, -, a4, a5⟩ := h
  intro hf
  rw [a4, a5, P2.ext_iff] at hf
  simp only [P2.sub_x, P2.sub_y, P2.smul_x, P2.smul_y, P2.add_x, P2.add_y] at hf
  have ex : (v - u) * (e.2.x - e.1.x) = 0 := by linear_combination -hf.1
  have ey : (v - u) * (e.2.y - e.1.y) = 0 := by linear_combination -hf.2
  have hz : v - u ≠ 0 := (sub_pos.2 a2).ne'
  apply he
  ext
  · have := (mul_eq_zero.1 ex).resolve_left hz; linarith
  · have := (mul_eq_zero.1 ey).resolve_left hz; linarith

theorem Part.on {e f : P2 K × P2 K} (h : Part e f) {x : P2 K} (hx : OnSegment f.1 f.2 x) : OnSegment e.1 e.2 x := by
  obtain ⟨u, v, a1, a2, a3, a4, a5⟩ := h
  exact onSegment_trans ⟨u, a1, by linarith, a4⟩ ⟨v, by linarith, a3, a5⟩ hx

theorem Part.inside {e f : P2 K × P2 K} (h : Part e f) {x : P2 K} (hx : InsideSegment f.1 f.2 x) :
    InsideSegment e.1 e.2 x := by
  obtain ⟨u, v, a1, a2, a3, a4, a5⟩ := h
  obtain ⟨t, t0, t1, rfl⟩ := hx
  have hvu : 0 < v - u := by linarith
  refine ⟨u + t * (v - u), ?_, ?_, ?_⟩
  · have := mul_pos t0 hvu; linarith
  · have := mul_pos (sub_pos.2 t1) hvu; linarith
  · rw [a4, a5]
    ext <;> simp only [P2.sub_x, P2.sub_y, P2.smul_x, P2.smul_y, P2.add_x, P2.add_y] <;> ring

/-- The line of a part is the line of the whole. -/
theorem Part.dist {e f : P2 K × P2 K} (h : Part e f) :
    ∃ k : K, 0 < k ∧ ∀ x, area2 f.1 f.2 x = k * area2 e.1 e.2 x := by
  obtain ⟨u, v, a1, a2, a3, a4, a5⟩ := h
  refine ⟨v - u, by linarith, fun x => ?_⟩
  simp only [area2, a4, a5, P2.sub_x, P2.sub_y, P2.smul_x, P2.smul_y, P2.add_x, P2.add_y]
  ring

theorem part_first {e : P2 K × P2 K} {x : P2 K} (hx : InsideSegment e.1 e.2 x) : Part e (e.1, x) := by
  obtain ⟨t, t0, t1, rfl⟩ := hx
  exact ⟨0, t, le_refl _, t0, t1.le, by ext <;> simp, rfl⟩

theorem part_last {e : P2 K × P2 K} {x : P2 K} (hx : InsideSegment e.1 e.2 x) : Part e (x, e.2) := by
  obtain ⟨t, t0, t1, rfl⟩ := hx
  exact ⟨t, 1, t0.le, t1, le_refl _, rfl, by ext <;> simp⟩

theorem on_halves {a b x y : P2 K} (hx : InsideSegment a b x) (hy : OnSegment a b y) :
    OnSegment a x y ∨ OnSegment x b y := by
  obtain ⟨t, t0, t1, rfl⟩ := hx
  obtain ⟨u, u0, u1, rfl⟩ := hy
  rcases le_total u t with h | h
  · refine Or.inl ⟨u / t, div_nonneg u0 t0.le, (div_le_one t0).2 h, ?_⟩
    have : u / t * t = u := div_mul_cancel₀ u t0.ne'
    ext <;> simp only [P2.sub_x, P2.sub_y, P2.smul_x, P2.smul_y, P2.add_x, P2.add_y]
    · linear_combination -(b.x - a.x) * this
    · linear_combination -(b.y - a.y) * this
  · have h1t : 0 < 1 - t := by linarith
    refine Or.inr ⟨(u - t) / (1 - t), div_nonneg (by linarith) h1t.le, (div_le_one h1t).2 (by linarith), ?_⟩
    have : (u - t) / (1 - t) * (1 - t) = u - t := div_mul_cancel₀ _ h1t.ne'
    ext <;> simp only [P2.sub_x, P2.sub_y, P2.smul_x, P2.smul_y, P2.add_x, P2.add_y]
    · linear_combination -(b.x - a.x) * this
    · linear_combination -(b.y - a.y) * this

/-- Where the sorted segments come from. -/
theorem SortsTo.origin {s : P2 K × P2 K} {l : List (P2 K × P2 K)} {r : Sorted K} (h : SortsTo s l r) :
    (∀ f ∈ r.pos, ∃ e ∈ l, Part e f ∧ EdgeCase s f .positive) ∧
    (∀ f ∈ r.neg, ∃ e ∈ l, Part e f ∧ EdgeCase s f .negative) ∧
    (∀ f ∈ r.coin, f ∈ l ∧ EdgeCase s f .coincident) := by
  induction h with
  | nil => simp
  | @cons e l r c hc h ih =>
    obtain ⟨i1, i2, i3⟩ := ih
    have j1 : ∀ f ∈ r.pos, ∃ e' ∈ e :: l, Part e' f ∧ EdgeCase s f .positive := fun f hf => by
      obtain ⟨e', he, h⟩ := i1 f hf
      exact ⟨e', List.mem_cons_of_mem _ he, h⟩
    have j2 : ∀ f ∈ r.neg, ∃ e' ∈ e :: l, Part e' f ∧ EdgeCase s f .negative := fun f hf => by
      obtain ⟨e', he, h⟩ := i2 f hf
      exact ⟨e', List.mem_cons_of_mem _ he, h⟩
    have j3 : ∀ f ∈ r.coin, f ∈ e :: l ∧ EdgeCase s f .coincident := fun f hf =>
      ⟨List.mem_cons_of_mem _ (i3 f hf).1, (i3 f hf).2⟩
    cases c with
    | crosses P N =>
      obtain ⟨x, hx, h0, ⟨rfl, rfl, h1, h2⟩ | ⟨rfl, rfl, h1, h2⟩⟩ := hc
      · refine ⟨?_, ?_, j3⟩
        · intro f hf
          rcases List.mem_cons.1 hf with rfl | hf
          · exact ⟨e, List.mem_cons_self, part_last hx, h0.ge, h2.le, Or.inr h2⟩
          · exact j1 f hf
        · intro f hf
          rcases List.mem_cons.1 hf with rfl | hf
          · exact ⟨e, List.mem_cons_self, part_first hx, h1.le, h0.le, Or.inl h1⟩
          · exact j2 f hf
      · refine ⟨?_, ?_, j3⟩
        · intro f hf
          rcases List.mem_cons.1 hf with rfl | hf
          · exact ⟨e, List.mem_cons_self, part_first hx, h1.le, h0.ge, Or.inl h1⟩
          · exact j1 f hf
        · intro f hf
          rcases List.mem_cons.1 hf with rfl | hf
          · exact ⟨e, List.mem_cons_self, part_last hx, h0.le, h2.le, Or.inr h2⟩
          · exact j2 f hf
    | positive =>
      refine ⟨?_, j2, j3⟩
      intro f hf
      rcases List.mem_cons.1 hf with rfl | hf
      · exact ⟨f, List.mem_cons_self, Part.refl f, hc⟩
      · exact j1 f hf
    | negative =>
      refine ⟨j1, ?_, j3⟩
      intro f hf
      rcases List.mem_cons.1 hf with rfl | hf
      · exact ⟨f, List.mem_cons_self, Part.refl f, hc⟩
      · exact j2 f hf
    | coincident =>
      refine ⟨j1, j2, ?_⟩
      intro f hf
      rcases List.mem_cons.1 hf with rfl | hf
      · exact ⟨List.mem_cons_self, hc⟩
      · exact j3 f hf

/-- Each point of a segment is on what has become of it. -/
theorem SortsTo.cover {s : P2 K × P2 K} {l : List (P2 K × P2 K)} {r : Sorted K} (h : SortsTo s l r) :
    ∀ e ∈ l, ∀ x, OnSegment e.1 e.2 x → (∃ f ∈ r.pos, Part e f ∧ OnSegment f.1 f.2 x) ∨
      (∃ f ∈ r.neg, Part e f ∧ OnSegment f.1 f.2 x) ∨ (e ∈ r.coin ∧ EdgeCase s e .coincident) := by
  induction h with
  | nil => simp
  | @cons e l r c hc h ih =>
    intro e' he' x hx
    rcases List.mem_cons.1 he' with rfl | he'
    · cases c with
      | crosses P N =>
        obtain ⟨z, hz, h0, ⟨rfl, rfl, h1, h2⟩ | ⟨rfl, rfl, h1, h2⟩⟩ := hc
        · rcases on_halves hz hx with h | h
          · exact Or.inr (Or.inl ⟨_, List.mem_cons_self, part_first hz, h⟩)
          · exact Or.inl ⟨_, List.mem_cons_self, part_last hz, h⟩
        · rcases on_halves hz hx with h | h
          · exact Or.inl ⟨_, List.mem_cons_self, part_first hz, h⟩
          · exact Or.inr (Or.inl ⟨_, List.mem_cons_self, part_last hz, h⟩)
      | positive => exact Or.inl ⟨_, List.mem_cons_self, Part.refl _, hx⟩
      | negative => exact Or.inr (Or.inl ⟨_, List.mem_cons_self, Part.refl _, hx⟩)
      | coincident => exact Or.inr (Or.inr ⟨List.mem_cons_self, hc⟩)
    · have sub1 : ∀ f ∈ r.pos, f ∈ (r.add e c).pos := by
        intro f hf; cases c <;> simp [Sorted.add, hf]
      have sub2 : ∀ f ∈ r.neg, f ∈ (r.add e c).neg := by
        intro f hf; cases c <;> simp [Sorted.add, hf]
      have sub3 : ∀ f ∈ r.coin, f ∈ (r.add e c).coin := by
        intro f hf; cases c <;> simp [Sorted.add, hf]
      rcases ih e' he' x hx with ⟨f, h1, h2⟩ | ⟨f, h1, h2⟩ | ⟨h1, h2⟩
      · exact Or.inl ⟨f, sub1 f h1, h2⟩
      · exact Or.inr (Or.inl ⟨f, sub2 f h1, h2⟩)
      · exact Or.inr (Or.inr ⟨sub3 _ h1, h2⟩)

theorem SortsTo.append {s : P2 K × P2 K} {l l' : List (P2 K × P2 K)} {r r' : Sorted K} (h : SortsTo s l r)
    (h' : SortsTo s l' r') : SortsTo s (l ++ l') ⟨r.pos ++ r'.pos, r.neg ++ r'.neg, r.coin ++ r'.coin⟩ := by
  induction h with
  | nil => simpa using h'
  | @cons e l r c hc h ih =>
    have := SortsTo.cons hc ih
    cases c <;> simpa [Sorted.add] using this

/-- A list has no more segments on one side than there are, and fewer if one is coincident. -/
theorem SortsTo.length {s : P2 K × P2 K} {l : List (P2 K × P2 K)} {r : Sorted K} (h : SortsTo s l r) :
    r.pos.length + r.coin.length ≤ l.length ∧ r.neg.length + r.coin.length ≤ l.length := by
  induction h with
  | nil => simp
  | @cons e l r c hc h ih => cases c <;> simp [Sorted.add] <;> omega

theorem SortsTo.split_mem {s : P2 K × P2 K} {l : List (P2 K × P2 K)} {r : Sorted K} (h : SortsTo s l r)
    (hs : s ∈ l) : s ∈ r.coin := by
  have z : ∀ f : P2 K × P2 K, Part s f → planeDist (linePlane s) f.1 = 0 ∧ planeDist (linePlane s) f.2 = 0 := by
    rintro f ⟨u, v, -, -, -, h1, h2⟩
    rw [linePlane_dist, linePlane_dist, h1, h2]
    simp only [area2, P2.sub_x, P2.sub_y, P2.smul_x, P2.smul_y, P2.add_x, P2.add_y]
    constructor <;> ring
  rcases h.cover s hs s.1 ⟨0, le_refl _, zero_le_one, by ext <;> simp⟩ with ⟨f, h1, h2, -⟩ | ⟨f, h1, h2, -⟩ | ⟨h1, -⟩
  · obtain ⟨-, -, -, h3⟩ := h.origin.1 f h1
    have := z f h2
    rcases h3.2.2 with h | h <;> linarith
  · obtain ⟨-, -, -, h3⟩ := h.origin.2.1 f h1
    have := z f h2
    rcases h3.2.2 with h | h <;> linarith
  · exact h1

/-- The tree made of these segments. -/
def NodeOf : List (P2 K × P2 K) → NodeTree K → Prop
  | l, .nil => l = []
  | l, .node s coin p q => s ∈ l ∧ ∃ r, SortsTo s l r ∧ coin = r.coin ∧ NodeOf r.pos p ∧ NodeOf r.neg q

theorem SortsTo.ne {s : P2 K × P2 K} {l : List (P2 K × P2 K)} {r : Sorted K} (h : SortsTo s l r)
    (hl : ∀ e ∈ l, e.1 ≠ e.2) : (∀ e ∈ r.pos, e.1 ≠ e.2) ∧ (∀ e ∈ r.neg, e.1 ≠ e.2) := by
  constructor
  · intro f hf
    obtain ⟨e, he, hp, -⟩ := h.origin.1 f hf
    exact hp.ne (hl e he)
  · intro f hf
    obtain ⟨e, he, hp, -⟩ := h.origin.2.1 f hf
    exact hp.ne (hl e he)

theorem buildNode_of {sel : EdgeSelector K} (hsel : SelectsEdge sel) : ∀ (n : Nat) (path : List Bool) (l : List (P2 K × P2 K)),
    l.length < n → l ≠ [] → (∀ e ∈ l, e.1 ≠ e.2) →
    ∃ t, buildNode Cmp.direct sel n path l = .ok t ∧ NodeOf l t ∧ t ≠ .nil
  | 0, _, _, h, _, _ => by simp at h
  | n + 1, path, l, hn, hl, hne => by
    obtain ⟨s, hs, h1⟩ := hsel path l hl hne
    obtain ⟨r, h2, h3⟩ := sortEdges_sortsTo s l
    have hco := List.length_pos_of_mem (h3.split_mem hs)
    have hlen := h3.length
    have hne' := h3.ne hne
    rw [buildNode, h1]
    dsimp only
    rw [if_neg (hne s hs), h2]
    dsimp only
    obtain ⟨p, hp, hp'⟩ : ∃ p, (if r.pos = [] then Except.ok .nil else buildNode Cmp.direct sel n (true :: path) r.pos) = .ok p ∧
        NodeOf r.pos p := by
      split_ifs with h
      · exact ⟨_, rfl, h⟩
      · obtain ⟨t, h4, h5, -⟩ := buildNode_of hsel n (true :: path) r.pos (by omega) h hne'.1
        exact ⟨t, h4, h5⟩
    obtain ⟨q, hq, hq'⟩ : ∃ p, (if r.neg = [] then Except.ok .nil else buildNode Cmp.direct sel n (false :: path) r.neg) = .ok p ∧
        NodeOf r.neg p := by
      split_ifs with h
      · exact ⟨_, rfl, h⟩
      · obtain ⟨t, h4, h5, -⟩ := buildNode_of hsel n (false :: path) r.neg (by omega) h hne'.2
        exact ⟨t, h4, h5⟩
    rw [hp]
    dsimp only
    rw [hq]
    exact ⟨_, rfl, ⟨hs, r, h3, rfl, hp', hq'⟩, by simp⟩

theorem insertNode_of {sel : EdgeSelector K} (hsel : SelectsEdge sel) : ∀ (t : NodeTree K) (path : List Bool)
    (l l' : List (P2 K × P2 K)), NodeOf l t → (∀ e ∈ l', e.1 ≠ e.2) →
    ∃ t', insertNode Cmp.direct sel path t l' = .ok t' ∧ NodeOf (l ++ l') t' ∧ (t ≠ .nil → t' ≠ .nil)
  | .nil, path, l, l', h, hne => by
    rw [show l = [] from h, insertNode]
    split_ifs with hl
    · exact ⟨_, rfl, by simp [NodeOf, hl], fun h => h⟩
    · obtain ⟨t, h1, h2, -⟩ := buildNode_of hsel (l'.length + 1) path l' (by omega) hl hne
      exact ⟨t, h1, by simpa using h2, by simp⟩
  | .node s coin p q, path, l, l', ⟨hs, r, h1, h2, h3, h4⟩, hne => by
    obtain ⟨r', h5, h6⟩ := sortEdges_sortsTo s l'
    have hne' := h6.ne hne
    rw [insertNode, h5]
    dsimp only
    obtain ⟨p', hp, hp'⟩ : ∃ p', (if r'.pos = [] then Except.ok p else insertNode Cmp.direct sel (true :: path) p r'.pos) = .ok p' ∧
        NodeOf (r.pos ++ r'.pos) p' := by
      split_ifs with h
      · exact ⟨_, rfl, by simpa [h] using h3⟩
      · obtain ⟨t, h4, h5, -⟩ := insertNode_of hsel p (true :: path) r.pos r'.pos h3 hne'.1
        exact ⟨t, h4, h5⟩
    obtain ⟨q', hq, hq'⟩ : ∃ q', (if r'.neg = [] then Except.ok q else insertNode Cmp.direct sel (false :: path) q r'.neg) = .ok q' ∧
        NodeOf (r.neg ++ r'.neg) q' := by
      split_ifs with h
      · exact ⟨_, rfl, by simpa [h] using h4⟩
      · obtain ⟨t, h4, h5, -⟩ := insertNode_of hsel q (false :: path) r.neg r'.neg h4 hne'.2
        exact ⟨t, h4, h5⟩
    rw [hp]
    dsimp only
    rw [hq]
    exact ⟨_, rfl, ⟨List.mem_append_left _ hs, _, h1.append h6, by rw [h2], hp', hq'⟩, by simp⟩

theorem GrownTree.nodeOf {l : List (P2 K × P2 K)} {t : NodeTree K} (h : GrownTree Cmp.direct l t)
    (hne : ∀ e ∈ l, e.1 ≠ e.2) : NodeOf l t ∧ t ≠ .nil := by
  induction h with
  | @built sel l t hsel hl h =>
    obtain ⟨t', h1, h2, h3⟩ := buildNode_of hsel (l.length + 1) [] l (by omega) hl hne
    rw [nodeBsp, h1] at h
    cases h
    exact ⟨h2, h3⟩
  | @insert sel l more t t' hsel h h' ih =>
    obtain ⟨i1, i2⟩ := ih (fun e he => hne e (List.mem_append_left _ he))
    obtain ⟨t'', h1, h2, h3⟩ := insertNode_of hsel t [] l more i1 fun e he => hne e (List.mem_append_right _ he)
    rw [h1] at h'
    cases h'
    exact ⟨h2, h3 i2⟩

theorem firstSelector_selects : SelectsEdge (K := K) firstSelector := by
  intro path l hl _
  cases l with
  | nil => simp at hl
  | cons s l => exact ⟨s, List.mem_cons_self, rfl⟩

theorem tallyLoop_ok (plane : P2 K × P2 K) (i : Nat) : ∀ (l : List (P2 K × P2 K)) (j : Nat) (t : Tally),
    ∃ t', tallyLoop Cmp.direct plane i j l t = .ok t'
  | [], j, t => ⟨t, rfl⟩
  | e :: l, j, t => by
    rw [tallyLoop]
    split_ifs with h
    · exact tallyLoop_ok plane i l _ _
    · obtain ⟨c, hc, -⟩ := classifyEdge_case e plane
      rw [scoredClassify, hc]
      cases c <;> exact tallyLoop_ok plane i l _ _

theorem scoredEdgeLoop_mem (all : List (P2 K × P2 K)) : ∀ (l : List (P2 K × P2 K)) (i : Nat) (best : Option (Int × (P2 K × P2 K))),
    ∃ b, scoredEdgeLoop Cmp.direct all i l best = .ok b ∧ ((b = best ∧ (l ≠ [] → best ≠ none)) ∨ ∃ c, b = some c ∧ c.2 ∈ l)
  | [], i, best => ⟨best, rfl, Or.inl ⟨rfl, by simp⟩⟩
  | s :: l, i, best => by
    obtain ⟨t, ht⟩ := tallyLoop_ok s i all 0 ⟨0, 0, 0⟩
    have next : ∃ b, scoredEdgeLoop Cmp.direct all (i + 1) l (some (t.score, s)) = .ok b ∧
        ((b = best ∧ (s :: l ≠ [] → best ≠ none)) ∨ ∃ c, b = some c ∧ c.2 ∈ s :: l) := by
      obtain ⟨b, h1, ⟨rfl, -⟩ | ⟨c, rfl, h2⟩⟩ := scoredEdgeLoop_mem all l (i + 1) (some (t.score, s))
      · exact ⟨_, h1, Or.inr ⟨_, rfl, List.mem_cons_self⟩⟩
      · exact ⟨_, h1, Or.inr ⟨_, rfl, List.mem_cons_of_mem _ h2⟩⟩
    rw [scoredEdgeLoop, ht]
    dsimp only
    cases best with
    | none => exact next
    | some b =>
      dsimp only
      split_ifs with h
      · exact next
      · obtain ⟨b', h1, ⟨rfl, -⟩ | ⟨c, rfl, h2⟩⟩ := scoredEdgeLoop_mem all l (i + 1) (some b)
        · exact ⟨_, h1, Or.inl ⟨rfl, by simp⟩⟩
        · exact ⟨_, h1, Or.inr ⟨_, rfl, List.mem_cons_of_mem _ h2⟩⟩

theorem scoredEdgeSelector_selects : SelectsEdge (K := K) (scoredEdgeSelector Cmp.direct) := by
  intro path l hl _
  obtain ⟨b, h1, ⟨rfl, h2⟩ | ⟨c, rfl, h2⟩⟩ := scoredEdgeLoop_mem l l 0 none
  · exact absurd rfl (h2 hl)
  · exact ⟨c.2, h2, by rw [scoredEdgeSelector, h1]⟩

end Geometrix
