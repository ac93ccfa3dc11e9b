import Verif.Lemmas.NodeBsp
import Mathlib.Algebra.Order.Group.Multiset
import Mathlib.Tactic.Abel

/-!
# Helpers for trees with the segments at the nodes: the order of the visits
-/

set_option linter.unusedSectionVars false

namespace Geometrix
open Spec

variable {K : Type*} [Field K] [LinearOrder K] [IsStrictOrderedRing K]

theorem pairwise_all {α : Type*} {R : α → α → Prop} : ∀ {l : List α}, (∀ f ∈ l, ∀ g ∈ l, R f g) → l.Pairwise R
  | [], _ => .nil
  | a :: l, h => .cons (fun g hg => h a List.mem_cons_self g (List.mem_cons_of_mem _ hg))
    (pairwise_all fun f hf g hg => h f (List.mem_cons_of_mem _ hf) g (List.mem_cons_of_mem _ hg))

theorem Spec.CutInto.perm_left {l l' m : List (P2 K × P2 K)} (hp : l.Perm l') (h : CutInto l' m) : CutInto l m := by
  cases h with
  | done h => exact .done (hp.trans h)
  | cut h hx next => exact .cut (hp.trans h) hx next

theorem Spec.CutInto.trans {l m n : List (P2 K × P2 K)} (h : CutInto l m) (h' : CutInto m n) : CutInto l n := by
  induction h with
  | done h => exact h'.perm_left h
  | cut h hx next ih => exact .cut h hx (ih h')

theorem Spec.CutInto.perm_right {l m m' : List (P2 K × P2 K)} (h : CutInto l m) (hp : m.Perm m') : CutInto l m' :=
  h.trans (.done hp)

theorem Spec.CutInto.append_right {l m : List (P2 K × P2 K)} (h : CutInto l m) (k : List (P2 K × P2 K)) :
    CutInto (l ++ k) (m ++ k) := by
  induction h with
  | done h => exact .done (h.append_right k)
  | cut h hx next ih => exact .cut (h.append_right k) hx ih

theorem Spec.CutInto.append {l m l' m' : List (P2 K × P2 K)} (h : CutInto l m) (h' : CutInto l' m') :
    CutInto (l ++ l') (m ++ m') := by
  refine (h.append_right l').trans ?_
  exact ((h'.append_right m).perm_left List.perm_append_comm).perm_right List.perm_append_comm

theorem SortsTo.cutInto {s : P2 K × P2 K} {l : List (P2 K × P2 K)} {r : Sorted K} (h : SortsTo s l r) :
    CutInto l (r.pos ++ r.neg ++ r.coin) := by
  induction h with
  | nil => exact .done (by simp)
  | @cons e l r c hc h ih =>
    have one : CutInto (e :: l) (e :: (r.pos ++ r.neg ++ r.coin)) := by
      simpa using CutInto.append (l := [e]) (.done (List.Perm.refl _)) ih
    cases c with
    | crosses P N =>
      obtain ⟨x, hx, -, ⟨rfl, rfl, -⟩ | ⟨rfl, rfl, -⟩⟩ := hc
      · refine .cut (List.Perm.refl _) hx ?_
        refine (CutInto.append (l := [(e.1, x), (x, e.2)]) (.done (List.Perm.refl _)) ih).perm_right ?_
        simp only [Sorted.add, List.cons_append, List.nil_append]
        refine (List.Perm.swap _ _ _).trans (List.Perm.cons _ ?_)
        rw [List.append_assoc, List.append_assoc]
        exact List.perm_middle.symm
      · refine .cut (List.Perm.refl _) hx ?_
        refine (CutInto.append (l := [(e.1, x), (x, e.2)]) (.done (List.Perm.refl _)) ih).perm_right ?_
        simp only [Sorted.add, List.cons_append, List.nil_append]
        refine List.Perm.cons _ ?_
        rw [List.append_assoc, List.append_assoc]
        exact List.perm_middle.symm
    | positive => exact one
    | negative =>
      refine one.perm_right ?_
      simp only [Sorted.add]
      rw [List.append_assoc, List.append_assoc]
      exact List.perm_middle.symm
    | coincident =>
      refine one.perm_right ?_
      simp only [Sorted.add]
      exact List.perm_middle.symm

theorem area2_on_line {a b c d v : P2 K} (hab : a ≠ b) (h1 : area2 a b c = 0) (h2 : area2 a b d = 0)
    (h3 : area2 a b v = 0) : area2 c d v = 0 := by
  obtain ⟨k1, k2⟩ := area2_swap hab h1 h2
  obtain ⟨k3, k4⟩ := area2_swap hab h1 h3
  obtain ⟨k5, k6⟩ := area2_swap hab h2 h3
  by_cases hcd : c = d
  · rw [hcd]; simp [area2]
  · by_cases hcv : c = v
    · rw [← hcv]; simp only [area2]; ring
    · have := (area2_swap hcv k3 k4).2
      simp only [area2] at *
      rcases eq_or_ne a.x b.x with hx | hx
      · have hy : b.y - a.y ≠ 0 := fun hy => hab (P2.ext hx (by linarith))
        have e1 : (b.y - a.y) * (c.x - a.x) = 0 := by rw [hx] at h1 ⊢; linear_combination -h1
        have e2 : (b.y - a.y) * (d.x - a.x) = 0 := by rw [hx] at h2 ⊢; linear_combination -h2
        have e3 : (b.y - a.y) * (v.x - a.x) = 0 := by rw [hx] at h3 ⊢; linear_combination -h3
        have f1 := (mul_eq_zero.1 e1).resolve_left hy
        have f2 := (mul_eq_zero.1 e2).resolve_left hy
        have f3 := (mul_eq_zero.1 e3).resolve_left hy
        have g1 : d.x - c.x = 0 := by linarith
        have g2 : v.x - c.x = 0 := by linarith
        rw [g1, g2]; ring
      · have hx' : b.x - a.x ≠ 0 := sub_ne_zero.2 hx.symm
        have : (b.x - a.x) * ((d.x - c.x) * (v.y - c.y) - (d.y - c.y) * (v.x - c.x)) = 0 := by
          linear_combination (d.x - c.x) * (h3 - h1) - (v.x - c.x) * (h2 - h1)
        exact (mul_eq_zero.1 this).resolve_left hx'

theorem noChildren_iff (p q : NodeTree K) : NodeTree.noChildren p q = true ↔ p = .nil ∧ q = .nil := by
  cases p <;> cases q <;> simp [NodeTree.noChildren]

/-- The segments visited are those of the tree, but for some which are seen from the end. -/
theorem painters_cut (v : P2 K) : ∀ (t : NodeTree K) (l : List (P2 K × P2 K)), NodeOf l t → (∀ e ∈ l, e.1 ≠ e.2) →
    ∃ sk, CutInto l (painters Cmp.direct v t ++ sk) ∧ ∀ f ∈ sk, area2 f.1 f.2 v = 0
  | .nil, l, h, _ => by
    rw [show l = [] from h]
    exact ⟨[], .done (by simp [painters]), by simp⟩
  | .node s coin p q, l, ⟨hs, r, hr, hco, h1, h2⟩, hne => by
    obtain ⟨n1, n2⟩ := hr.ne hne
    obtain ⟨sp, a1, a2⟩ := painters_cut v p r.pos h1 n1
    obtain ⟨sq, b1, b2⟩ := painters_cut v q r.neg h2 n2
    have all : CutInto l (painters Cmp.direct v p ++ sp ++ (painters Cmp.direct v q ++ sq) ++ coin) := by
      rw [hco]
      exact hr.cutInto.trans ((a1.append b1).append_right r.coin)
    have hsk : ∀ f ∈ sp ++ sq, area2 f.1 f.2 v = 0 := by
      intro f hf
      rcases List.mem_append.1 hf with hf | hf
      · exact a2 f hf
      · exact b2 f hf
    obtain ⟨o1, o2, o3⟩ := orientation_sign s.1 s.2 v
    rw [painters]
    split_ifs with hch
    · obtain ⟨rfl, rfl⟩ := (noChildren_iff p q).1 hch
      refine ⟨sp ++ sq, all.perm_right ?_, hsk⟩
      simp only [painters, List.nil_append]
      exact List.perm_append_comm
    · cases ho : getOrientation Cmp.direct s.1 s.2 v with
      | left =>
        refine ⟨sp ++ sq, all.perm_right ?_, hsk⟩
        dsimp only
        rw [← Multiset.coe_eq_coe]
        simp only [← Multiset.coe_add]
        abel
      | right =>
        refine ⟨sp ++ sq, all.perm_right ?_, hsk⟩
        dsimp only
        rw [← Multiset.coe_eq_coe]
        simp only [← Multiset.coe_add]
        abel
      | collinear =>
        refine ⟨sp ++ sq ++ coin, all.perm_right ?_, ?_⟩
        · dsimp only
          rw [← Multiset.coe_eq_coe]
          simp only [← Multiset.coe_add]
          abel
        · intro f hf
          rcases List.mem_append.1 hf with hf | hf
          · exact hsk f hf
          · rw [hco] at hf
            obtain ⟨-, k1, k2⟩ := hr.origin.2.2 f hf
            rw [linePlane_dist] at k1 k2
            exact area2_on_line (hne s hs) k1 k2 (o3.1 ho)

theorem painters_part (v : P2 K) : ∀ (t : NodeTree K) (l : List (P2 K × P2 K)), NodeOf l t →
    ∀ f ∈ painters Cmp.direct v t, ∃ e ∈ l, Part e f
  | .nil, l, _, f, hf => by simp [painters] at hf
  | .node s coin p q, l, ⟨hs, r, hr, hco, h1, h2⟩, f, hf => by
    have sub : f ∈ painters Cmp.direct v p ∨ f ∈ painters Cmp.direct v q ∨ f ∈ coin := by
      rw [painters] at hf
      split_ifs at hf
      · exact Or.inr (Or.inr hf)
      · cases ho : getOrientation Cmp.direct s.1 s.2 v <;> rw [ho] at hf <;>
          simp only [List.mem_append] at hf <;> tauto
    rcases sub with h | h | h
    · obtain ⟨e, he, hp⟩ := painters_part v p r.pos h1 f h
      obtain ⟨e', he', hp', -⟩ := hr.origin.1 e he
      exact ⟨e', he', hp'.trans hp⟩
    · obtain ⟨e, he, hp⟩ := painters_part v q r.neg h2 f h
      obtain ⟨e', he', hp', -⟩ := hr.origin.2.1 e he
      exact ⟨e', he', hp'.trans hp⟩
    · rw [hco] at h
      exact ⟨f, (hr.origin.2.2 f h).1, Part.refl f⟩

theorem front_dist {v x y : P2 K} (pl : Plane2 K) (h : InFrontOf v x y) :
    ∃ t : K, 0 < t ∧ t < 1 ∧ planeDist pl x = (1 - t) * planeDist pl v + t * planeDist pl y := by
  obtain ⟨t, t0, t1, rfl⟩ := h
  exact ⟨t, t0, t1, planeDist_line _ _ _ _⟩

/-- On which side of the splitting line the segments visited are. -/
theorem painters_sides {v : P2 K} {s : P2 K × P2 K} {p q : NodeTree K} {l : List (P2 K × P2 K)} {r : Sorted K}
    (hr : SortsTo s l r) (h1 : NodeOf r.pos p) (h2 : NodeOf r.neg q) :
    (∀ f ∈ painters Cmp.direct v p, (∀ x, OnSegment f.1 f.2 x → 0 ≤ planeDist (linePlane s) x) ∧
      ∀ x, InsideSegment f.1 f.2 x → 0 < planeDist (linePlane s) x) ∧
    (∀ f ∈ painters Cmp.direct v q, (∀ x, OnSegment f.1 f.2 x → planeDist (linePlane s) x ≤ 0) ∧
      ∀ x, InsideSegment f.1 f.2 x → planeDist (linePlane s) x < 0) ∧
    (∀ f ∈ r.coin, ∀ x, OnSegment f.1 f.2 x → planeDist (linePlane s) x = 0) := by
  obtain ⟨o1, o2, o3⟩ := hr.origin
  refine ⟨?_, ?_, ?_⟩
  · intro f hf
    obtain ⟨e, he, hp⟩ := painters_part v p _ h1 f hf
    obtain ⟨-, -, -, k1, k2, k3⟩ := o1 e he
    exact ⟨fun x hx => on_nonneg k1 k2 (hp.on hx), fun x hx => inside_pos k1 k2 k3 (hp.inside hx)⟩
  · intro f hf
    obtain ⟨e, he, hp⟩ := painters_part v q _ h2 f hf
    obtain ⟨-, -, -, k1, k2, k3⟩ := o2 e he
    exact ⟨fun x hx => on_nonpos k1 k2 (hp.on hx), fun x hx => inside_neg k1 k2 k3 (hp.inside hx)⟩
  · intro f hf x hx
    obtain ⟨-, k1, k2⟩ := o3 f hf
    exact planeDist_onSegment k1 k2 hx

/-- Seen from the positive side, nothing on the far side is in front. -/
theorem not_front_pos {pl : Plane2 K} {v x y : P2 K} (hv : 0 < planeDist pl v) (hx : planeDist pl x ≤ 0)
    (hy : 0 ≤ planeDist pl y) : ¬InFrontOf v x y := by
  intro h
  obtain ⟨t, t0, t1, e⟩ := front_dist pl h
  have := mul_pos (sub_pos.2 t1) hv
  have := mul_nonneg t0.le hy
  linarith

theorem not_front_neg {pl : Plane2 K} {v x y : P2 K} (hv : planeDist pl v < 0) (hx : 0 ≤ planeDist pl x)
    (hy : planeDist pl y ≤ 0) : ¬InFrontOf v x y := by
  intro h
  obtain ⟨t, t0, t1, e⟩ := front_dist pl h
  have := mul_neg_of_pos_of_neg (sub_pos.2 t1) hv
  have := mul_nonpos_of_nonneg_of_nonpos t0.le hy
  linarith

/-- For a viewpoint on no line of the segments, no point of a segment is in front of a point of a segment
visited later. -/
theorem painters_order_off {v : P2 K} : ∀ (t : NodeTree K) (l : List (P2 K × P2 K)), NodeOf l t →
    OffLines l v →
    (painters Cmp.direct v t).Pairwise fun f g => ∀ x y, OnSegment f.1 f.2 x → OnSegment g.1 g.2 y → ¬InFrontOf v x y
  | .nil, l, _, _ => by simp [painters]
  | .node s coin p q, l, ⟨hs, r, hr, hco, h1, h2⟩, hoff => by
    have sub : ∀ m : List (P2 K × P2 K), (∀ f ∈ m, ∃ e ∈ l, Part e f) → OffLines m v := by
      intro m hm f hf h0
      obtain ⟨e, he, hp⟩ := hm f hf
      obtain ⟨k, hk, hd⟩ := hp.dist
      rw [hd] at h0
      exact hoff e he ((mul_eq_zero.1 h0).resolve_left hk.ne')
    obtain ⟨o1, o2, -⟩ := hr.origin
    have i1 := painters_order_off p r.pos h1 (sub _ fun f hf => by obtain ⟨e, a, b, -⟩ := o1 f hf; exact ⟨e, a, b⟩)
    have i2 := painters_order_off q r.neg h2 (sub _ fun f hf => by obtain ⟨e, a, b, -⟩ := o2 f hf; exact ⟨e, a, b⟩)
    obtain ⟨s1, s2, s3⟩ := painters_sides (v := v) hr h1 h2
    rw [← hco] at s3
    have hv := hoff s hs
    rw [← linePlane_dist] at hv
    have co : coin.Pairwise fun f g => ∀ x y, OnSegment f.1 f.2 x → OnSegment g.1 g.2 y → ¬InFrontOf v x y := by
      refine pairwise_all ?_
      intro f hf g hg x y hx hy hfr
      have e1 := s3 f hf x hx
      have e2 := s3 g hg y hy
      rcases lt_or_gt_of_ne hv with hv | hv
      · exact not_front_neg hv e1.ge e2.le hfr
      · exact not_front_pos hv e1.le e2.ge hfr
    obtain ⟨w1, w2, w3⟩ := orientation_sign s.1 s.2 v
    rw [← linePlane_dist] at w1 w2 w3
    rw [painters]
    split_ifs with hch
    · exact co
    · cases ho : getOrientation Cmp.direct s.1 s.2 v with
      | left =>
        have hv := w1.1 ho
        dsimp only
        rw [List.append_assoc, List.pairwise_append, List.pairwise_append]
        refine ⟨i2, ⟨co, i1, ?_⟩, ?_⟩
        · intro f hf g hg x y hx hy
          exact not_front_pos hv (s3 f hf x hx).le ((s1 g hg).1 y hy)
        · intro f hf g hg x y hx hy
          refine not_front_pos hv ((s2 f hf).1 x hx) ?_
          rcases List.mem_append.1 hg with hg | hg
          · exact (s3 g hg y hy).ge
          · exact (s1 g hg).1 y hy
      | right =>
        have hv := w2.1 ho
        dsimp only
        rw [List.append_assoc, List.pairwise_append, List.pairwise_append]
        refine ⟨i1, ⟨co, i2, ?_⟩, ?_⟩
        · intro f hf g hg x y hx hy
          exact not_front_neg hv (s3 f hf x hx).ge ((s2 g hg).1 y hy)
        · intro f hf g hg x y hx hy
          refine not_front_neg hv ((s1 f hf).1 x hx) ?_
          rcases List.mem_append.1 hg with hg | hg
          · exact (s3 g hg y hy).le
          · exact (s2 g hg).1 y hy
      | collinear => exact absurd (w3.1 ho) hv

/-- For any viewpoint, no point inside a segment is in front of a point of a segment visited later, except
when both are seen from the end. -/
theorem painters_order {v : P2 K} : ∀ (t : NodeTree K) (l : List (P2 K × P2 K)), NodeOf l t → (∀ e ∈ l, e.1 ≠ e.2) →
    (painters Cmp.direct v t).Pairwise fun f g => ∀ x y, InsideSegment f.1 f.2 x → OnSegment g.1 g.2 y → InFrontOf v x y →
      area2 f.1 f.2 v = 0 ∧ area2 g.1 g.2 v = 0
  | .nil, l, _, _ => by simp [painters]
  | .node s coin p q, l, ⟨hs, r, hr, hco, h1, h2⟩, hne => by
    obtain ⟨n1, n2⟩ := hr.ne hne
    have i1 := painters_order (v := v) p r.pos h1 n1
    have i2 := painters_order (v := v) q r.neg h2 n2
    obtain ⟨s1, s2, s3⟩ := painters_sides (v := v) hr h1 h2
    have o3 := hr.origin.2.2
    rw [← hco] at s3 o3
    have co : coin.Pairwise fun f g => ∀ x y, InsideSegment f.1 f.2 x → OnSegment g.1 g.2 y → InFrontOf v x y →
        area2 f.1 f.2 v = 0 ∧ area2 g.1 g.2 v = 0 := by
      refine pairwise_all ?_
      intro f hf g hg x y hx hy hfr
      have e1 := s3 f hf x (insideSegment_onSegment hx)
      have e2 := s3 g hg y hy
      have e3 : area2 s.1 s.2 v = 0 := by
        rw [← linePlane_dist]
        by_contra hv
        rcases lt_or_gt_of_ne hv with hv | hv
        · exact not_front_neg hv e1.ge e2.le hfr
        · exact not_front_pos hv e1.le e2.ge hfr
      obtain ⟨-, k1, k2⟩ := o3 f hf
      obtain ⟨-, k3, k4⟩ := o3 g hg
      rw [linePlane_dist] at k1 k2 k3 k4
      exact ⟨area2_on_line (hne s hs) k1 k2 e3, area2_on_line (hne s hs) k3 k4 e3⟩
    obtain ⟨w1, w2, w3⟩ := orientation_sign s.1 s.2 v
    rw [← linePlane_dist] at w1 w2 w3
    rw [painters]
    split_ifs with hch
    · exact co
    · cases ho : getOrientation Cmp.direct s.1 s.2 v with
      | left =>
        have hv := w1.1 ho
        dsimp only
        rw [List.append_assoc, List.pairwise_append, List.pairwise_append]
        refine ⟨i2, ⟨co, i1, ?_⟩, ?_⟩
        · intro f hf g hg x y hx hy hfr
          exact absurd hfr (not_front_pos hv (s3 f hf x (insideSegment_onSegment hx)).le ((s1 g hg).1 y hy))
        · intro f hf g hg x y hx hy hfr
          refine absurd hfr (not_front_pos hv ((s2 f hf).1 x (insideSegment_onSegment hx)) ?_)
          rcases List.mem_append.1 hg with hg | hg
          · exact (s3 g hg y hy).ge
          · exact (s1 g hg).1 y hy
      | right =>
        have hv := w2.1 ho
        dsimp only
        rw [List.append_assoc, List.pairwise_append, List.pairwise_append]
        refine ⟨i1, ⟨co, i2, ?_⟩, ?_⟩
        · intro f hf g hg x y hx hy hfr
          exact absurd hfr (not_front_neg hv (s3 f hf x (insideSegment_onSegment hx)).ge ((s2 g hg).1 y hy))
        · intro f hf g hg x y hx hy hfr
          refine absurd hfr (not_front_neg hv ((s1 f hf).1 x (insideSegment_onSegment hx)) ?_)
          rcases List.mem_append.1 hg with hg | hg
          · exact (s3 g hg y hy).le
          · exact (s2 g hg).1 y hy
      | collinear =>
        have hv := w3.1 ho
        dsimp only
        rw [List.pairwise_append]
        refine ⟨i1, i2, ?_⟩
        intro f hf g hg x y hx hy hfr
        exfalso
        obtain ⟨t, t0, t1, e⟩ := front_dist (linePlane s) hfr
        have e1 := (s1 f hf).2 x hx
        have e2 := mul_nonpos_of_nonneg_of_nonpos t0.le ((s2 g hg).1 y hy)
        rw [hv] at e
        linarith

end Geometrix
