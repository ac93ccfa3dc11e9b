import Verif.Model.PolylineDistance
import Verif.Spec.PriorityQueue
import Verif.Spec.ClosestReport
import Verif.Lemmas.Distance
import Verif.Lemmas.Box
import Verif.Props.Box
import Verif.Props.BoxDistance
import Verif.Props.SegmentPolylineDistance
import Mathlib.Algebra.BigOperators.Group.List.Basic
import Mathlib.Algebra.Order.BigOperators.Group.List

set_option linter.unusedSectionVars false

namespace Geometrix

open Spec

variable {K : Type*} [Field K] [LinearOrder K] [IsStrictOrderedRing K]

theorem isPriorityPop_popFirstLeast :
    IsPriorityPop (fun w : WorkItem K => w.d2) popFirstLeast := by
  have hne : ∀ q : List (WorkItem K), q ≠ [] → ∃ w q', popFirstLeast q = some (w, q') := by
    intro q
    cases q with
    | nil => simp
    | cons w q =>
      intro _
      unfold popFirstLeast
      cases popFirstLeast q with
      | none => exact ⟨_, _, rfl⟩
      | some v =>
        obtain ⟨v, q'⟩ := v
        simp only
        split_ifs <;> exact ⟨_, _, rfl⟩
  refine ⟨rfl, hne, ?_, ?_⟩
  · intro q
    induction q with
    | nil => simp [popFirstLeast]
    | cons w q ih =>
      intro v q' h
      unfold popFirstLeast at h
      cases hq : popFirstLeast q with
      | none =>
        rw [hq] at h
        have : q = [] := by
          by_contra h0
          obtain ⟨_, _, h1⟩ := hne q h0
          rw [hq] at h1; cases h1
        simp only [Option.some.injEq, Prod.mk.injEq] at h
        obtain ⟨rfl, rfl⟩ := h
        rw [this]
      | some u =>
        obtain ⟨u, q''⟩ := u
        rw [hq] at h
        simp only at h
        have hp := ih u q'' hq
        split_ifs at h <;> simp only [Option.some.injEq, Prod.mk.injEq] at h <;>
          obtain ⟨rfl, rfl⟩ := h
        · exact (hp.cons w).trans (List.Perm.swap _ _ _)
        · exact List.Perm.refl _
  · intro q
    induction q with
    | nil => simp [popFirstLeast]
    | cons w q ih =>
      intro v q' h x hx
      unfold popFirstLeast at h
      cases hq : popFirstLeast q with
      | none =>
        rw [hq] at h
        have : q = [] := by
          by_contra h0
          obtain ⟨_, _, h1⟩ := hne q h0
          rw [hq] at h1; cases h1
        simp only [Option.some.injEq, Prod.mk.injEq] at h
        obtain ⟨rfl, rfl⟩ := h
        rw [this] at hx
        simp only [List.mem_singleton] at hx
        rw [hx]
      | some u =>
        obtain ⟨u, q''⟩ := u
        rw [hq] at h
        simp only at h
        have hp := ih u q'' hq
        rcases List.mem_cons.mp hx with rfl | hx
        · split_ifs at h with hlt <;> simp only [Option.some.injEq, Prod.mk.injEq] at h <;>
            obtain ⟨rfl, rfl⟩ := h
          · exact hlt.le
          · exact le_rfl
        · split_ifs at h with hlt <;> simp only [Option.some.injEq, Prod.mk.injEq] at h <;>
            obtain ⟨rfl, rfl⟩ := h
          · exact hp x hx
          · exact (not_lt.mp hlt).trans (hp x hx)

/-- How much work an item is at most. -/
def WorkItem.weight (w : WorkItem K) : Nat := 4 * (w.r1.2 - w.r1.1) * (w.r2.2 - w.r2.1) - 1

/-- The item covers the pair of edges `i`, `j`. -/
def WorkItem.Covers (w : WorkItem K) (i j : Nat) : Prop :=
  w.r1.1 ≤ i ∧ i < w.r1.2 ∧ w.r2.1 ≤ j ∧ j < w.r2.2

/-- The item has proper ranges, and its number is a lower bound of what it covers. -/
def WorkItem.Ok (D : Nat → Nat → K) (n1 n2 : Nat) (w : WorkItem K) : Prop :=
  w.r1.1 < w.r1.2 ∧ w.r1.2 ≤ n1 ∧ w.r2.1 < w.r2.2 ∧ w.r2.2 ≤ n2 ∧
    ∀ i j, w.Covers i j → w.d2 ≤ D i j

def totalWeight (q : List (WorkItem K)) : Nat := (q.map WorkItem.weight).sum

theorem totalWeight_push (m : K) (q : List (WorkItem K)) (w : WorkItem K) :
    totalWeight (pushItem m q w) ≤ w.weight + totalWeight q := by
  unfold pushItem totalWeight
  split_ifs <;> simp

theorem mem_push {m : K} {q : List (WorkItem K)} {w x : WorkItem K}
    (h : x ∈ pushItem m q w) : x = w ∨ x ∈ q := by
  unfold pushItem at h
  split_ifs at h
  · simpa using h
  · exact Or.inr h

theorem mem_push_of_mem {m : K} {q : List (WorkItem K)} {w x : WorkItem K} (h : x ∈ q) :
    x ∈ pushItem m q w := by
  unfold pushItem
  split_ifs
  · exact List.mem_cons_of_mem _ h
  · exact h

theorem mem_push_self {m : K} {q : List (WorkItem K)} {w : WorkItem K} (h : w.d2 ≤ m) :
    w ∈ pushItem m q w := by
  unfold pushItem
  rw [if_pos h]; exact List.mem_cons_self

theorem splitRange_spec {r : Nat × Nat} (h : 5 ≤ r.2 - r.1) :
    (splitRange r).1.1 = r.1 ∧ (splitRange r).1.2 = (splitRange r).2.1 ∧
      (splitRange r).2.2 = r.2 ∧ r.1 < (splitRange r).1.2 ∧ (splitRange r).1.2 < r.2 := by
  unfold splitRange
  refine ⟨rfl, rfl, rfl, ?_, ?_⟩ <;> simp only <;> omega

theorem weight_split (a b c d : Nat) (ha : 0 < a) (hb : 0 < b) (hc : 0 < c) (hd : 0 < d) :
    (4 * a * c - 1) + (4 * a * d - 1) + (4 * b * c - 1) + (4 * b * d - 1) + 1 ≤
      4 * (a + b) * (c + d) - 1 := by
  have h1 : 0 < a * c := Nat.mul_pos ha hc
  have h2 : 0 < a * d := Nat.mul_pos ha hd
  have h3 : 0 < b * c := Nat.mul_pos hb hc
  have h4 : 0 < b * d := Nat.mul_pos hb hd
  have h5 : 4 * (a + b) * (c + d) = 4 * (a * c) + 4 * (a * d) + 4 * (b * c) + 4 * (b * d) := by ring
  rw [h5]
  have e1 : 4 * a * c = 4 * (a * c) := by ring
  have e2 : 4 * a * d = 4 * (a * d) := by ring
  have e3 : 4 * b * c = 4 * (b * c) := by ring
  have e4 : 4 * b * d = 4 * (b * d) := by ring
  omega

/-- What the search does, for any numbers `D i j` of pairs of edges of which the boxes give a lower
bound and the brute force search the minimum. -/
theorem searchLoop_spec {β : Type*}
    {pop : List (WorkItem K) → Option (WorkItem K × List (WorkItem K))}
    (hpop : IsPriorityPop (fun w => w.d2) pop)
    {box1 box2 : Nat × Nat → Option (Box K)} {leaf : Nat × Nat → Nat × Nat → Res (Option β)}
    {key : β → K} {D : Nat → Nat → K} {n1 n2 : Nat} {Good : β → Prop}
    (hbox1 : ∀ r : Nat × Nat, r.1 < r.2 → r.2 ≤ n1 → ∃ b, box1 r = some b)
    (hbox2 : ∀ r : Nat × Nat, r.1 < r.2 → r.2 ≤ n2 → ∃ b, box2 r = some b)
    (hbox : ∀ r1 r2 : Nat × Nat, r1.1 < r1.2 → r1.2 ≤ n1 → r2.1 < r2.2 → r2.2 ≤ n2 →
      ∀ b1 b2, box1 r1 = some b1 → box2 r2 = some b2 → ∀ i j, r1.1 ≤ i → i < r1.2 → r2.1 ≤ j →
        j < r2.2 → aabbAabbDistSq b1 b2 ≤ D i j)
    (hleaf : ∀ r1 r2 : Nat × Nat, r1.1 < r1.2 → r1.2 ≤ n1 → r2.1 < r2.2 → r2.2 ≤ n2 →
      ∃ b, leaf r1 r2 = .ok (some b) ∧ Good b ∧ ∀ i j, r1.1 ≤ i → i < r1.2 → r2.1 ≤ j →
        j < r2.2 → key b ≤ D i j)
    (fuel : Nat) (m : K) (out : Option β) (q : List (WorkItem K)) (hfuel : totalWeight q < fuel)
    (hq : ∀ w ∈ q, w.Ok D n1 n2)
    (hcov : ∀ i j, i < n1 → j < n2 → m ≤ D i j ∨ ∃ w ∈ q, w.Covers i j) :
    ∃ m' out', searchLoop pop box1 box2 leaf key fuel m out q = .ok (m', out') ∧
      (∀ i j, i < n1 → j < n2 → m' ≤ D i j) ∧
      ((m' = m ∧ out' = out) ∨ ∃ b, out' = some b ∧ Good b ∧ key b = m' ∧ m' < m) := by
  induction fuel generalizing m out q with
  | zero => omega
  | succ fuel ih =>
    unfold searchLoop
    by_cases hq0 : q = []
    · subst hq0
      rw [hpop.empty]
      refine ⟨m, out, rfl, ?_, Or.inl ⟨rfl, rfl⟩⟩
      intro i j hi hj
      rcases hcov i j hi hj with h | ⟨w, hw, -⟩
      · exact h
      · cases hw
    obtain ⟨w, q', hwq⟩ := hpop.nonempty q hq0
    have hperm := hpop.perm q w q' hwq
    have hleast := hpop.least q w q' hwq
    have hwmem : w ∈ q := hperm.mem_iff.mpr List.mem_cons_self
    have hsub : ∀ x ∈ q', x ∈ q := fun x hx => hperm.mem_iff.mpr (List.mem_cons_of_mem _ hx)
    have htw : totalWeight q = w.weight + totalWeight q' := by
      unfold totalWeight
      rw [(hperm.map WorkItem.weight).sum_eq]; simp
    rw [hwq]
    simp only
    by_cases hbreak : w.d2 ≥ m
    · rw [if_pos hbreak]
      refine ⟨m, out, rfl, ?_, Or.inl ⟨rfl, rfl⟩⟩
      intro i j hi hj
      rcases hcov i j hi hj with h | ⟨x, hx, hc⟩
      · exact h
      · exact (hbreak.le.trans (hleast x hx)).trans ((hq x hx).2.2.2.2 i j hc)
    rw [if_neg hbreak]
    obtain ⟨w1, w2, w3, w4, w5⟩ := hq w hwmem
    have hwpos : 0 < w.weight := by
      unfold WorkItem.weight
      have : 0 < (w.r1.2 - w.r1.1) * (w.r2.2 - w.r2.1) := Nat.mul_pos (by omega) (by omega)
      have e : 4 * (w.r1.2 - w.r1.1) * (w.r2.2 - w.r2.1) =
        4 * ((w.r1.2 - w.r1.1) * (w.r2.2 - w.r2.1)) := by ring
      omega
    by_cases hsmall : w.r1.2 - w.r1.1 < 5 ∨ w.r2.2 - w.r2.1 < 5
    · rw [if_pos hsmall]
      obtain ⟨b, hb, hgood, hmin⟩ := hleaf w.r1 w.r2 w1 w2 w3 w4
      rw [hb]
      simp only
      by_cases hlt : key b < m
      · rw [if_pos hlt]
        obtain ⟨m', out', h1, h2, h3⟩ := ih (key b) (some b) q' (by omega)
          (fun x hx => hq x (hsub x hx)) (by
            intro i j hi hj
            rcases hcov i j hi hj with h | ⟨x, hx, hc⟩
            · exact Or.inl (hlt.le.trans h)
            · rcases List.mem_cons.mp (hperm.mem_iff.mp hx) with rfl | hx'
              · exact Or.inl (hmin i j hc.1 hc.2.1 hc.2.2.1 hc.2.2.2)
              · exact Or.inr ⟨x, hx', hc⟩)
        refine ⟨m', out', h1, h2, Or.inr ?_⟩
        rcases h3 with ⟨rfl, rfl⟩ | ⟨b', e1, e2, e3, e4⟩
        · exact ⟨b, rfl, hgood, rfl, hlt⟩
        · exact ⟨b', e1, e2, e3, e4.trans hlt⟩
      · rw [if_neg hlt]
        refine ih m out q' (by omega) (fun x hx => hq x (hsub x hx)) ?_
        intro i j hi hj
        rcases hcov i j hi hj with h | ⟨x, hx, hc⟩
        · exact Or.inl h
        · rcases List.mem_cons.mp (hperm.mem_iff.mp hx) with rfl | hx'
          · exact Or.inl ((not_lt.mp hlt).trans (hmin i j hc.1 hc.2.1 hc.2.2.1 hc.2.2.2))
          · exact Or.inr ⟨x, hx', hc⟩
    · rw [if_neg hsmall]
      push Not at hsmall
      obtain ⟨a1, a2, a3, a4, a5⟩ := splitRange_spec hsmall.1
      obtain ⟨c1, c2, c3, c4, c5⟩ := splitRange_spec hsmall.2
      obtain ⟨b1A, e1⟩ := hbox1 (splitRange w.r1).1 (by omega) (by omega)
      obtain ⟨b1B, e2⟩ := hbox1 (splitRange w.r1).2 (by omega) (by omega)
      obtain ⟨b2A, e3⟩ := hbox2 (splitRange w.r2).1 (by omega) (by omega)
      obtain ⟨b2B, e4⟩ := hbox2 (splitRange w.r2).2 (by omega) (by omega)
      rw [e1, e2, e3, e4]
      simp only
      have okAA : (⟨(splitRange w.r1).1, (splitRange w.r2).1, aabbAabbDistSq b1A b2A⟩ :
          WorkItem K).Ok D n1 n2 :=
        ⟨by simp only; omega, by simp only; omega, by simp only; omega, by simp only; omega,
          fun i j hc => hbox _ _ (by omega) (by omega) (by omega) (by omega) _ _ e1 e3 i j
            hc.1 hc.2.1 hc.2.2.1 hc.2.2.2⟩
      have okAB : (⟨(splitRange w.r1).1, (splitRange w.r2).2, aabbAabbDistSq b1A b2B⟩ :
          WorkItem K).Ok D n1 n2 :=
        ⟨by simp only; omega, by simp only; omega, by simp only; omega, by simp only; omega,
          fun i j hc => hbox _ _ (by omega) (by omega) (by omega) (by omega) _ _ e1 e4 i j
            hc.1 hc.2.1 hc.2.2.1 hc.2.2.2⟩
      have okBA : (⟨(splitRange w.r1).2, (splitRange w.r2).1, aabbAabbDistSq b1B b2A⟩ :
          WorkItem K).Ok D n1 n2 :=
        ⟨by simp only; omega, by simp only; omega, by simp only; omega, by simp only; omega,
          fun i j hc => hbox _ _ (by omega) (by omega) (by omega) (by omega) _ _ e2 e3 i j
            hc.1 hc.2.1 hc.2.2.1 hc.2.2.2⟩
      have okBB : (⟨(splitRange w.r1).2, (splitRange w.r2).2, aabbAabbDistSq b1B b2B⟩ :
          WorkItem K).Ok D n1 n2 :=
        ⟨by simp only; omega, by simp only; omega, by simp only; omega, by simp only; omega,
          fun i j hc => hbox _ _ (by omega) (by omega) (by omega) (by omega) _ _ e2 e4 i j
            hc.1 hc.2.1 hc.2.2.1 hc.2.2.2⟩
      apply ih
      · refine lt_of_le_of_lt (totalWeight_push _ _ _) ?_
        refine lt_of_le_of_lt (Nat.add_le_add_left (totalWeight_push _ _ _) _) ?_
        refine lt_of_le_of_lt (Nat.add_le_add_left (Nat.add_le_add_left
          (totalWeight_push _ _ _) _) _) ?_
        refine lt_of_le_of_lt (Nat.add_le_add_left (Nat.add_le_add_left (Nat.add_le_add_left
          (totalWeight_push _ _ _) _) _) _) ?_
        have hs := weight_split ((splitRange w.r1).1.2 - (splitRange w.r1).1.1)
          ((splitRange w.r1).2.2 - (splitRange w.r1).2.1)
          ((splitRange w.r2).1.2 - (splitRange w.r2).1.1)
          ((splitRange w.r2).2.2 - (splitRange w.r2).2.1) (by omega) (by omega) (by omega)
          (by omega)
        have s1 : ((splitRange w.r1).1.2 - (splitRange w.r1).1.1) +
          ((splitRange w.r1).2.2 - (splitRange w.r1).2.1) = w.r1.2 - w.r1.1 := by omega
        have s2 : ((splitRange w.r2).1.2 - (splitRange w.r2).1.1) +
          ((splitRange w.r2).2.2 - (splitRange w.r2).2.1) = w.r2.2 - w.r2.1 := by omega
        rw [s1, s2] at hs
        have hw : w.weight = 4 * (w.r1.2 - w.r1.1) * (w.r2.2 - w.r2.1) - 1 := rfl
        rw [← hw] at hs
        simp only [WorkItem.weight] at hs ⊢
        simp only [WorkItem.weight] at htw
        omega
      · intro x hx
        rcases mem_push hx with rfl | hx
        · exact okBB
        rcases mem_push hx with rfl | hx
        · exact okBA
        rcases mem_push hx with rfl | hx
        · exact okAB
        rcases mem_push hx with rfl | hx
        · exact okAA
        · exact hq x (hsub x hx)
      · intro i j hi hj
        rcases hcov i j hi hj with h | ⟨x, hx, hc⟩
        · exact Or.inl h
        rcases List.mem_cons.mp (hperm.mem_iff.mp hx) with rfl | hx'
        · obtain ⟨h1, h2, h3, h4⟩ := hc
          rcases lt_or_ge i (splitRange x.r1).1.2 with hi' | hi' <;>
            rcases lt_or_ge j (splitRange x.r2).1.2 with hj' | hj'
          · have hc' : (⟨(splitRange x.r1).1, (splitRange x.r2).1, aabbAabbDistSq b1A b2A⟩ :
                WorkItem K).Covers i j := ⟨by simp only; omega, hi', by simp only; omega, hj'⟩
            rcases le_total (aabbAabbDistSq b1A b2A) m with hle | hle
            · exact Or.inr ⟨_, mem_push_of_mem (mem_push_of_mem (mem_push_of_mem
                (mem_push_self hle))), hc'⟩
            · exact Or.inl (hle.trans (okAA.2.2.2.2 i j hc'))
          · have hc' : (⟨(splitRange x.r1).1, (splitRange x.r2).2, aabbAabbDistSq b1A b2B⟩ :
                WorkItem K).Covers i j :=
              ⟨by simp only; omega, hi', by simp only; omega, by simp only; omega⟩
            rcases le_total (aabbAabbDistSq b1A b2B) m with hle | hle
            · exact Or.inr ⟨_, mem_push_of_mem (mem_push_of_mem (mem_push_self hle)), hc'⟩
            · exact Or.inl (hle.trans (okAB.2.2.2.2 i j hc'))
          · have hc' : (⟨(splitRange x.r1).2, (splitRange x.r2).1, aabbAabbDistSq b1B b2A⟩ :
                WorkItem K).Covers i j :=
              ⟨by simp only; omega, by simp only; omega, by simp only; omega, hj'⟩
            rcases le_total (aabbAabbDistSq b1B b2A) m with hle | hle
            · exact Or.inr ⟨_, mem_push_of_mem (mem_push_self hle), hc'⟩
            · exact Or.inl (hle.trans (okBA.2.2.2.2 i j hc'))
          · have hc' : (⟨(splitRange x.r1).2, (splitRange x.r2).2, aabbAabbDistSq b1B b2B⟩ :
                WorkItem K).Covers i j :=
              ⟨by simp only; omega, by simp only; omega, by simp only; omega, by simp only; omega⟩
            rcases le_total (aabbAabbDistSq b1B b2B) m with hle | hle
            · exact Or.inr ⟨_, mem_push_self hle, hc'⟩
            · exact Or.inl (hle.trans (okBB.2.2.2.2 i j hc'))
        · exact Or.inr ⟨x, mem_push_of_mem (mem_push_of_mem (mem_push_of_mem
            (mem_push_of_mem hx'))), hc⟩

theorem minLoopInf_eq {α β : Type*} (f : α → Res (Option β)) (g : α → β) (key : β → K) (l : List α)
    (best : Option (α × β)) (h : ∀ x ∈ l, f x = .ok (some (g x))) :
    minLoopInf f key l best = minLoop (fun x => .ok (g x)) key l best := by
  induction l generalizing best with
  | nil => rfl
  | cons x l ih =>
    unfold minLoopInf minLoop
    rw [h x List.mem_cons_self]
    simp only
    have h' : ∀ y ∈ l, f y = .ok (some (g y)) := fun y hy => h y (List.mem_cons_of_mem _ hy)
    cases best with
    | none => simp only; exact ih _ h'
    | some b =>
      obtain ⟨z, b⟩ := b
      simp only [ih _ h']

theorem mem_openEdges_iff (p : List (P2 K)) (e : P2 K × P2 K) :
    e ∈ openEdges p ↔ ∃ i, IsEdge p i e.1 e.2 := mem_openEdges p e.1 e.2

/-- The loops over the edges of one side, when the distance of an edge to the other side `T` is
right. -/
theorem distBrute_spec (T : P2 K → Prop) (f : P2 K × P2 K → Res (Option K))
    (hf : ∀ e, ∃ d, f e = .ok (some d) ∧ IsMinDist (OnSegment e.1 e.2) T d)
    (es : List (P2 K × P2 K)) (hne : es ≠ []) :
    ∃ e d, minLoopInf f id es none = .ok (some (e, d)) ∧
      IsMinDist (fun P => ∃ e ∈ es, OnSegment e.1 e.2 P) T d := by
  choose g hg1 hg2 using hf
  rw [minLoopInf_eq f g id es none (fun e _ => hg1 e)]
  obtain ⟨x, k, h1, h2, h3, -⟩ := minLoop_none (fun e => .ok (g e)) g id es (fun _ _ => rfl) hne
  have hx : x ∈ es := List.mem_iff_getElem?.mpr ⟨k, h2⟩
  refine ⟨x, g x, h1, ?_, ?_⟩
  · obtain ⟨⟨⟨P, Q⟩, ⟨hP, hQ⟩, hd⟩, -⟩ := hg2 x
    exact ⟨(P, Q), ⟨⟨x, hx, hP⟩, hQ⟩, hd⟩
  · rintro ⟨P, Q⟩ ⟨⟨e, he, hP⟩, hQ⟩
    exact (h3 e he).trans ((hg2 e).2 (P, Q) ⟨hP, hQ⟩)

theorem polylineDistBrute_spec (p1 p2 : List (P2 K)) (h1 : 2 ≤ p1.length) (h2 : 2 ≤ p2.length) :
    ∃ d, polylineDistBrute Cmp.direct p1 p2 = .ok (some d) ∧
      IsMinDist (OnPolyline p1) (OnPolyline p2) d := by
  obtain ⟨e, d, he, hd⟩ := distBrute_spec (OnPolyline p2)
    (fun e => segPolylineDistSq Cmp.direct e.1 e.2 p2)
    (fun e => (C53_distance e.1 e.2 p2).1 h2) (openEdges p1) (openEdges_ne_nil h1)
  refine ⟨d, by simp [polylineDistBrute, he], ?_⟩
  simpa only [← onPolyline_iff] using hd

theorem polygonDistBrute_spec (p1 p2 : List (P2 K)) (h1 : p1 ≠ []) (h2 : p2 ≠ []) :
    ∃ d, polygonDistBrute Cmp.direct p1 p2 = .ok (some d) ∧
      IsMinDist (OnBoundary p1) (OnBoundary p2) d := by
  obtain ⟨e, d, he, hd⟩ := distBrute_spec (OnBoundary p2)
    (fun e => segPolygonDistSq Cmp.direct e.1 e.2 p2)
    (fun e => (C53_distance e.1 e.2 p2).2 h2) (closedEdges p1) (closedEdges_ne_nil h1)
  refine ⟨d, by simp [polygonDistBrute, he], ?_⟩
  simpa only [← onBoundary_iff] using hd

theorem subPoints_get {α : Type*} (p : List α) (r : Nat × Nat) (k : Nat) :
    (subPoints p r)[k]? = if k < r.2 + 1 - r.1 then p[r.1 + k]? else none := by
  unfold subPoints
  rw [List.getElem?_take]
  simp

theorem isEdge_sub (p : List (P2 K)) (r : Nat × Nat) (k : Nat) (A B : P2 K) :
    IsEdge (subPoints p r) k A B ↔ r.1 + k < r.2 ∧ IsEdge p (r.1 + k) A B := by
  unfold IsEdge
  rw [subPoints_get, subPoints_get]
  constructor
  · rintro ⟨h1, h2⟩
    split_ifs at h1 h2
    exact ⟨by omega, h1, h2⟩
  · rintro ⟨h0, h1, h2⟩
    rw [if_pos (by omega), if_pos (by omega)]
    exact ⟨h1, h2⟩

theorem onPolyline_sub {p : List (P2 K)} {r : Nat × Nat} {P : P2 K}
    (h : OnPolyline (subPoints p r) P) : OnPolyline p P := by
  obtain ⟨i, A, B, h, hP⟩ := h
  exact ⟨_, A, B, ((isEdge_sub _ _ _ _ _).mp h).2, hP⟩

theorem subPoints_length (p : List (P2 K)) (r : Nat × Nat) (_h : r.1 < r.2) (h2 : r.2 < p.length) :
    (subPoints p r).length = r.2 + 1 - r.1 := by
  unfold subPoints
  simp
  omega

/-- The distance of edge `i` of `p1` and edge `j` of `p2`. -/
def edgeDist (p1 p2 : List (P2 K)) (i j : Nat) : K :=
  match segSegDistSq Cmp.direct (p1.getD i 0) (p1.getD (i + 1) 0) (p2.getD j 0)
    (p2.getD (j + 1) 0) with
  | .ok d => d
  | .error _ => 0

theorem edgeDist_spec (p1 p2 : List (P2 K)) (i j : Nat) :
    IsMinDist (OnSegment (p1.getD i 0) (p1.getD (i + 1) 0))
      (OnSegment (p2.getD j 0) (p2.getD (j + 1) 0)) (edgeDist p1 p2 i j) := by
  obtain ⟨r, h, a1, a2, a3, a4, a5, a6, a7, a8⟩ := segSegClosest_spec (p1.getD i 0)
    (p1.getD (i + 1) 0) (p2.getD j 0) (p2.getD (j + 1) 0)
  have : edgeDist p1 p2 i j = r.d2 := by simp only [edgeDist, segSegDistSq, h]
  rw [this]
  exact ⟨⟨(r.c1, r.c2), ⟨⟨_, a1, a2, a5⟩, _, a3, a4, a6⟩, a7.symm⟩,
    fun PQ hPQ => a8 PQ.1 PQ.2 hPQ.1 hPQ.2⟩

theorem isEdge_getD {p : List (P2 K)} {i : Nat} (h : i + 1 < p.length) :
    IsEdge p i (p.getD i 0) (p.getD (i + 1) 0) := by
  unfold IsEdge
  rw [List.getD_eq_getElem?_getD, List.getD_eq_getElem?_getD,
    List.getElem?_eq_getElem (by omega : i < p.length), List.getElem?_eq_getElem h]
  exact ⟨rfl, rfl⟩

theorem inBox_segment {b : Box K} {A B P : P2 K} (hA : InBox b A) (hB : InBox b B)
    (hP : OnSegment A B P) : InBox b P := by
  obtain ⟨t, h0, h1, rfl⟩ := hP
  obtain ⟨a1, a2, a3, a4⟩ := hA
  obtain ⟨b1, b2, b3, b4⟩ := hB
  have h1' : 0 ≤ 1 - t := by linarith
  refine ⟨?_, ?_, ?_, ?_⟩ <;>
    simp only [P2.add_x, P2.add_y, P2.sub_x, P2.sub_y, P2.smul_x, P2.smul_y]
  · nlinarith [mul_nonneg h0 (sub_nonneg.mpr b1), mul_nonneg h1' (sub_nonneg.mpr a1)]
  · nlinarith [mul_nonneg h0 (sub_nonneg.mpr b2), mul_nonneg h1' (sub_nonneg.mpr a2)]
  · nlinarith [mul_nonneg h0 (sub_nonneg.mpr b3), mul_nonneg h1' (sub_nonneg.mpr a3)]
  · nlinarith [mul_nonneg h0 (sub_nonneg.mpr b4), mul_nonneg h1' (sub_nonneg.mpr a4)]

theorem bounds_edge {pts : List (P2 K)} {b : Box K} (hb : getBounds Cmp.direct pts = some b)
    (h : pts ≠ []) : ValidBox b ∧ ∀ P, OnPolyline pts P → InBox b P := by
  obtain ⟨b', hb', hv, hl⟩ := C14_bounds pts h
  rw [hb] at hb'
  cases hb'
  refine ⟨hv, ?_⟩
  rintro P ⟨i, A, B, ⟨hA, hB⟩, hP⟩
  exact inBox_segment (hl.1 A (List.mem_iff_getElem?.mpr ⟨_, hA⟩))
    (hl.1 B (List.mem_iff_getElem?.mpr ⟨_, hB⟩)) hP

/-- The search started by `search`. -/
theorem search_spec {β : Type*}
    {pop : List (WorkItem K) → Option (WorkItem K × List (WorkItem K))}
    (hpop : IsPriorityPop (fun w => w.d2) pop)
    {leaf : Nat × Nat → Nat × Nat → Res (Option β)} {key : β → K} {Good : β → Prop}
    (p1 p2 : List (P2 K)) (hp1 : 6 ≤ p1.length) (hp2 : 6 ≤ p2.length)
    (hleaf : ∀ r1 r2 : Nat × Nat, r1.1 < r1.2 → r1.2 < p1.length → r2.1 < r2.2 →
      r2.2 < p2.length → ∃ b, leaf r1 r2 = .ok (some b) ∧ Good b ∧
        ∀ P Q, OnPolyline (subPoints p1 r1) P → OnPolyline (subPoints p2 r2) Q →
          key b ≤ sqDist P Q) :
    ∃ A B m out, p1[0]? = some A ∧ p2[0]? = some B ∧
      search pop Cmp.direct leaf key p1 p2 = .ok (m, out) ∧
      (∀ P Q, OnPolyline p1 P → OnPolyline p2 Q → m ≤ sqDist P Q) ∧
      ((m = sqDist A B ∧ out = none) ∨
        ∃ b, out = some b ∧ Good b ∧ key b = m ∧ m < sqDist A B) := by
  obtain ⟨A, t1, rfl⟩ : ∃ A t, p1 = A :: t := by
    cases p1 with
    | nil => simp at hp1
    | cons A t => exact ⟨A, t, rfl⟩
  obtain ⟨B, t2, rfl⟩ : ∃ B t, p2 = B :: t := by
    cases p2 with
    | nil => simp at hp2
    | cons A t => exact ⟨A, t, rfl⟩
  set p1 := A :: t1 with hp1e
  set p2 := B :: t2 with hp2e
  obtain ⟨b1, hb1, -, -⟩ := C14_bounds p1 (by simp [hp1e])
  obtain ⟨b2, hb2, -, -⟩ := C14_bounds p2 (by simp [hp2e])
  have hsub : ∀ (p : List (P2 K)) (r : Nat × Nat), r.1 < r.2 → r.2 < p.length →
      subPoints p r ≠ [] := by
    intro p r h1 h2 h3
    have := subPoints_length p r h1 h2
    rw [h3] at this
    simp at this
    omega
  have honsub : ∀ (p : List (P2 K)) (r : Nat × Nat) (i : Nat), r.2 < p.length → r.1 ≤ i →
      i < r.2 → ∀ P, OnSegment (p.getD i 0) (p.getD (i + 1) 0) P →
      OnPolyline (subPoints p r) P := by
    intro p r i h1 h2 h3 P hP
    refine ⟨i - r.1, _, _, (isEdge_sub _ _ _ _ _).mpr ⟨by omega, ?_⟩, hP⟩
    rw [show r.1 + (i - r.1) = i by omega]
    exact isEdge_getD (by omega)
  have hboxle : ∀ r1 r2 : Nat × Nat, r1.1 < r1.2 → r1.2 ≤ p1.length - 1 → r2.1 < r2.2 →
      r2.2 ≤ p2.length - 1 → ∀ b1 b2, getBounds Cmp.direct (subPoints p1 r1) = some b1 →
      getBounds Cmp.direct (subPoints p2 r2) = some b2 → ∀ i j, r1.1 ≤ i → i < r1.2 → r2.1 ≤ j →
        j < r2.2 → aabbAabbDistSq b1 b2 ≤ edgeDist p1 p2 i j := by
    intro r1 r2 h1 h2 h3 h4 b1 b2 hb1 hb2 i j k1 k2 k3 k4
    obtain ⟨hv1, hin1⟩ := bounds_edge hb1 (hsub p1 r1 h1 (by omega))
    obtain ⟨hv2, hin2⟩ := bounds_edge hb2 (hsub p2 r2 h3 (by omega))
    obtain ⟨⟨PQ, ⟨hP, hQ⟩, hd⟩, -⟩ := edgeDist_spec p1 p2 i j
    rw [← hd]
    exact (C20_minimum b1 b2 hv1 hv2).2 PQ
      ⟨hin1 _ (honsub p1 r1 i (by omega) k1 k2 _ hP), hin2 _ (honsub p2 r2 j (by omega) k3 k4 _ hQ)⟩
  have hwhole : ∀ p : List (P2 K), 0 < p.length → subPoints p (0, p.length - 1) = p := by
    intro p hp
    unfold subPoints
    simp only [List.drop_zero, Nat.sub_zero, List.take_eq_self_iff]
    omega
  have hD : ∀ P Q, OnPolyline p1 P → OnPolyline p2 Q → ∃ i j, i < p1.length - 1 ∧
      j < p2.length - 1 ∧ edgeDist p1 p2 i j ≤ sqDist P Q := by
    rintro P Q ⟨i, A, B, ⟨hA, hB⟩, hP⟩ ⟨j, C, D, ⟨hC, hD⟩, hQ⟩
    have l1 := (List.getElem?_eq_some_iff.mp hB).1
    have l2 := (List.getElem?_eq_some_iff.mp hD).1
    refine ⟨i, j, by omega, by omega, (edgeDist_spec p1 p2 i j).2 (P, Q) ⟨?_, ?_⟩⟩
    · simpa [List.getD_eq_getElem?_getD, hA, hB] using hP
    · simpa [List.getD_eq_getElem?_getD, hC, hD] using hQ
  obtain ⟨m, out, h1, h2, h3⟩ := searchLoop_spec hpop
    (box1 := fun r => getBounds Cmp.direct (subPoints p1 r))
    (box2 := fun r => getBounds Cmp.direct (subPoints p2 r)) (leaf := leaf) (key := key)
    (D := edgeDist p1 p2) (n1 := p1.length - 1) (n2 := p2.length - 1) (Good := Good)
    (fun r k1 k2 => (C14_bounds _ (hsub p1 r k1 (by omega))).imp fun _ h => h.1)
    (fun r k1 k2 => (C14_bounds _ (hsub p2 r k1 (by omega))).imp fun _ h => h.1)
    hboxle
    (by
      intro r1 r2 k1 k2 k3 k4
      obtain ⟨b, e1, e2, e3⟩ := hleaf r1 r2 k1 (by omega) k3 (by omega)
      refine ⟨b, e1, e2, ?_⟩
      intro i j m1 m2 m3 m4
      obtain ⟨⟨PQ, ⟨hP, hQ⟩, hd⟩, -⟩ := edgeDist_spec p1 p2 i j
      rw [← hd]
      exact e3 _ _ (honsub p1 r1 i (by omega) m1 m2 _ hP) (honsub p2 r2 j (by omega) m3 m4 _ hQ))
    (4 * p1.length * p2.length) (dot (A - B) (A - B)) none
    [⟨(0, p1.length - 1), (0, p2.length - 1), aabbAabbDistSq b1 b2⟩]
    (by
      simp only [totalWeight, WorkItem.weight, List.map_cons, List.map_nil, List.sum_cons,
        List.sum_nil, Nat.add_zero, Nat.sub_zero]
      have : 4 * (p1.length - 1) * (p2.length - 1) ≤ 4 * p1.length * p2.length :=
        Nat.mul_le_mul (Nat.mul_le_mul_left _ (Nat.sub_le _ _)) (Nat.sub_le _ _)
      have : 0 < 4 * p1.length * p2.length := by positivity
      omega)
    (by
      intro w hw
      simp only [List.mem_singleton] at hw
      subst hw
      refine ⟨by simp only; omega, le_rfl, by simp only; omega, le_rfl, ?_⟩
      intro i j hc
      refine hboxle (0, p1.length - 1) (0, p2.length - 1) (by simp only; omega) le_rfl
        (by simp only; omega) le_rfl b1 b2 ?_ ?_ i j hc.1 hc.2.1 hc.2.2.1 hc.2.2.2
      · rw [hwhole p1 (by omega)]; exact hb1
      · rw [hwhole p2 (by omega)]; exact hb2)
    (by
      intro i j hi hj
      exact Or.inr ⟨_, List.mem_cons_self, Nat.zero_le _, hi, Nat.zero_le _, hj⟩)
  refine ⟨A, B, m, out, rfl, rfl, ?_, ?_, ?_⟩
  · unfold search
    rw [hp1e] at hb1
    rw [hp2e] at hb2
    rw [hp1e, hp2e, hb1, hb2]
    exact h1
  · intro P Q hP hQ
    obtain ⟨i, j, hi, hj, hle⟩ := hD P Q hP hQ
    exact (h2 i j hi hj).trans hle
  · rw [dot_self_sub] at h3
    exact h3

theorem subDistBrute_spec (p1 p2 : List (P2 K)) (r1 r2 : Nat × Nat) (h1 : r1.1 < r1.2)
    (h2 : r1.2 < p1.length) (h3 : r2.1 < r2.2) (h4 : r2.2 < p2.length) :
    ∃ d, subDistBrute Cmp.direct p1 p2 r1 r2 = .ok (some d) ∧
      (∃ P Q, OnPolyline p1 P ∧ OnPolyline p2 Q ∧ sqDist P Q = d) ∧
      ∀ P Q, OnPolyline (subPoints p1 r1) P → OnPolyline (subPoints p2 r2) Q → d ≤ sqDist P Q := by
  obtain ⟨d, e1, ⟨⟨P, Q⟩, ⟨hP, hQ⟩, hd⟩, hm⟩ := polylineDistBrute_spec (subPoints p1 r1)
    (subPoints p2 r2) (by rw [subPoints_length _ _ h1 h2]; omega)
    (by rw [subPoints_length _ _ h3 h4]; omega)
  refine ⟨d, by rw [subDistBrute, if_pos ⟨h2, h4⟩]; exact e1,
    ⟨P, Q, onPolyline_sub hP, onPolyline_sub hQ, hd⟩, fun P Q hP hQ => hm (P, Q) ⟨hP, hQ⟩⟩

/-- The pair of closest points that the functions with output arguments report. -/
theorem edgesClosestBrute_spec (e1 e2 : List (Nat × P2 K × P2 K)) (h1 : e1 ≠ []) (h2 : e2 ≠ []) :
    ∃ r x y, edgesClosestBrute Cmp.direct e1 e2 = .ok (some r) ∧ x ∈ e1 ∧ y ∈ e2 ∧
      r.i1 = x.1 ∧ r.i2 = y.1 ∧
      segSegClosest Cmp.direct x.2.1 x.2.2 y.2.1 y.2.2 = .ok r.pair ∧
      ∀ a ∈ e1, ∀ b ∈ e2, ∀ P Q, OnSegment a.2.1 a.2.2 P → OnSegment b.2.1 b.2.2 Q →
        r.pair.d2 ≤ sqDist P Q := by
  have hex : ∀ a : Nat × P2 K × P2 K, ∃ r : SegPolyClosest K,
      segEdgesClosest Cmp.direct a.2.1 a.2.2 e2 = .ok (some r) ∧
      (∃ y ∈ e2, r.index = y.1 ∧
        segSegClosest Cmp.direct a.2.1 a.2.2 y.2.1 y.2.2 = .ok r.pair) ∧
      ∀ b ∈ e2, ∀ P Q, OnSegment a.2.1 a.2.2 P → OnSegment b.2.1 b.2.2 Q →
        r.pair.d2 ≤ sqDist P Q := by
    intro a
    obtain ⟨x, r, k, k1, k2, k3, k4, k5, k6, k7, k8⟩ := segEdges_min a.2.1 a.2.2
      (fun e : Nat × P2 K × P2 K => e.2.1) (fun e => e.2.2) e2 h2
    refine ⟨⟨x.1, r⟩, by simp only [segEdgesClosest, k1],
      ⟨x, List.mem_iff_getElem?.mpr ⟨k, k2⟩, rfl, k3⟩, ?_⟩
    intro b hb P Q hP hQ
    exact k7 P hP b hb Q hQ
  choose g hg1 hg2 hg3 using hex
  obtain ⟨x, k, k1, k2, k3, -⟩ := minLoop_none (fun e => .ok (g e)) g (fun r => r.pair.d2) e1
    (fun _ _ => rfl) h1
  rw [← minLoopInf_eq (fun e : Nat × P2 K × P2 K => segEdgesClosest Cmp.direct e.2.1 e.2.2 e2) g
    (fun r => r.pair.d2) e1 none (fun e _ => hg1 e)] at k1
  obtain ⟨y, hy, hi, hseg⟩ := hg2 x
  refine ⟨⟨x.1, (g x).index, (g x).pair⟩, x, y, by simp only [edgesClosestBrute, k1],
    List.mem_iff_getElem?.mpr ⟨k, k2⟩, hy, rfl, hi, hseg, ?_⟩
  intro a ha b hb P Q hP hQ
  exact (k3 a ha).trans (hg3 a b hb P Q hP hQ)

theorem mem_openEdgesIdx (p : List (P2 K)) (x : Nat × P2 K × P2 K) :
    x ∈ openEdgesIdx p ↔ IsEdge p x.1 x.2.1 x.2.2 := by
  rw [List.mem_iff_getElem?]
  constructor
  · rintro ⟨k, hk⟩
    obtain ⟨h1, h2⟩ := (openEdgesIdx_get _ _ _).mp hk
    rw [h1]; exact h2
  · intro h
    exact ⟨x.1, (openEdgesIdx_get _ _ _).mpr ⟨rfl, h⟩⟩

theorem mem_subEdgesIdx (p : List (P2 K)) (r : Nat × Nat) (x : Nat × P2 K × P2 K) :
    x ∈ subEdgesIdx p r ↔ r.1 ≤ x.1 ∧ x.1 < r.2 ∧ IsEdge p x.1 x.2.1 x.2.2 := by
  obtain ⟨i, A, B⟩ := x
  unfold subEdgesIdx
  simp only [List.mem_map, Prod.mk.injEq]
  constructor
  · rintro ⟨⟨k, A', B'⟩, hk, rfl, h⟩
    cases h
    rw [mem_openEdgesIdx] at hk
    obtain ⟨h1, h2⟩ := (isEdge_sub _ _ _ _ _).mp hk
    exact ⟨Nat.le_add_right _ _, h1, h2⟩
  · rintro ⟨h1, h2, h3⟩
    refine ⟨(i - r.1, A, B), ?_, by simp only; omega, rfl⟩
    rw [mem_openEdgesIdx]
    refine (isEdge_sub _ _ _ _ _).mpr ⟨by simp only; omega, ?_⟩
    simp only
    rw [show r.1 + (i - r.1) = i by omega]
    exact h3

theorem mem_closedEdgesIdx (p : List (P2 K)) (x : Nat × P2 K × P2 K) :
    x ∈ closedEdgesIdx p ↔ IsPolygonEdge p x.1 x.2.1 x.2.2 := by
  rw [List.mem_iff_getElem?]
  constructor
  · rintro ⟨k, hk⟩
    obtain ⟨-, h1, h2⟩ := (closedEdgesIdx_get _ _ _).mp hk
    rw [h1]; exact h2
  · intro h
    have hlt := (List.getElem?_eq_some_iff.mp h.1).1
    have hst : closedStart p.length ((x.1 + 1) % p.length) = x.1 := by
      unfold closedStart
      rcases Nat.lt_or_ge (x.1 + 1) p.length with h1 | h1
      · rw [Nat.mod_eq_of_lt h1, if_neg (by omega)]; omega
      · rw [show x.1 + 1 = p.length by omega, Nat.mod_self, if_pos rfl]; omega
    exact ⟨(x.1 + 1) % p.length, (closedEdgesIdx_get _ _ _).mpr
      ⟨Nat.mod_lt _ (by omega), by rw [hst], by rw [hst]; exact h⟩⟩

theorem report_of_segSeg {Edge1 Edge2 : Nat → P2 K → P2 K → Prop} {r : PolyPolyClosest K}
    {A B C D : P2 K} (h1 : Edge1 r.i1 A B) (h2 : Edge2 r.i2 C D)
    (h : segSegClosest Cmp.direct A B C D = .ok r.pair) : IsClosestReport Edge1 Edge2 r := by
  obtain ⟨r', e, a1, a2, a3, a4, a5, a6, a7, -⟩ := segSegClosest_spec A B C D
  rw [h] at e
  simp only [Except.ok.injEq] at e
  rw [← e] at a1 a2 a3 a4 a5 a6 a7
  exact ⟨A, B, C, D, h1, h2, ⟨a1, a2, a5⟩, ⟨a3, a4, a6⟩, a7⟩

theorem report_points {Edge1 Edge2 : Nat → P2 K → P2 K → Prop} {r : PolyPolyClosest K}
    (h : IsClosestReport Edge1 Edge2 r) :
    ∃ P Q, (∃ i A B, Edge1 i A B ∧ OnSegment A B P) ∧ (∃ i A B, Edge2 i A B ∧ OnSegment A B Q) ∧
      sqDist P Q = r.pair.d2 := by
  obtain ⟨A, B, C, D, h1, h2, ⟨a1, a2, a3⟩, ⟨b1, b2, b3⟩, hd⟩ := h
  exact ⟨_, _, ⟨_, A, B, h1, _, a1, a2, a3⟩, ⟨_, C, D, h2, _, b1, b2, b3⟩, hd.symm⟩

theorem isMinDist_of_report {Edge1 Edge2 : Nat → P2 K → P2 K → Prop} {r : PolyPolyClosest K}
    (h : IsClosestReport Edge1 Edge2 r)
    (hmin : ∀ P Q, (∃ i A B, Edge1 i A B ∧ OnSegment A B P) →
      (∃ i A B, Edge2 i A B ∧ OnSegment A B Q) → r.pair.d2 ≤ sqDist P Q) :
    IsMinDist (fun P => ∃ i A B, Edge1 i A B ∧ OnSegment A B P)
      (fun Q => ∃ i A B, Edge2 i A B ∧ OnSegment A B Q) r.pair.d2 := by
  obtain ⟨P, Q, hP, hQ, hd⟩ := report_points h
  exact ⟨⟨(P, Q), ⟨hP, hQ⟩, hd⟩, fun PQ hPQ => hmin _ _ hPQ.1 hPQ.2⟩

theorem onPolyline_first {p : List (P2 K)} {A : P2 K} (h : p[0]? = some A) (h2 : 2 ≤ p.length) :
    OnPolyline p A := by
  refine ⟨0, A, p[1], ⟨h, List.getElem?_eq_getElem _⟩, 0, le_rfl, zero_le_one, ?_⟩
  ext <;> simp

theorem openEdgesIdx_ne_nil {p : List (P2 K)} (h : 2 ≤ p.length) : openEdgesIdx p ≠ [] := by
  unfold openEdgesIdx
  simpa using openEdges_ne_nil h

theorem closedEdgesIdx_ne_nil {p : List (P2 K)} (h : p ≠ []) : closedEdgesIdx p ≠ [] := by
  unfold closedEdgesIdx
  simpa using closedEdges_ne_nil h

theorem polylineClosestBrute_spec (p1 p2 : List (P2 K)) (h1 : 2 ≤ p1.length)
    (h2 : 2 ≤ p2.length) :
    ∃ r, polylineClosestBrute Cmp.direct p1 p2 = .ok (some r) ∧
      IsClosestReport (IsEdge p1) (IsEdge p2) r ∧
      ∀ P Q, OnPolyline p1 P → OnPolyline p2 Q → r.pair.d2 ≤ sqDist P Q := by
  obtain ⟨r, x, y, e, hx, hy, i1, i2, hseg, hmin⟩ := edgesClosestBrute_spec (openEdgesIdx p1)
    (openEdgesIdx p2) (openEdgesIdx_ne_nil h1) (openEdgesIdx_ne_nil h2)
  rw [mem_openEdgesIdx, ← i1] at hx
  rw [mem_openEdgesIdx, ← i2] at hy
  refine ⟨r, e, report_of_segSeg hx hy hseg, ?_⟩
  rintro P Q ⟨i, A, B, hi, hP⟩ ⟨j, C, D, hj, hQ⟩
  exact hmin (i, A, B) ((mem_openEdgesIdx _ _).mpr hi) (j, C, D) ((mem_openEdgesIdx _ _).mpr hj)
    P Q hP hQ

theorem polygonClosestBrute_spec (p1 p2 : List (P2 K)) (h1 : p1 ≠ []) (h2 : p2 ≠ []) :
    ∃ r, edgesClosestBrute Cmp.direct (closedEdgesIdx p1) (closedEdgesIdx p2) = .ok (some r) ∧
      IsClosestReport (IsPolygonEdge p1) (IsPolygonEdge p2) r ∧
      ∀ P Q, OnBoundary p1 P → OnBoundary p2 Q → r.pair.d2 ≤ sqDist P Q := by
  obtain ⟨r, x, y, e, hx, hy, i1, i2, hseg, hmin⟩ := edgesClosestBrute_spec (closedEdgesIdx p1)
    (closedEdgesIdx p2) (closedEdgesIdx_ne_nil h1) (closedEdgesIdx_ne_nil h2)
  rw [mem_closedEdgesIdx, ← i1] at hx
  rw [mem_closedEdgesIdx, ← i2] at hy
  refine ⟨r, e, report_of_segSeg hx hy hseg, ?_⟩
  rintro P Q ⟨i, A, B, hi, hP⟩ ⟨j, C, D, hj, hQ⟩
  exact hmin (i, A, B) ((mem_closedEdgesIdx _ _).mpr hi) (j, C, D)
    ((mem_closedEdgesIdx _ _).mpr hj) P Q hP hQ

theorem subClosestBrute_spec (p1 p2 : List (P2 K)) (r1 r2 : Nat × Nat) (h1 : r1.1 < r1.2)
    (h2 : r1.2 < p1.length) (h3 : r2.1 < r2.2) (h4 : r2.2 < p2.length) :
    ∃ r, subClosestBrute Cmp.direct p1 p2 r1 r2 = .ok (some r) ∧
      IsClosestReport (IsEdge p1) (IsEdge p2) r ∧
      ∀ P Q, OnPolyline (subPoints p1 r1) P → OnPolyline (subPoints p2 r2) Q →
        r.pair.d2 ≤ sqDist P Q := by
  have hne : ∀ (p : List (P2 K)) (r : Nat × Nat), r.1 < r.2 → r.2 < p.length →
      subEdgesIdx p r ≠ [] := by
    intro p r k1 k2
    have : (r.1, p.getD r.1 0, p.getD (r.1 + 1) 0) ∈ subEdgesIdx p r :=
      (mem_subEdgesIdx _ _ _).mpr ⟨le_rfl, k1, isEdge_getD (by omega)⟩
    exact List.ne_nil_of_mem this
  obtain ⟨r, x, y, e, hx, hy, i1, i2, hseg, hmin⟩ := edgesClosestBrute_spec (subEdgesIdx p1 r1)
    (subEdgesIdx p2 r2) (hne p1 r1 h1 h2) (hne p2 r2 h3 h4)
  rw [mem_subEdgesIdx, ← i1] at hx
  rw [mem_subEdgesIdx, ← i2] at hy
  refine ⟨r, by rw [subClosestBrute, if_pos ⟨h2, h4⟩]; exact e,
    report_of_segSeg hx.2.2 hy.2.2 hseg, ?_⟩
  rintro P Q ⟨i, A, B, hi, hP⟩ ⟨j, C, D, hj, hQ⟩
  obtain ⟨k1, k2⟩ := (isEdge_sub _ _ _ _ _).mp hi
  obtain ⟨k3, k4⟩ := (isEdge_sub _ _ _ _ _).mp hj
  exact hmin (r1.1 + i, A, B) ((mem_subEdgesIdx _ _ _).mpr ⟨Nat.le_add_right _ _, k1, k2⟩)
    (r2.1 + j, C, D) ((mem_subEdgesIdx _ _ _).mpr ⟨Nat.le_add_right _ _, k3, k4⟩) P Q hP hQ

theorem searchClosest_spec
    {pop : List (WorkItem K) → Option (WorkItem K × List (WorkItem K))}
    (hpop : IsPriorityPop (fun w => w.d2) pop) (p1 p2 : List (P2 K)) (h1 : 6 ≤ p1.length)
    (h2 : 6 ≤ p2.length) :
    ∃ A B m out, p1[0]? = some A ∧ p2[0]? = some B ∧
      search pop Cmp.direct (subClosestBrute Cmp.direct p1 p2) (fun r => r.pair.d2) p1 p2 =
        .ok (m, out) ∧
      (∀ P Q, OnPolyline p1 P → OnPolyline p2 Q → m ≤ sqDist P Q) ∧
      ((m = sqDist A B ∧ out = none) ∨
        ∃ b, out = some b ∧ IsClosestReport (IsEdge p1) (IsEdge p2) b ∧ b.pair.d2 = m ∧
          m < sqDist A B) :=
  search_spec hpop p1 p2 h1 h2
    (fun r1 r2 k1 k2 k3 k4 => subClosestBrute_spec p1 p2 r1 r2 k1 k2 k3 k4)

end Geometrix
