import Verif.Lemmas.SweepEvents
import Mathlib.Data.List.Chain
import Mathlib.Data.List.Nodup

/-!
# Helper lemmas: the invariant of the sweep
-/

set_option linter.unusedSectionVars false

namespace Geometrix

open Spec

variable {K : Type*} [Field K] [LinearOrder K] [IsStrictOrderedRing K]

/-- An end of a segment, or a point where two segments cross. -/
def Candidate (items : List (SweepItem K)) (x : P2 K) : Prop :=
  (∃ i ∈ items, x = i.seg.s ∨ x = i.seg.e) ∨ ∃ i ∈ items, ∃ j ∈ items, Crossing i.seg j.seg x

/-- The state of the sweep after the event `p`. -/
structure SweepInv (items : List (SweepItem K)) (cap : Nat) (p : P2 K) (Q : EventQueue K) (T : List (SweepItem K)) :
    Prop where
  sorted : QSorted Q
  after : ∀ e ∈ Q, lk p < lk e.1
  active : ∀ x, x ∈ T ↔ x ∈ items ∧ ActiveAfter p x.seg
  nodup : T.Nodup
  start : ∀ x ∈ items, lk p < lk x.seg.s → IsKey Q x.seg.s
  stop : ∀ x ∈ items, lk p < lk x.seg.e → IsKey Q x.seg.e
  upper : ∀ e ∈ Q, ∀ x, x ∈ e.2 ↔ x ∈ items ∧ x.seg.s = e.1
  key : ∀ e ∈ Q, Candidate items e.1
  below : T.IsChain fun a b => BelowAfter p a.seg b.seg
  cover : T.IsChain (Covered p Q)
  short : Q.length ≤ cap

/-- The list of items. -/
structure ItemsOK (items : List (SweepItem K)) : Prop where
  rising : ∀ x ∈ items, Rising x.seg
  ordered : items.Pairwise fun a b => a.idx < b.idx
  bound : ∀ x ∈ items, x.idx < items.length

theorem pairwise_lt_inj {items : List (SweepItem K)} (h : items.Pairwise fun a b => a.idx < b.idx) :
    ∀ x ∈ items, ∀ y ∈ items, x.idx = y.idx → x = y := by
  induction items with
  | nil => simp
  | cons a l ih =>
    rw [List.pairwise_cons] at h
    intro x hx y hy e
    rcases List.mem_cons.mp hx with rfl | hx' <;> rcases List.mem_cons.mp hy with rfl | hy'
    · rfl
    · exact absurd (h.1 y hy') (by omega)
    · exact absurd (h.1 x hx') (by omega)
    · exact ih h.2 x hx' y hy' e

theorem ItemsOK.inj {items : List (SweepItem K)} (h : ItemsOK items) :
    ∀ x ∈ items, ∀ y ∈ items, x.idx = y.idx → x = y := pairwise_lt_inj h.ordered

theorem ItemsOK.nodup {items : List (SweepItem K)} (h : ItemsOK items) : items.Nodup :=
  h.ordered.imp fun hab h0 => by rw [h0] at hab; exact lt_irrefl _ hab

theorem split_three {α : Type*} (f : α → K) (c : K) (l : List α) (h : l.Pairwise fun a b => f a ≤ f b) :
    l = l.filter (fun a => decide (f a < c)) ++ (l.filter (fun a => decide (f a = c)) ++
      l.filter fun a => decide (c < f a)) := by
  induction l with
  | nil => simp
  | cons a l ih =>
    rw [List.pairwise_cons] at h
    have ih' := ih h.2
    rcases lt_trichotomy (f a) c with h1 | h1 | h1
    · have h2 : f a ≠ c := h1.ne
      have h3 : ¬ c < f a := h1.not_gt
      simp only [List.filter_cons, h1, h2, h3, decide_true, decide_false, if_true, Bool.false_eq_true, if_false,
        List.cons_append]
      rw [← ih']
    · have e1 : l.filter (fun a => decide (f a < c)) = [] := by
        rw [List.filter_eq_nil_iff]; intro b hb; have := h.1 b hb; simp; linarith
      rw [e1] at ih'
      simp only [List.filter_cons, h1, lt_irrefl, decide_true, decide_false, if_true, Bool.false_eq_true, if_false,
        e1, List.nil_append, List.cons_append]
      simp only [List.nil_append] at ih'
      rw [← ih']
    · have h2 : f a ≠ c := h1.ne'
      have h3 : ¬ f a < c := h1.not_gt
      have e1 : l.filter (fun a => decide (f a < c)) = [] := by
        rw [List.filter_eq_nil_iff]; intro b hb; have := h.1 b hb; simp; linarith
      have e2 : l.filter (fun a => decide (f a = c)) = [] := by
        rw [List.filter_eq_nil_iff]; intro b hb; have := h.1 b hb; simp; intro h4; linarith
      rw [e1, e2] at ih'
      simp only [List.filter_cons, h1, h2, h3, decide_true, decide_false, if_true, Bool.false_eq_true, if_false,
        e1, e2, List.nil_append]
      simp only [List.nil_append] at ih'
      rw [← ih']

section
variable {items : List (SweepItem K)} {cap : Nat} {p : P2 K} {Q : EventQueue K} {T : List (SweepItem K)}

/-- An item of the sweep line goes on at least until the next event. -/
theorem SweepInv.until (h : SweepInv items cap p Q T) {m : P2 K} (hm : ∀ e ∈ Q, lk m ≤ lk e.1) {x : SweepItem K}
    (hx : x ∈ T) : lk m ≤ lk x.seg.e := by
  obtain ⟨h1, h2⟩ := (h.active x).mp hx
  obtain ⟨u, hu⟩ := h.stop x h1 h2.2
  exact hm _ hu

/-- Items that begin before the next event have begun. -/
theorem SweepInv.begun (h : SweepInv items cap p Q T) {m : P2 K} (hm : ∀ e ∈ Q, lk m ≤ lk e.1) {x : SweepItem K}
    (hx : x ∈ items) (hs : lk x.seg.s < lk m) : lk x.seg.s ≤ lk p := by
  by_contra hc
  obtain ⟨u, hu⟩ := h.start x hx (not_le.mp hc)
  exact absurd (hm _ hu) (not_le.mpr hs)

/-- At a point up to the next event the sweep line is in order. -/
theorem SweepInv.sortedAt (h : SweepInv items cap p Q T) {m : P2 K} (hp : lk p < lk m) (hm : ∀ e ∈ Q, lk m ≤ lk e.1) :
    T.Pairwise fun a b => yAt a.seg m ≤ yAt b.seg m := by
  have hc : T.IsChain fun a b => yAt a.seg m ≤ yAt b.seg m := by
    rw [List.isChain_iff_getElem]
    intro i hi
    have h1 := List.isChain_iff_getElem.mp h.below i hi
    have h2 := List.isChain_iff_getElem.mp h.cover i hi
    refine h1 m hp (h.until hm (List.getElem_mem _)) (h.until hm (List.getElem_mem _)) fun x hx hxm hcx => ?_
    obtain ⟨u, hu⟩ := h2 x hx hcx
    exact absurd (hm _ hu) (not_le.mpr hxm)
  have : IsTrans (SweepItem K) fun a b => yAt a.seg m ≤ yAt b.seg m := ⟨fun _ _ _ => le_trans⟩
  exact hc.pairwise

theorem SweepInv.throughAt (h : SweepInv items cap p Q T) (hI : ItemsOK items) {m : P2 K} (hp : lk p < lk m)
    (hm : ∀ e ∈ Q, lk m ≤ lk e.1) {x : SweepItem K} (hx : x ∈ T) : Through x.seg m ↔ yAt x.seg m = m.y := by
  obtain ⟨h1, h2⟩ := (h.active x).mp hx
  rw [through_iff (hI.rising x h1)]
  exact ⟨fun h => h.2.2, fun h' => ⟨h2.1.trans hp.le, h.until hm hx, h'⟩⟩

theorem parallel_between {m : P2 K} (T : List (SweepItem K)) (hR : ∀ x ∈ T, Rising x.seg)
    (ht : ∀ x ∈ T, Through x.seg m ↔ yAt x.seg m = m.y) (hs : T.Pairwise fun a b => yAt a.seg m ≤ yAt b.seg m)
    (hc : T.IsChain fun a b => Through a.seg m → Through b.seg m → spread a.seg b.seg = 0) :
    T.Pairwise fun a b => Through a.seg m → Through b.seg m → spread a.seg b.seg = 0 := by
  induction T with
  | nil => simp
  | cons a T ih =>
    cases T with
    | nil => simp
    | cons b T =>
      rw [List.isChain_cons_cons] at hc
      rw [List.pairwise_cons] at hs
      have ih' := ih (fun x hx => hR x (by simp [hx])) (fun x hx => ht x (by simp [hx])) hs.2 hc.2
      rw [List.pairwise_cons]
      refine ⟨fun c hcm ha hcc => ?_, ih'⟩
      rcases List.mem_cons.mp hcm with rfl | hcm'
      · exact hc.1 ha hcc
      · have hb : Through b.seg m := by
          rw [ht b (by simp)]
          have e1 := (ht a (by simp)).mp ha
          have e2 := (ht c (List.mem_cons_of_mem _ hcm)).mp hcc
          have l1 := hs.1 b (by simp)
          have l2 := (List.pairwise_cons.mp hs.2).1 c hcm'
          rw [e1] at l1; rw [e2] at l2
          exact le_antisymm l2 l1
        exact spread_trans (hR b (by simp)) (hc.1 ha hb) ((List.pairwise_cons.mp ih').1 c hcm' hb hcc)

/-- A crossing after `p` is not before the next event. -/
theorem SweepInv.no_gap (h : SweepInv items cap p Q T) (hI : ItemsOK items) {m : P2 K} (hp : lk p < lk m)
    (hm : ∀ e ∈ Q, lk m < lk e.1) : ¬ Candidate items m := by
  have hm' : ∀ e ∈ Q, lk m ≤ lk e.1 := fun e he => (hm e he).le
  have hno : ¬ IsKey Q m := fun ⟨u, hu⟩ => lt_irrefl _ (hm _ hu)
  rintro (⟨i, hi, rfl | rfl⟩ | ⟨i, hi, j, hj, hc⟩)
  · exact hno (h.start i hi hp)
  · exact hno (h.stop i hi hp)
  · have hT : ∀ x ∈ items, Through x.seg m → x ∈ T := by
      intro x hx hth
      obtain ⟨h1, h2, -⟩ := (through_iff (hI.rising x hx) m).mp hth
      refine (h.active x).mpr ⟨hx, ?_, hp.trans_le h2⟩
      rcases h1.eq_or_lt with h1 | h1
      · exact absurd (by rw [← lk_inj h1]; exact h.start x hx (by rw [h1]; exact hp)) hno
      · exact h.begun hm' hx h1
    have hR : ∀ x ∈ T, Rising x.seg := fun x hx => hI.rising x ((h.active x).mp hx).1
    have hpw := parallel_between T hR (fun x hx => h.throughAt hI hp hm' hx) (h.sortedAt hp hm') (by
      rw [List.isChain_iff_getElem]
      intro k hk t1 t2
      by_contra hne
      exact hno (List.isChain_iff_getElem.mp h.cover k hk m hp ⟨hne, t1, t2⟩))
    have hij : i ≠ j := by rintro rfl; exact hc.1 (cross_self _)
    have hsym : Std.Symm fun (a b : SweepItem K) => Through a.seg m → Through b.seg m → spread a.seg b.seg = 0 :=
      ⟨fun a b hab h1 h2 => by rw [spread_swap, hab h2 h1, neg_zero]⟩
    exact hc.1 (hpw.forall (hT i hi hc.2.1) (hT j hj hc.2.2) hij hc.2.1 hc.2.2)

end

/-- What is below before the event stays below. -/
theorem belowAfter_step {p q : P2 K} {s t : Seg K} (h : BelowAfter p s t) (hpq : lk p < lk q)
    (hx : ∀ x, lk p < lk x → lk x < lk q → ¬ Crossing s t x) (hs : ¬ Through s q) : BelowAfter q s t := by
  intro r hr h1 h2 h3
  refine h r (hpq.trans hr) h1 h2 fun x h4 h5 hc => ?_
  rcases lt_trichotomy (lk x) (lk q) with h6 | h6 | h6
  · exact hx x h4 h6 hc
  · rw [lk_inj h6] at hc; exact hs hc.2.1
  · exact h3 x h6 h5 hc

end Geometrix
