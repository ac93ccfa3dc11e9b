import Verif.Lemmas.SweepInvariant
import Mathlib.Data.List.Basic

/-!
# Helper lemmas: one event of the sweep
-/

set_option linter.unusedSectionVars false

namespace Geometrix

open Spec

variable {K : Type*} [Field K] [LinearOrder K] [IsStrictOrderedRing K]

theorem foldl_erase_filter {α : Type*} [DecidableEq α] (d l : List α) (h : l.Nodup) :
    d.foldl (fun s x => s.erase x) l = l.filter fun x => decide (x ∉ d) := by
  induction d generalizing l with
  | nil => simp
  | cons a d ih =>
    rw [List.foldl_cons, ih _ (h.erase a), h.erase_eq_filter, List.filter_filter]
    apply List.filter_congr
    intro x _
    by_cases h1 : x = a <;> by_cases h2 : x ∈ d <;> simp [h1, h2]

/-- More events than the capacity. -/
def Overflow (items : List (SweepItem K)) (cap : Nat) : Prop :=
  ∃ Z : List (P2 K), Z.Nodup ∧ (∀ x ∈ Z, Candidate items x) ∧ cap < Z.length

theorem handle_step {items : List (SweepItem K)} {cap : Nat} {p q : P2 K} {u : List (SweepItem K)}
    {rest : EventQueue K} {T : List (SweepItem K)} (hI : ItemsOK items)
    (h : SweepInv items cap p ((q, u) :: rest) T) :
    (handleEvent Cmp.direct cap items ((q, u) :: rest) T q u = .error .outOfRange ∧ Overflow items cap) ∨
    ∃ rest' T' luc, handleEvent Cmp.direct cap items ((q, u) :: rest) T q u = .ok ((q, u) :: rest', T', luc) ∧
      SweepInv items cap q rest' T' ∧ luc.Sublist items ∧ ∀ x, x ∈ luc ↔ x ∈ items ∧ Through x.seg q := by
  have hpq : lk p < lk q := h.after (q, u) (by simp)
  have hQ := List.pairwise_cons.mp h.sorted
  have hm : ∀ e ∈ (q, u) :: rest, lk q ≤ lk e.1 := by
    intro e he
    rcases List.mem_cons.mp he with rfl | he
    · exact le_rfl
    · exact (hQ.1 e he).le
  have hTI : ∀ x ∈ T, x ∈ items := fun x hx => ((h.active x).mp hx).1
  have hTs : ∀ x ∈ T, lk x.seg.s < lk q := fun x hx => ((h.active x).mp hx).2.1.trans_lt hpq
  have hTe : ∀ x ∈ T, lk q ≤ lk x.seg.e := fun x hx => h.until hm hx
  have hTt : ∀ x ∈ T, (Through x.seg q ↔ yAt x.seg q = q.y) := fun x hx => h.throughAt hI hpq hm hx
  have hu : ∀ x, x ∈ u ↔ x ∈ items ∧ x.seg.s = q := h.upper (q, u) (by simp)
  -- an item through the event begins here or is on the sweep line
  have hthr : ∀ x ∈ items, Through x.seg q → x.seg.s = q ∨ x ∈ T := by
    intro x hx hth
    obtain ⟨h1, h2, -⟩ := (through_iff (hI.rising x hx) q).mp hth
    rcases h1.eq_or_lt with h1 | h1
    · exact Or.inl (lk_inj h1)
    · exact Or.inr ((h.active x).mpr ⟨hx, h.begun hm hx h1, hpq.trans_le h2⟩)
  have hsT : ∀ x ∈ items, x.seg.s = q → x ∉ T := fun x _ hs hT => by
    have := hTs x hT; rw [hs] at this; exact lt_irrefl _ this
  -- the sets
  generalize hres : handleEvent Cmp.direct cap items ((q, u) :: rest) T q u = res
  unfold handleEvent at hres
  simp only at hres
  set l := items.filter fun x => decide (x ∈ T) && seqEquals Cmp.direct q x.seg.e with hl
  set c := items.filter fun x => decide (x ∈ T) && (!seqEquals Cmp.direct q x.seg.e &&
    (isBetween Cmp.direct x.seg.s x.seg.e q true && !seqEquals Cmp.direct q x.seg.s)) with hc
  set uc := items.filter fun x => decide (x ∈ u ∨ x ∈ c) with huc
  set luc := items.filter fun x => decide (x ∈ uc ∨ x ∈ l) with hluc
  set lc := items.filter fun x => decide (x ∈ l ∨ x ∈ c) with hlc
  have ml : ∀ x, x ∈ l ↔ x ∈ T ∧ q = x.seg.e := by
    intro x
    rw [hl, List.mem_filter, Bool.and_eq_true, decide_eq_true_eq, seqEquals_direct]
    exact ⟨fun h => h.2, fun h => ⟨hTI x h.1, h⟩⟩
  have mc : ∀ x, x ∈ c ↔ x ∈ T ∧ q ≠ x.seg.e ∧ Through x.seg q := by
    intro x
    rw [hc, List.mem_filter]
    simp only [Bool.and_eq_true, decide_eq_true_eq, Bool.not_eq_true', ← Bool.not_eq_true, seqEquals_direct]
    constructor
    · rintro ⟨h1, h2, h3, h4, h5⟩
      exact ⟨h2, h3, (isBetween_through (hI.rising x h1) q).mp h4⟩
    · rintro ⟨h1, h2, h3⟩
      have h0 := hTI x h1
      refine ⟨h0, h1, h2, (isBetween_through (hI.rising x h0) q).mpr h3, fun h4 => ?_⟩
      exact hsT x h0 h4.symm h1
  have muc : ∀ x, x ∈ uc ↔ x ∈ items ∧ Through x.seg q ∧ lk q < lk x.seg.e := by
    intro x
    rw [huc, List.mem_filter, decide_eq_true_eq, hu, mc]
    constructor
    · rintro ⟨h1, h2 | h2⟩
      · refine ⟨h1, ?_, ?_⟩
        · rw [← h2.2]; exact through_start (hI.rising x h1)
        · rw [← h2.2]; exact hI.rising x h1
      · exact ⟨h1, h2.2.2, (hTe x h2.1).lt_of_ne fun h3 => h2.2.1 (lk_inj h3)⟩
    · rintro ⟨h1, h2, h3⟩
      refine ⟨h1, ?_⟩
      rcases hthr x h1 h2 with h4 | h4
      · exact Or.inl ⟨h1, h4⟩
      · exact Or.inr ⟨h4, fun h5 => by rw [← h5] at h3; exact lt_irrefl _ h3, h2⟩
  have mluc : ∀ x, x ∈ luc ↔ x ∈ items ∧ Through x.seg q := by
    intro x
    rw [hluc, List.mem_filter, decide_eq_true_eq, muc, ml]
    constructor
    · rintro ⟨h1, h2 | h2⟩
      · exact ⟨h1, h2.2.1⟩
      · exact ⟨h1, by rw [h2.2]; exact through_end (hI.rising x h1)⟩
    · rintro ⟨h1, h2⟩
      refine ⟨h1, ?_⟩
      obtain ⟨-, h3, -⟩ := (through_iff (hI.rising x h1) q).mp h2
      rcases h3.eq_or_lt with h3 | h3
      · right
        have h3' := lk_inj h3
        rcases hthr x h1 h2 with h4 | h4
        · exfalso; have := rising_ne (hI.rising x h1); rw [h4, ← h3'] at this; exact this rfl
        · exact ⟨h4, h3'⟩
      · exact Or.inl ⟨h1, h2, h3⟩
  have mlc : ∀ x, x ∈ lc ↔ x ∈ T ∧ Through x.seg q := by
    intro x
    rw [hlc, List.mem_filter, decide_eq_true_eq, ml, mc]
    constructor
    · rintro ⟨h1, h2 | h2⟩
      · exact ⟨h2.1, by rw [h2.2]; exact through_end (hI.rising x h1)⟩
      · exact ⟨h2.1, h2.2.2⟩
    · rintro ⟨h1, h2⟩
      refine ⟨hTI x h1, ?_⟩
      by_cases h3 : q = x.seg.e
      · exact Or.inl ⟨h1, h3⟩
      · exact Or.inr ⟨h1, h3, h2⟩
  -- the parts of the sweep line
  set T1 := T.filter (fun a => decide (yAt a.seg q < q.y)) with hT1
  set M0 := T.filter (fun a => decide (yAt a.seg q = q.y)) with hM0
  set T2 := T.filter (fun a => decide (q.y < yAt a.seg q)) with hT2
  have hT : T = T1 ++ (M0 ++ T2) := split_three (fun a : SweepItem K => yAt a.seg q) q.y T (h.sortedAt hpq hm)
  have m1 : ∀ x, x ∈ T1 ↔ x ∈ T ∧ yAt x.seg q < q.y := fun x => by rw [hT1, List.mem_filter, decide_eq_true_eq]
  have m2 : ∀ x, x ∈ T2 ↔ x ∈ T ∧ q.y < yAt x.seg q := fun x => by rw [hT2, List.mem_filter, decide_eq_true_eq]
  have herase : lc.foldl (fun s x => s.erase x) T = T1 ++ ([] ++ T2) := by
    rw [foldl_erase_filter lc T h.nodup]
    conv_lhs => rw [hT]
    rw [List.filter_append, List.filter_append]
    congr 1
    · rw [List.filter_eq_self]
      intro x hx
      rw [decide_eq_true_eq, mlc]
      rintro ⟨h1, h2⟩
      rw [hTt x h1] at h2
      exact ((m1 x).mp hx).2.ne h2
    · congr 1
      · rw [List.filter_eq_nil_iff]
        intro x hx
        rw [hM0, List.mem_filter, decide_eq_true_eq] at hx
        rw [decide_eq_true_eq, not_not, mlc]
        exact ⟨hx.1, (hTt x hx.1).mpr hx.2⟩
      · rw [List.filter_eq_self]
        intro x hx
        rw [decide_eq_true_eq, mlc]
        rintro ⟨h1, h2⟩
        rw [hTt x h1] at h2
        exact ((m2 x).mp hx).2.ne' h2
  -- facts about the items that stay
  have hout : ∀ x, x ∈ T1 ∨ x ∈ T2 → x ∈ T ∧ ¬ Through x.seg q ∧ lk q < lk x.seg.e := by
    intro x hx
    have hxT : x ∈ T := by rcases hx with hx | hx <;> [exact ((m1 x).mp hx).1; exact ((m2 x).mp hx).1]
    have hnt : ¬ Through x.seg q := by
      rw [hTt x hxT]
      rcases hx with hx | hx
      · exact ((m1 x).mp hx).2.ne
      · exact ((m2 x).mp hx).2.ne'
    refine ⟨hxT, hnt, (hTe x hxT).lt_of_ne fun h3 => hnt ?_⟩
    rw [lk_inj h3]; exact through_end (hI.rising x (hTI x hxT))
  have hsub : uc.Sublist items := List.filter_sublist
  have hidx : ∀ x ∈ uc, ∀ y, y ∈ T1 ∨ y ∈ T2 → x.idx ≠ y.idx := by
    intro x hx y hy e
    obtain ⟨hyT, hnt, -⟩ := hout y hy
    have := hI.inj x ((muc x).mp hx).1 y (hTI y hyT) e
    rw [← this] at hnt
    exact hnt ((muc x).mp hx).2.1
  obtain ⟨M, eM, pM, sM⟩ := sweepInsertAll_spec (q := q) T1 T2 uc []
    (fun x hx => ⟨hI.rising x ((muc x).mp hx).1, ((muc x).mp hx).2.1⟩) (by simp)
    (fun x hx y hy => by
      obtain ⟨hyT, hnt, -⟩ := hout y (Or.inl hy)
      rw [(sweepLess_outside (hI.rising x ((muc x).mp hx).1) (hI.rising y (hTI y hyT)) ((muc x).mp hx).2.1
        (hTs y hyT).le (hTe y hyT) hnt (hidx x hx y (Or.inl hy))).1, decide_eq_false (not_lt.mpr ((m1 y).mp hy).2.le)])
    (fun x hx y hy => by
      obtain ⟨hyT, hnt, -⟩ := hout y (Or.inr hy)
      rw [(sweepLess_outside (hI.rising x ((muc x).mp hx).1) (hI.rising y (hTI y hyT)) ((muc x).mp hx).2.1
        (hTs y hyT).le (hTe y hyT) hnt (hidx x hx y (Or.inr hy))).1, decide_eq_true ((m2 y).mp hy).2])
    (by rw [List.append_nil]; exact (hI.ordered.sublist hsub).imp fun h => h.ne) List.Pairwise.nil
  rw [List.append_nil] at pM
  rw [herase, eM] at hres
  simp only at hres
  have mM : ∀ x, x ∈ M ↔ x ∈ items ∧ Through x.seg q ∧ lk q < lk x.seg.e := fun x => by rw [pM.mem_iff, muc]
  -- the new sweep line
  set T' := T1 ++ (M ++ T2) with hT'
  have mT' : ∀ x, x ∈ T' ↔ x ∈ T1 ∨ x ∈ M ∨ x ∈ T2 := fun x => by rw [hT', List.mem_append, List.mem_append]
  have hact : ∀ x, x ∈ T' ↔ x ∈ items ∧ ActiveAfter q x.seg := by
    intro x
    rw [mT']
    constructor
    · rintro (hx | hx | hx)
      · obtain ⟨a, b, c⟩ := hout x (Or.inl hx)
        exact ⟨hTI x a, (hTs x a).le, c⟩
      · obtain ⟨a, b, c⟩ := (mM x).mp hx
        exact ⟨a, ((through_iff (hI.rising x a) q).mp b).1, c⟩
      · obtain ⟨a, b, c⟩ := hout x (Or.inr hx)
        exact ⟨hTI x a, (hTs x a).le, c⟩
    · rintro ⟨hx, h1, h2⟩
      by_cases ht : Through x.seg q
      · exact Or.inr (Or.inl ((mM x).mpr ⟨hx, ht, h2⟩))
      · have h1' : lk x.seg.s < lk q := h1.lt_of_ne fun h3 => ht (by
          rw [← lk_inj h3]; exact through_start (hI.rising x hx))
        have hxT : x ∈ T := (h.active x).mpr ⟨hx, h.begun hm hx h1', hpq.trans h2⟩
        rw [hTt x hxT] at ht
        rcases lt_or_gt_of_ne ht with h3 | h3
        · exact Or.inl ((m1 x).mpr ⟨hxT, h3⟩)
        · exact Or.inr (Or.inr ((m2 x).mpr ⟨hxT, h3⟩))
  have hline : LineOK q T' ((q, u) :: rest) := by
    refine ⟨fun x hx => hI.rising x ((hact x).mp hx).1, fun x hx => ((hact x).mp hx).2.1,
      fun x hx => h.stop x ((hact x).mp hx).1 (hpq.trans ((hact x).mp hx).2.2),
      fun x hx y hy => hI.inj x ((hact x).mp hx).1 y ((hact y).mp hy).1⟩
  have hnew := newEvents_spec (cap := cap) (n := items.length) (q := q) (T1 := T1) (M := M) (T2 := T2) (uc := uc) hline
    h.sorted h.short (fun x => pM.mem_iff.symm)
    (fun x hx hxu => (hout x (Or.inl hx)).2.1 ((muc x).mp hxu).2.1)
    (fun x hx hxu => (hout x (Or.inr hx)).2.1 ((muc x).mp hxu).2.1)
    (fun _ => by
      have hr : Rising (⟨q, ⟨q.x + 1, q.y⟩⟩ : Seg K) := lk_lt.mpr (Or.inl (by simp))
      have hside : ∀ y, y ∈ T1 ∨ y ∈ T2 → sweepLess Cmp.direct q y ⟨items.length, ⟨q, ⟨q.x + 1, q.y⟩⟩⟩ =
          .ok (decide (yAt y.seg q < q.y)) := by
        intro y hy
        obtain ⟨hyT, hnt, -⟩ := hout y hy
        exact (sweepLess_outside (x := ⟨items.length, ⟨q, ⟨q.x + 1, q.y⟩⟩⟩) hr (hI.rising y (hTI y hyT))
          (through_start hr) (hTs y hyT).le (hTe y hyT) hnt (hI.bound y (hTI y hyT)).ne').2
      refine sweepLowerBound_spec T1 T2 (fun y hy => ?_) (fun y hy => ?_)
      · rw [hside y (Or.inl hy), decide_eq_true ((m1 y).mp hy).2]
      · rw [hside y (Or.inr hy), decide_eq_false (not_lt.mpr ((m2 y).mp hy).2.le)])
  have hcand : ∀ Q', Grows (NewPoint q T') ((q, u) :: rest) Q' → ∀ e ∈ Q', Candidate items e.1 := by
    intro Q' hg e he
    rcases hg.new e he with he | ⟨-, ⟨-, a, ha, b, hb, hab⟩, -⟩
    · exact h.key e he
    · exact Or.inr ⟨a, ((hact a).mp ha).1, b, ((hact b).mp hb).1, hab⟩
  rcases hnew with ⟨e, Q', hg, hlen⟩ | ⟨Q', e, hg, hlen, cov1, cov2⟩
  · left
    rw [e] at hres
    refine ⟨hres.symm, Q'.map Prod.fst, ?_, ?_, by simpa using hlen⟩
    · rw [List.Nodup, List.pairwise_map]
      exact hg.sorted.imp fun hab h0 => by rw [h0] at hab; exact lt_irrefl _ hab
    · intro x hx
      obtain ⟨e', he', rfl⟩ := List.mem_map.mp hx
      exact hcand Q' hg e' he'
  · right
    rw [e] at hres
    simp only at hres
    -- the current event is still the first
    have hge : ∀ e ∈ Q', lk q ≤ lk e.1 := by
      intro e he
      rcases hg.new e he with he | ⟨-, ⟨h1, -⟩, -⟩
      · exact hm e he
      · exact h1.le
    have hhead : ∃ rest', Q' = (q, u) :: rest' := by
      have hin := hg.keep (q, u) (by simp)
      cases hQ' : Q' with
      | nil => rw [hQ'] at hin; simp at hin
      | cons e0 rest' =>
        rw [hQ'] at hin
        rcases List.mem_cons.mp hin with h1 | h1
        · exact ⟨rest', by rw [h1]⟩
        · have h2 := hg.sorted
          rw [hQ'] at h2
          have h3 := (List.pairwise_cons.mp h2).1 _ h1
          exact absurd (hge e0 (by rw [hQ']; simp)) (not_le.mpr h3)
    obtain ⟨rest', rfl⟩ := hhead
    have hsort := List.pairwise_cons.mp hg.sorted
    have hkeyTail : ∀ x, lk q < lk x → IsKey ((q, u) :: rest') x → IsKey rest' x := by
      rintro x hx ⟨v, hv⟩
      rcases List.mem_cons.mp hv with hv | hv
      · injection hv with h1 h2; rw [h1] at hx; exact absurd hx (lt_irrefl _)
      · exact ⟨v, hv⟩
    refine ⟨rest', T', luc, hres.symm, ?_, List.filter_sublist, mluc⟩
    -- old pairs of neighbours
    have hold : ∀ a b, a ∈ T1 ∨ a ∈ T2 → BelowAfter p a.seg b.seg → Covered p ((q, u) :: rest) a b →
        BelowAfter q a.seg b.seg ∧ Covered q rest' a b := by
      intro a b ha h1 h2
      refine ⟨belowAfter_step h1 hpq (fun x hx1 hx2 hc => ?_) (hout a ha).2.1, fun x hx1 hc => ?_⟩
      · obtain ⟨v, hv⟩ := h2 x hx1 hc
        exact absurd (hm _ hv) (not_le.mpr hx2)
      · exact hkeyTail x hx1 (hg.key (h2 x (hpq.trans hx1) hc))
    have hb := h.below
    have hcv := h.cover
    rw [hT, List.isChain_append, List.isChain_append] at hb hcv
    have hpart : ∀ S : List (SweepItem K), (∀ x ∈ S, x ∈ T1 ∨ x ∈ T2) →
        S.IsChain (fun a b => BelowAfter p a.seg b.seg) → S.IsChain (Covered p ((q, u) :: rest)) →
        S.IsChain (fun a b => BelowAfter q a.seg b.seg ∧ Covered q rest' a b) := by
      intro S hS h1 h2
      rw [List.isChain_iff_getElem] at h1 h2 ⊢
      intro i hi
      exact hold _ _ (hS _ (List.getElem_mem _)) (h1 i hi) (h2 i hi)
    have hyM : ∀ x ∈ M, yAt x.seg q = q.y := fun x hx =>
      ((through_iff (hI.rising x ((mM x).mp hx).1) q).mp ((mM x).mp hx).2.1).2.2
    have hlt : ∀ a ∈ T', ∀ b ∈ T', yAt a.seg q < yAt b.seg q → BelowAfter q a.seg b.seg := fun a ha b hb hab =>
      belowAfter_of_lt (hI.rising a ((hact a).mp ha).1) (hI.rising b ((hact b).mp hb).1) ((hact a).mp ha).2
        ((hact b).mp hb).2 hab
    have hchain : T'.IsChain (fun a b => BelowAfter q a.seg b.seg ∧ Covered q rest' a b) := by
      rw [hT', List.isChain_append, List.isChain_append]
      refine ⟨hpart T1 (fun x hx => Or.inl hx) hb.1 hcv.1, ⟨?_, hpart T2 (fun x hx => Or.inr hx) hb.2.1.2.1 hcv.2.1.2.1, ?_⟩, ?_⟩
      · -- pairs through the event
        refine List.Pairwise.isChain ?_
        refine sM.imp_of_mem fun {a b} ha hb hab => ⟨?_, fun x hx1 hc => ?_⟩
        · exact belowAfter_of_spread (hI.rising a ((mM a).mp ha).1) (hI.rising b ((mM b).mp hb).1) ((mM a).mp ha).2.1
            ((mM b).mp hb).2.1 hab
        · have := crossing_unique hc ⟨hc.1, ((mM a).mp ha).2.1, ((mM b).mp hb).2.1⟩
          rw [this] at hx1; exact absurd hx1 (lt_irrefl _)
      · intro a ha b hb
        obtain ⟨M', e1⟩ := List.getLast?_eq_some_iff.mp ha
        obtain ⟨R, e2⟩ := List.head?_eq_some_iff.mp hb
        have ha' : a ∈ M := by rw [e1]; simp
        have hb' : b ∈ T2 := by rw [e2]; simp
        refine ⟨hlt a ((mT' a).mpr (by simp [ha'])) b ((mT' b).mpr (by simp [hb'])) (by rw [hyM a ha']; exact ((m2 b).mp hb').2),
          fun x hx1 hc => hkeyTail x hx1 (cov2 (T1 ++ M') a b R (by rw [e1, List.append_assoc]) e2 x hx1 hc)⟩
      · intro a ha b hb
        obtain ⟨T0, e1⟩ := List.getLast?_eq_some_iff.mp ha
        obtain ⟨R, e2⟩ := List.head?_eq_some_iff.mp hb
        have ha' : a ∈ T1 := by rw [e1]; simp
        have hb' : b ∈ M ++ T2 := by rw [e2]; simp
        refine ⟨hlt a ((mT' a).mpr (by simp [ha'])) b ((mT' b).mpr (Or.inr (List.mem_append.mp hb'))) ?_,
          fun x hx1 hc => hkeyTail x hx1 (cov1 T0 a b R e1 e2 x hx1 hc)⟩
        have l1 := ((m1 a).mp ha').2
        rcases List.mem_append.mp hb' with hb' | hb'
        · rw [hyM b hb']; exact l1
        · exact l1.trans ((m2 b).mp hb').2
    have hnd : T'.Nodup := by
      have d1 : T1.Nodup := h.nodup.filter _
      have d2 : T2.Nodup := h.nodup.filter _
      have d3 : M.Nodup := pM.nodup_iff.mpr (hI.nodup.filter _)
      rw [hT', List.nodup_append, List.nodup_append]
      refine ⟨d1, ⟨d3, d2, ?_⟩, ?_⟩
      · rintro a ha b hb rfl
        exact (hout a (Or.inr hb)).2.1 ((mM a).mp ha).2.1
      · rintro a ha b hb rfl
        rcases List.mem_append.mp hb with hb | hb
        · exact (hout a (Or.inl ha)).2.1 ((mM a).mp hb).2.1
        · exact lt_asymm ((m1 a).mp ha).2 ((m2 a).mp hb).2
    refine ⟨hsort.2, hsort.1, hact, hnd, fun x hx hs => ?_, fun x hx hs => ?_, fun e he x => ?_, fun e he => ?_,
      hchain.imp fun _ _ h => h.1, hchain.imp fun _ _ h => h.2, ?_⟩
    · exact hkeyTail _ hs (hg.key (h.start x hx (hpq.trans hs)))
    · exact hkeyTail _ hs (hg.key (h.stop x hx (hpq.trans hs)))
    · rcases hg.new e (List.mem_cons_of_mem _ he) with he' | ⟨h1, ⟨h2, -⟩, h3⟩
      · exact h.upper e he' x
      · rw [h1]
        simp only [List.not_mem_nil, false_iff, not_and]
        intro hx hxe
        obtain ⟨v, hv⟩ := h.start x hx (hpq.trans (by rw [hxe]; exact h2))
        exact h3 _ hv hxe
    · exact hcand _ hg e (List.mem_cons_of_mem _ he)
    · simp only [List.length_cons] at hlen; omega

end Geometrix
