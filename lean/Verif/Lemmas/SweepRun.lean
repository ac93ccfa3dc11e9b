import Verif.Lemmas.SweepStep
import Verif.Spec.BentleyOttmann
import Mathlib.Data.List.Perm.Subperm

/-!
# Helper lemmas: the whole sweep
-/

set_option linter.unusedSectionVars false

namespace Geometrix

open Spec

variable {K : Type*} [Field K] [LinearOrder K] [IsStrictOrderedRing K]

theorem one_lt_length_iff_pair {α : Type*} {l : List α} (h : l.Nodup) :
    1 < l.length ↔ ∃ x ∈ l, ∃ y ∈ l, x ≠ y := by
  match l, h with
  | [], _ => simp
  | [a], _ => simp
  | a :: b :: l, h =>
    simp only [List.length_cons]
    refine ⟨fun _ => ⟨a, by simp, b, by simp, ?_⟩, fun _ => by omega⟩
    rintro rfl
    exact (List.nodup_cons.mp h).1 (by simp)

theorem loop_spec {items : List (SweepItem K)} {cap : Nat} (hI : ItemsOK items) (cand : List (P2 K))
    (hcand : ∀ x, Candidate items x → x ∈ cand) (fuel : Nat) (p : P2 K) (Q : EventQueue K) (T : List (SweepItem K))
    (h : SweepInv items cap p Q T) (hf : (cand.filter fun x => decide (lk p < lk x)).length ≤ fuel) :
    (sweepLoop Cmp.direct cap items fuel Q T = .error .outOfRange ∧ Overflow items cap) ∨
    ∃ calls, sweepLoop Cmp.direct cap items fuel Q T = .ok calls ∧ (calls.Pairwise fun a b => lk a.1 < lk b.1) ∧
      (∀ c ∈ calls, lk p < lk c.1) ∧
      (∀ c ∈ calls, c.2.Pairwise (· < ·) ∧ ∀ i, i ∈ c.2 ↔ ∃ x ∈ items, x.idx = i ∧ Through x.seg c.1) ∧
      ∀ q, (∃ ns, (q, ns) ∈ calls) ↔ lk p < lk q ∧ Candidate items q ∧
        ∃ x ∈ items, ∃ y ∈ items, x ≠ y ∧ Through x.seg q ∧ Through y.seg q := by
  induction fuel generalizing p Q T with
  | zero =>
    cases Q with
    | nil =>
      refine Or.inr ⟨[], rfl, by simp, by simp, by simp, fun q => ?_⟩
      simp only [List.not_mem_nil, exists_false, false_iff]
      rintro ⟨h1, h2, -⟩
      exact h.no_gap hI h1 (by simp) h2
    | cons e rest =>
      exfalso
      have : e.1 ∈ cand.filter fun x => decide (lk p < lk x) := by
        rw [List.mem_filter, decide_eq_true_eq]
        exact ⟨hcand _ (h.key e (by simp)), h.after e (by simp)⟩
      have := List.length_pos_of_mem this
      omega
  | succ fuel ih =>
    cases Q with
    | nil =>
      refine Or.inr ⟨[], rfl, by simp, by simp, by simp, fun q => ?_⟩
      simp only [List.not_mem_nil, exists_false, false_iff]
      rintro ⟨h1, h2, -⟩
      exact h.no_gap hI h1 (by simp) h2
    | cons e rest =>
      obtain ⟨q, u⟩ := e
      have hpq : lk p < lk q := h.after (q, u) (by simp)
      unfold sweepLoop
      rcases handle_step hI h with ⟨e, ho⟩ | ⟨rest', T', luc, e, h', hsub, hluc⟩
      · left; rw [e]; exact ⟨rfl, ho⟩
      · rw [e]
        simp only [List.tail_cons]
        have hf' : (cand.filter fun x => decide (lk q < lk x)).length ≤ fuel := by
          have e1 : cand.filter (fun x => decide (lk q < lk x)) =
              (cand.filter fun x => decide (lk p < lk x)).filter fun x => decide (lk q < lk x) := by
            rw [List.filter_filter]
            apply List.filter_congr
            intro x _
            by_cases hx : lk q < lk x
            · simp [hx, hpq.trans hx]
            · simp [hx]
          have e2 : ((cand.filter fun x => decide (lk p < lk x)).filter fun x => decide (lk q < lk x)).length <
              (cand.filter fun x => decide (lk p < lk x)).length := by
            rw [List.length_filter_lt_length_iff_exists]
            refine ⟨q, ?_, by simp⟩
            rw [List.mem_filter, decide_eq_true_eq]
            exact ⟨hcand _ (h.key (q, u) (by simp)), hpq⟩
          rw [← e1] at e2
          omega
        rcases ih q rest' T' h' hf' with ⟨e1, ho⟩ | ⟨calls, e1, c1, c2, c3, c4⟩
        · left; rw [e1]; exact ⟨rfl, ho⟩
        · right
          rw [e1]
          simp only
          have hgap : ∀ r, lk p < lk r → Candidate items r → lk q ≤ lk r := by
            intro r hr hc
            by_contra hlt
            refine h.no_gap hI hr (fun e he => ?_) hc
            rcases List.mem_cons.mp he with rfl | he
            · exact not_le.mp hlt
            · exact (not_le.mp hlt).trans ((List.pairwise_cons.mp h.sorted).1 e he)
          have hpair : luc.length > 1 ↔ ∃ x ∈ items, ∃ y ∈ items, x ≠ y ∧ Through x.seg q ∧ Through y.seg q := by
            rw [gt_iff_lt, one_lt_length_iff_pair (hI.nodup.sublist hsub)]
            constructor
            · rintro ⟨x, hx, y, hy, hxy⟩
              exact ⟨x, ((hluc x).mp hx).1, y, ((hluc y).mp hy).1, hxy, ((hluc x).mp hx).2, ((hluc y).mp hy).2⟩
            · rintro ⟨x, hx, y, hy, hxy, h1, h2⟩
              exact ⟨x, (hluc x).mpr ⟨hx, h1⟩, y, (hluc y).mpr ⟨hy, h2⟩, hxy⟩
          by_cases hl : luc.length > 1
          · rw [if_pos hl]
            refine ⟨_, rfl, List.pairwise_cons.mpr ⟨fun c hc => c2 c hc, c1⟩, fun c hc => ?_, fun c hc => ?_, fun r => ?_⟩
            · rcases List.mem_cons.mp hc with rfl | hc
              · exact hpq
              · exact hpq.trans (c2 c hc)
            · rcases List.mem_cons.mp hc with rfl | hc
              · refine ⟨?_, fun i => ?_⟩
                · simp only
                  rw [List.pairwise_map]
                  exact hI.ordered.sublist hsub
                · simp only [List.mem_map]
                  constructor
                  · rintro ⟨x, hx, rfl⟩
                    exact ⟨x, ((hluc x).mp hx).1, rfl, ((hluc x).mp hx).2⟩
                  · rintro ⟨x, hx, rfl, ht⟩
                    exact ⟨x, (hluc x).mpr ⟨hx, ht⟩, rfl⟩
              · exact c3 c hc
            · constructor
              · rintro ⟨ns, hns⟩
                rcases List.mem_cons.mp hns with hns | hns
                · injection hns with h1 h2
                  subst h1
                  exact ⟨hpq, h.key (r, u) (by simp), hpair.mp hl⟩
                · obtain ⟨h1, h2, h3⟩ := (c4 r).mp ⟨ns, hns⟩
                  exact ⟨hpq.trans h1, h2, h3⟩
              · rintro ⟨h1, h2, h3⟩
                rcases (hgap r h1 h2).eq_or_lt with h4 | h4
                · rw [← lk_inj h4]; exact ⟨_, List.mem_cons_self ..⟩
                · obtain ⟨ns, hns⟩ := (c4 r).mpr ⟨h4, h2, h3⟩
                  exact ⟨ns, List.mem_cons_of_mem _ hns⟩
          · rw [if_neg hl]
            refine ⟨_, rfl, c1, fun c hc => hpq.trans (c2 c hc), c3, fun r => ?_⟩
            rw [c4 r]
            constructor
            · rintro ⟨h1, h2, h3⟩
              exact ⟨hpq.trans h1, h2, h3⟩
            · rintro ⟨h1, h2, h3⟩
              refine ⟨(hgap r h1 h2).lt_of_ne fun h4 => ?_, h2, h3⟩
              rw [← lk_inj h4] at h3
              exact hl (hpair.mpr h3)

/-- A bound on the events that is enough stays enough. -/
theorem sweepLoop_mono (cmp : Cmp K) (cap : Nat) (items : List (SweepItem K)) (fuel : Nat) (Q : EventQueue K)
    (T : List (SweepItem K)) (h : sweepLoop cmp cap items fuel Q T ≠ .error .diverges) :
    sweepLoop cmp cap items (fuel + 1) Q T = sweepLoop cmp cap items fuel Q T := by
  induction fuel generalizing Q T with
  | zero =>
    cases Q with
    | nil => rfl
    | cons e rest => obtain ⟨p, u⟩ := e; exact absurd rfl h
  | succ fuel ih =>
    cases Q with
    | nil => rfl
    | cons e rest =>
      obtain ⟨p, u⟩ := e
      rw [sweepLoop, sweepLoop] at *
      rcases he : handleEvent cmp cap items ((p, u) :: rest) T p u with f | ⟨q, sweep, luc⟩
      · rfl
      · rw [he] at h
        simp only at h ⊢
        rw [ih q.tail sweep]
        intro h0
        rw [h0] at h
        exact h rfl

theorem bentleyOttmann_mono (cmp : Cmp K) (segs : List (Seg K)) {fuel fuel' : Nat} (hf : fuel ≤ fuel')
    {r : Res (List (P2 K × List Nat))} (h : bentleyOttmann cmp fuel segs = r) (hr : r ≠ .error .diverges) :
    bentleyOttmann cmp fuel' segs = r := by
  obtain ⟨k, rfl⟩ := Nat.exists_eq_add_of_le hf
  clear hf
  induction k with
  | zero => exact h
  | succ k ih =>
    have := sweepLoop_mono cmp (3 * segs.length) (sweepItems cmp segs) (fuel + k)
      (buildQueue cmp (sweepItems cmp segs) []) [] (by unfold bentleyOttmann at ih; rw [ih]; exact hr)
    rw [← ih]
    exact this

/-- There is a point before all of them. -/
theorem exists_before (l : List (P2 K)) : ∃ p : P2 K, ∀ x ∈ l, lk p < lk x := by
  induction l with
  | nil => exact ⟨⟨0, 0⟩, by simp⟩
  | cons a l ih =>
    obtain ⟨p, hp⟩ := ih
    refine ⟨⟨min p.x a.x - 1, 0⟩, fun x hx => ?_⟩
    rcases List.mem_cons.mp hx with rfl | hx
    · exact lk_lt.mpr (Or.inl (by simp only; linarith [min_le_right p.x x.x]))
    · refine lt_trans (lk_lt.mpr (Or.inl ?_)) (hp x hx)
      simp only; linarith [min_le_left p.x a.x]

theorem orderEnds_rising {s : Seg K} (h : s.s ≠ s.e) : Rising (orderEnds Cmp.direct s) := by
  unfold orderEnds Rising
  cases hc : lexCompare Cmp.direct s.s s.e
  · simp only [Bool.not_false, if_true]
    have h1 : ¬ lk s.s < lk s.e := fun h0 => by rw [(lexCompare_lk _ _).mpr h0] at hc; simp at hc
    exact (not_lt.mp h1).lt_of_ne fun h0 => h (lk_inj h0).symm
  · simp only [Bool.not_true, Bool.false_eq_true, if_false]
    exact (lexCompare_lk _ _).mp hc

theorem through_swap {A B q : P2 K} (h : OnSegment A B q) : OnSegment B A q := by
  obtain ⟨t, h0, h1, rfl⟩ := h
  refine ⟨1 - t, by linarith, by linarith, ?_⟩
  apply P2.ext
  · simp only [P2.add_x, P2.smul_x, P2.sub_x]; ring
  · simp only [P2.add_y, P2.smul_y, P2.sub_y]; ring

theorem orderEnds_through (s : Seg K) (q : P2 K) : Through (orderEnds Cmp.direct s) q ↔ OnSegment s.s s.e q := by
  unfold orderEnds
  split_ifs
  · exact ⟨through_swap, through_swap⟩
  · exact Iff.rfl

theorem orderEnds_ends (s : Seg K) (q : P2 K) :
    (q = (orderEnds Cmp.direct s).s ∨ q = (orderEnds Cmp.direct s).e) ↔ (q = s.s ∨ q = s.e) := by
  unfold orderEnds
  split_ifs
  · exact or_comm
  · exact Iff.rfl

theorem orderEnds_spread (s t : Seg K) :
    spread (orderEnds Cmp.direct s) (orderEnds Cmp.direct t) = 0 ↔ cross (s.e - s.s) (t.e - t.s) = 0 := by
  have key : ∀ A B C D : P2 K, (cross (B - A) (D - C) = 0 ↔ cross (A - B) (D - C) = 0) ∧
      (cross (B - A) (D - C) = 0 ↔ cross (B - A) (C - D) = 0) ∧ (cross (B - A) (D - C) = 0 ↔ cross (A - B) (C - D) = 0) := by
    intro A B C D
    simp only [cross, P2.sub_x, P2.sub_y]
    refine ⟨⟨fun h => by linarith, fun h => by linarith⟩, ⟨fun h => by linarith, fun h => by linarith⟩,
      ⟨fun h => by linarith, fun h => by linarith⟩⟩
  unfold orderEnds spread
  split_ifs
  · exact (key _ _ _ _).2.2.symm
  · exact (key _ _ _ _).1.symm
  · exact (key _ _ _ _).2.1.symm
  · exact Iff.rfl

theorem mem_sweepItems {segs : List (Seg K)} {x : SweepItem K} :
    x ∈ sweepItems Cmp.direct segs ↔ ∃ s, segs[x.idx]? = some s ∧ x.seg = orderEnds Cmp.direct s := by
  unfold sweepItems
  rw [List.mem_map]
  constructor
  · rintro ⟨⟨s, i⟩, h, rfl⟩
    exact ⟨s, List.mem_zipIdx_iff_getElem?.mp h, rfl⟩
  · rintro ⟨s, h, e⟩
    exact ⟨(s, x.idx), List.mem_zipIdx_iff_getElem?.mpr h, by rw [← e]⟩

theorem sweepItems_length (segs : List (Seg K)) : (sweepItems Cmp.direct segs).length = segs.length := by
  simp [sweepItems]

theorem sweepItems_ok {segs : List (Seg K)} (h : ∀ s ∈ segs, s.s ≠ s.e) : ItemsOK (sweepItems Cmp.direct segs) := by
  refine ⟨fun x hx => ?_, ?_, fun x hx => ?_⟩
  · obtain ⟨s, hs, e⟩ := mem_sweepItems.mp hx
    rw [e]; exact orderEnds_rising (h s (List.mem_of_getElem? hs))
  · unfold sweepItems
    rw [List.pairwise_map, List.pairwise_iff_getElem]
    intro i j hi hj hij
    simpa using hij
  · obtain ⟨s, hs, e⟩ := mem_sweepItems.mp hx
    rw [sweepItems_length]
    exact (List.getElem?_eq_some_iff.mp hs).1

theorem items_number {segs : List (Seg K)} (q : P2 K) (i : Nat) :
    (∃ x ∈ sweepItems Cmp.direct segs, x.idx = i ∧ Through x.seg q) ↔ OnNumber segs q i := by
  constructor
  · rintro ⟨x, hx, rfl, ht⟩
    obtain ⟨s, hs, e⟩ := mem_sweepItems.mp hx
    rw [e, orderEnds_through] at ht
    exact ⟨s, hs, ht⟩
  · rintro ⟨s, hs, ht⟩
    exact ⟨⟨i, orderEnds Cmp.direct s⟩, mem_sweepItems.mpr ⟨s, hs, rfl⟩, rfl, (orderEnds_through s q).mpr ht⟩

theorem items_of_seg {segs : List (Seg K)} {s : Seg K} (hs : s ∈ segs) :
    ∃ x ∈ sweepItems Cmp.direct segs, x.seg = orderEnds Cmp.direct s := by
  obtain ⟨i, hi, e⟩ := List.mem_iff_getElem.mp hs
  exact ⟨⟨i, orderEnds Cmp.direct s⟩, mem_sweepItems.mpr ⟨s, by simp [hi, e], rfl⟩, rfl⟩

theorem seg_of_item {segs : List (Seg K)} {x : SweepItem K} (hx : x ∈ sweepItems Cmp.direct segs) :
    ∃ s ∈ segs, x.seg = orderEnds Cmp.direct s := by
  obtain ⟨s, hs, e⟩ := mem_sweepItems.mp hx
  exact ⟨s, List.mem_of_getElem? hs, e⟩

theorem candidate_iff {segs : List (Seg K)} (h : ∀ s ∈ segs, s.s ≠ s.e) (q : P2 K) :
    Candidate (sweepItems Cmp.direct segs) q ↔ IsEndOf segs q ∨ IsCrossingOf segs q := by
  unfold Candidate
  apply or_congr
  · constructor
    · rintro ⟨x, hx, hq⟩
      obtain ⟨s, hs, e⟩ := seg_of_item hx
      rw [e, orderEnds_ends] at hq
      exact ⟨s, hs, hq⟩
    · rintro ⟨s, hs, hq⟩
      obtain ⟨x, hx, e⟩ := items_of_seg hs
      exact ⟨x, hx, by rw [e, orderEnds_ends]; exact hq⟩
  · constructor
    · rintro ⟨x, hx, y, hy, h0, h1, h2⟩
      obtain ⟨s, hs, e⟩ := seg_of_item hx
      obtain ⟨t, ht, e'⟩ := seg_of_item hy
      rw [e, e', Ne, orderEnds_spread] at h0
      rw [e, orderEnds_through] at h1
      rw [e', orderEnds_through] at h2
      refine ⟨s, hs, t, ht, ?_, h1, h2⟩
      rw [parallel_iff_cross (sub_ne_zero_P2 (h s hs))]; exact h0
    · rintro ⟨s, hs, t, ht, h0, h1, h2⟩
      obtain ⟨x, hx, e⟩ := items_of_seg hs
      obtain ⟨y, hy, e'⟩ := items_of_seg ht
      rw [parallel_iff_cross (sub_ne_zero_P2 (h s hs))] at h0
      refine ⟨x, hx, y, hy, ?_, ?_, ?_⟩
      · rw [e, e', Ne, orderEnds_spread]; exact h0
      · rw [e, orderEnds_through]; exact h1
      · rw [e', orderEnds_through]; exact h2

/-- All points that can be events, in a list. -/
theorem exists_candidates (items : List (SweepItem K)) :
    ∃ cand : List (P2 K), cand.length = 2 * items.length + items.length * items.length ∧
      ∀ x, Candidate items x → x ∈ cand := by
  classical
  let f : SweepItem K → SweepItem K → P2 K := fun a b =>
    if h : ∃ x, Crossing a.seg b.seg x then h.choose else a.seg.s
  refine ⟨items.map (fun a => a.seg.s) ++ items.map (fun a => a.seg.e) ++ items.flatMap (fun a => items.map (f a)), ?_, ?_⟩
  · simp only [List.length_append, List.length_map, List.length_flatMap, List.map_const', List.sum_replicate, smul_eq_mul]
    omega
  · rintro x (⟨i, hi, rfl | rfl⟩ | ⟨i, hi, j, hj, hc⟩)
    · simp only [List.mem_append, List.mem_map]
      exact Or.inl (Or.inl ⟨i, hi, rfl⟩)
    · simp only [List.mem_append, List.mem_map]
      exact Or.inl (Or.inr ⟨i, hi, rfl⟩)
    · simp only [List.mem_append, List.mem_flatMap, List.mem_map]
      refine Or.inr ⟨i, hi, j, hj, ?_⟩
      have hex : ∃ x, Crossing i.seg j.seg x := ⟨x, hc⟩
      simp only [f, dif_pos hex]
      exact crossing_unique hex.choose_spec hc

theorem run_spec {segs : List (Seg K)} (hd : ∀ s ∈ segs, s.s ≠ s.e) {fuel : Nat}
    (hf : 2 * segs.length + segs.length * segs.length ≤ fuel) :
    (bentleyOttmann Cmp.direct fuel segs = .error .outOfRange ∧
      Overflow (sweepItems Cmp.direct segs) (3 * segs.length)) ∨
    ∃ calls, bentleyOttmann Cmp.direct fuel segs = .ok calls ∧ SweepCalls segs calls := by
  have hI := sweepItems_ok hd
  have hB := buildQueue_built (sweepItems Cmp.direct segs)
  obtain ⟨cand, hlen, hcand⟩ := exists_candidates (sweepItems Cmp.direct segs)
  obtain ⟨p, hp⟩ := exists_before cand
  rw [sweepItems_length] at hlen
  have hpc : ∀ x, Candidate (sweepItems Cmp.direct segs) x → lk p < lk x := fun x hx => hp x (hcand x hx)
  have hps : ∀ x ∈ sweepItems Cmp.direct segs, lk p < lk x.seg.s := fun x hx => hpc _ (Or.inl ⟨x, hx, Or.inl rfl⟩)
  have hinv : SweepInv (sweepItems Cmp.direct segs) (3 * segs.length) p
      (buildQueue Cmp.direct (sweepItems Cmp.direct segs) []) [] := by
    refine ⟨hB.sorted, fun e he => ?_, fun x => ?_, List.nodup_nil, fun x hx _ => hB.start x hx,
      fun x hx _ => hB.stop x hx, hB.items, fun e he => Or.inl (hB.key e he), List.IsChain.nil, List.IsChain.nil, ?_⟩
    · exact hpc _ (Or.inl (hB.key e he))
    · simp only [List.not_mem_nil, false_iff]
      rintro ⟨hx, h1, -⟩
      exact absurd (hps x hx) (not_lt.mpr h1)
    · have := hB.short
      rw [sweepItems_length] at this
      omega
  have hfil : (cand.filter fun x => decide (lk p < lk x)).length ≤ fuel :=
    (List.length_filter_le _ _).trans (by omega)
  rcases loop_spec hI cand hcand fuel p _ [] hinv hfil with h | ⟨calls, e, c1, -, c3, c4⟩
  · exact Or.inl h
  · refine Or.inr ⟨calls, e, c1.imp fun h => lk_lt.mp h, fun q => ?_, fun c hc => ⟨(c3 c hc).1, fun i => ?_⟩⟩
    · rw [c4 q]
      unfold MeetingPoint
      rw [← candidate_iff hd]
      constructor
      · rintro ⟨-, h2, x, hx, y, hy, hxy, h3, h4⟩
        refine ⟨⟨x.idx, y.idx, fun h0 => hxy (hI.inj x hx y hy h0), ?_, ?_⟩, h2⟩
        · exact (items_number q _).mp ⟨x, hx, rfl, h3⟩
        · exact (items_number q _).mp ⟨y, hy, rfl, h4⟩
      · rintro ⟨⟨i, j, hij, hi, hj⟩, h2⟩
        obtain ⟨x, hx, ex, h3⟩ := (items_number q i).mpr hi
        obtain ⟨y, hy, ey, h4⟩ := (items_number q j).mpr hj
        refine ⟨hpc q h2, h2, x, hx, y, hy, ?_, h3, h4⟩
        rintro rfl
        exact hij (ex.symm.trans ey)
    · rw [(c3 c hc).2 i, items_number]

end Geometrix
