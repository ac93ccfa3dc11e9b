import Verif.Model.RamerDouglasPeucker
import Verif.Lemmas.Line

/-!
# Helper lemmas about line simplification
-/

set_option linter.unusedSectionVars false

namespace Geometrix

open Spec

theorem rdpScan_spec (poly : List (P2 ℝ)) (l : Line2) (is : List Nat) (s : Nat × ℝ)
    (hin : ∀ i ∈ is, i < poly.length) :
    ∃ r, rdpScan poly l is s = .ok r ∧ s.2 ≤ r.2 ∧ (r = s ∨ (r.1 ∈ is ∧ s.2 < r.2)) ∧
      ∀ i ∈ is, ∀ p, poly[i]? = some p → pointLineDist p l ≤ r.2 := by
  induction is generalizing s with
  | nil => exact ⟨s, rfl, le_rfl, Or.inl rfl, by simp⟩
  | cons i is ih =>
    have hil : i < poly.length := hin i List.mem_cons_self
    have hi : poly[i]? = some poly[i] := List.getElem?_eq_getElem hil
    obtain ⟨r, h1, h2, h3, h4⟩ := ih
      (if pointLineDist poly[i] l > s.2 then (i, pointLineDist poly[i] l) else s)
      (fun j hj => hin j (List.mem_cons_of_mem _ hj))
    refine ⟨r, by rw [rdpScan, hi]; exact h1, ?_, ?_, ?_⟩
    · split at h2 <;> linarith
    · split at h3
      · rcases h3 with rfl | ⟨h3, h5⟩
        · exact Or.inr ⟨List.mem_cons_self, by assumption⟩
        · refine Or.inr ⟨List.mem_cons_of_mem _ h3, lt_trans ?_ h5⟩
          assumption
      · rcases h3 with h3 | ⟨h3, h5⟩
        · exact Or.inl h3
        · exact Or.inr ⟨List.mem_cons_of_mem _ h3, h5⟩
    · intro j hj p hp
      rcases List.mem_cons.mp hj with rfl | hj
      · rw [hi] at hp
        obtain rfl := Option.some.inj hp
        split at h2
        · exact h2
        · linarith
      · exact h4 j hj p hp

theorem rdpFar_spec (poly : List (P2 ℝ)) (start stop : Nat) (h1 : start < stop)
    (h2 : stop ≤ poly.length) (hs : start < poly.length) :
    (rdpFar poly start stop = .error .assertFailed ∧ start + 2 < stop ∧
      poly[start]? = poly[stop - 1]?) ∨
    ∃ index dmax, rdpFar poly start stop = .ok (index, dmax) ∧ 0 ≤ dmax ∧
      (0 < dmax → start < index ∧ index + 1 < stop) ∧
      ∀ i p, start < i → i + 1 < stop → poly[i]? = some p →
        NearLine dmax poly[start] poly[stop - 1] p := by
  unfold rdpFar
  have e1 : poly[start]? = some poly[start] := List.getElem?_eq_getElem _
  have e2 : poly[stop - 1]? = some poly[stop - 1] := List.getElem?_eq_getElem _
  by_cases h3 : start + 2 < stop
  · rw [if_pos h3, e1, e2]
    by_cases hab : poly[start] = poly[stop - 1]
    · left
      simp only [hab, makeLine_same, h3, and_self]
    · right
      simp only [makeLine_ok hab]
      obtain ⟨r, k1, k2, k3, k4⟩ := rdpScan_spec poly
        ⟨poly[start], (1 / Spec.dist poly[start] poly[stop - 1]) • (poly[stop - 1] - poly[start]),
          leftNormal ((1 / Spec.dist poly[start] poly[stop - 1]) • (poly[stop - 1] - poly[start])),
          dot poly[start] (leftNormal ((1 / Spec.dist poly[start] poly[stop - 1]) •
            (poly[stop - 1] - poly[start])))⟩
        (List.range' (start + 1) (stop - start - 2)) (0, 0) (by
          intro i hi; rw [List.mem_range'_1] at hi; omega)
      refine ⟨r.1, r.2, k1, k2, ?_, ?_⟩
      · intro hpos
        rcases k3 with k3 | ⟨k3, _⟩
        · rw [k3] at hpos; exact absurd hpos (lt_irrefl _)
        · rw [List.mem_range'_1] at k3; omega
      · intro i p hi1 hi2 hp
        have := k4 i (by rw [List.mem_range'_1]; omega) p hp
        obtain ⟨⟨Q, q1, q2⟩, -⟩ := lineDistance_spec hab (makeLine_ok hab) p
        exact ⟨Q, q1, by rw [q2]; exact this⟩
  · rw [if_neg h3]
    right
    exact ⟨0, 0, rfl, le_rfl, fun h => absurd h (lt_irrefl _), fun i p hi1 hi2 => by omega⟩

/-- The part of the polyline with indices from `start` to `stop - 1`. -/
def seg (poly : List (P2 ℝ)) (start stop : Nat) : List (P2 ℝ) := (poly.drop start).take (stop - start)

theorem seg_append (poly : List (P2 ℝ)) {a b c : Nat} (h1 : a ≤ b) (h2 : b ≤ c) :
    seg poly a b ++ seg poly b c = seg poly a c := by
  unfold seg
  rw [show poly.drop b = (poly.drop a).drop (b - a) by rw [List.drop_drop]; congr 1; omega]
  rw [show c - a = (b - a) + (c - b) by omega, List.take_add]

theorem seg_single (poly : List (P2 ℝ)) {a : Nat} (h : a < poly.length) :
    seg poly a (a + 1) = [poly[a]] := by
  unfold seg
  rw [show a + 1 - a = 1 by omega, List.drop_eq_getElem_cons h]; rfl

theorem pair_sublist_seg (poly : List (P2 ℝ)) {a c : Nat} (h1 : a + 2 ≤ c) (h2 : c ≤ poly.length) :
    [poly[a], poly[c - 1]].Sublist (seg poly a c) := by
  rw [← seg_append poly (show a ≤ a + 1 by omega) (show a + 1 ≤ c by omega), seg_single poly (by omega)]
  rw [← seg_append poly (show a + 1 ≤ c - 1 by omega) (show c - 1 ≤ c by omega)]
  have := seg_single poly (a := c - 1) (by omega)
  rw [show c - 1 + 1 = c by omega] at this
  rw [this]
  exact (List.sublist_append_right (seg poly (a + 1) (c - 1)) [poly[c - 1]]).cons_cons poly[a]

theorem rdp_spec (checked : Bool) (poly : List (P2 ℝ)) (eps : ℝ) (heps : 0 ≤ eps) (fuel : Nat) :
    ∀ start stop, start < stop → stop ≤ poly.length → stop - start ≤ fuel →
    rdp checked poly eps fuel start stop ≠ .error .diverges ∧
    rdp checked poly eps fuel start stop ≠ .error .outOfRange ∧
    (∀ r, rdp checked poly eps fuel start stop = .ok r →
      2 ≤ r.length ∧ r.head? = poly[start]? ∧ r.getLast? = poly[stop - 1]? ∧
      r.dropLast.Sublist (seg poly start stop) ∧
      (start + 2 ≤ stop → r.Sublist (seg poly start stop))) ∧
    (∀ e, rdp checked poly eps fuel start stop = .error e → e = .assertFailed ∧
      (checked = true ∨ ∃ i j, start ≤ i ∧ i + 2 < j ∧ j ≤ stop ∧ poly[i]? = poly[j - 1]?)) := by
  induction fuel with
  | zero => intro start stop h1 h2 h3; omega
  | succ fuel ih =>
    intro start stop h1 h2 h3
    unfold rdp
    rcases rdpFar_spec poly start stop h1 h2 (by omega) with ⟨hf, hf2, hf3⟩ |
        ⟨index, dmax, hf, hd0, hd1, hd2⟩
    · rw [hf]
      refine ⟨by simp, by simp, by simp, fun e he => ?_⟩
      obtain rfl := Except.error.inj he
      exact ⟨rfl, Or.inr ⟨start, stop, le_rfl, hf2, le_rfl, hf3⟩⟩
    · rw [hf]
      simp only
      by_cases hgt : dmax > eps
      · rw [if_pos hgt]
        obtain ⟨i1, i2⟩ := hd1 (lt_of_le_of_lt heps hgt)
        obtain ⟨L1, L2, L3, L4⟩ := ih start index i1 (by omega) (by omega)
        obtain ⟨R1, R2, R3, R4⟩ := ih index stop (by omega) h2 (by omega)
        cases hl : rdp checked poly eps fuel start index with
        | error e =>
          rw [hl] at L1 L2 L4
          refine ⟨L1, L2, by simp, fun e' he' => ?_⟩
          obtain rfl := Except.error.inj he'
          obtain ⟨q1, q2⟩ := L4 e rfl
          refine ⟨q1, q2.imp_right ?_⟩
          rintro ⟨i, j, a1, a2, a3, a4⟩
          exact ⟨i, j, a1, a2, by omega, a4⟩
        | ok left =>
          cases hr : rdp checked poly eps fuel index stop with
          | error e =>
            rw [hr] at R1 R2 R4
            refine ⟨R1, R2, by simp, fun e' he' => ?_⟩
            obtain rfl := Except.error.inj he'
            obtain ⟨q1, q2⟩ := R4 e rfl
            refine ⟨q1, q2.imp_right ?_⟩
            rintro ⟨i, j, a1, a2, a3, a4⟩
            exact ⟨i, j, by omega, a2, a3, a4⟩
          | ok right =>
            obtain ⟨l1, l2, l3, l4, l5⟩ := L3 left hl
            obtain ⟨r1, r2, r3, r4, r5⟩ := R3 right hr
            have hsub : (left.dropLast ++ right).Sublist (seg poly start stop) := by
              rw [← seg_append poly i1.le (show index ≤ stop by omega)]
              exact l4.append (r5 (by omega))
            refine ⟨by simp, by simp, fun r hr' => ?_, by simp⟩
            obtain rfl := Except.ok.inj hr'
            refine ⟨by simp; omega, ?_, ?_, (List.dropLast_sublist _).trans hsub, fun _ => hsub⟩
            · rw [← l2]
              match left, l1 with
              | a :: b :: l, _ => rfl
            · rw [← r3]
              have hne : right ≠ [] := by rintro rfl; simp at r1
              rw [List.getLast?_append_of_ne_nil _ hne]
      · rw [if_neg hgt]
        by_cases hc : (checked && start + 1 == stop) = true
        · rw [if_pos hc]
          refine ⟨by simp, by simp, by simp, fun e he => ?_⟩
          obtain rfl := Except.error.inj he
          refine ⟨rfl, Or.inl ?_⟩
          rw [Bool.and_eq_true] at hc
          exact hc.1
        · rw [if_neg hc]
          have e1 : poly[start]? = some poly[start] := List.getElem?_eq_getElem (by omega)
          have e2 : poly[stop - 1]? = some poly[stop - 1] := List.getElem?_eq_getElem (by omega)
          rw [e1, e2]
          refine ⟨by simp, by simp, fun r hr => ?_, by simp⟩
          obtain rfl := Except.ok.inj hr
          refine ⟨by simp, rfl, rfl, ?_, fun h => pair_sublist_seg poly h h2⟩
          rw [← seg_append poly (show start ≤ start + 1 by omega) (show start + 1 ≤ stop by omega),
            seg_single poly (by omega)]
          exact List.sublist_append_left _ _

/-- The last vertex of the chord that was tested for the removed vertices between two kept ones, of which the
second has index `j`: the one before it, unless it is the last of all. -/
def chordEnd (last j : Nat) : Nat := if j = last then j else j - 1

/-- What is true of two kept vertices that follow each other. -/
def KeptPair (poly : List (P2 ℝ)) (eps : ℝ) (last i j : Nat) : Prop :=
  i < j ∧ ∀ m A B p, i < m → m < chordEnd last j → poly[i]? = some A → poly[chordEnd last j]? = some B →
    poly[m]? = some p → NearLine eps A B p

/-- Indices of kept vertices. -/
def KeptIndices (poly : List (P2 ℝ)) (eps : ℝ) (start last : Nat) (r : List (P2 ℝ)) (idx : List Nat) : Prop :=
  idx.map (fun i => poly[i]?) = r.map some ∧ idx.head? = some start ∧ idx.getLast? = some last ∧
  idx.IsChain (KeptPair poly eps last)

theorem nearLine_mono {d e : ℝ} {A B p : P2 ℝ} (h : NearLine d A B p) (hde : d ≤ e) : NearLine e A B p := by
  obtain ⟨Q, h1, h2⟩ := h
  exact ⟨Q, h1, h2.trans hde⟩

theorem rdp_kept (checked : Bool) (poly : List (P2 ℝ)) (eps : ℝ) (heps : 0 ≤ eps) (fuel : Nat) :
    ∀ start stop r, start + 2 ≤ stop → stop ≤ poly.length → stop - start ≤ fuel →
    rdp checked poly eps fuel start stop = .ok r → ∃ idx, KeptIndices poly eps start (stop - 1) r idx := by
  induction fuel with
  | zero => intro start stop r h1 h2 h3; omega
  | succ fuel ih =>
    intro start stop r h1 h2 h3 hr
    unfold rdp at hr
    rcases rdpFar_spec poly start stop (by omega) h2 (by omega) with ⟨hf, -, -⟩ | ⟨index, dmax, hf, hd0, hd1, hd2⟩
    · rw [hf] at hr; simp at hr
    rw [hf] at hr
    simp only at hr
    by_cases hgt : dmax > eps
    · rw [if_pos hgt] at hr
      obtain ⟨i1, i2⟩ := hd1 (lt_of_le_of_lt heps hgt)
      cases hl : rdp checked poly eps fuel start index with
      | error e => rw [hl] at hr; simp at hr
      | ok left =>
        cases hrr : rdp checked poly eps fuel index stop with
        | error e => rw [hl, hrr] at hr; simp at hr
        | ok right =>
          rw [hl, hrr] at hr
          obtain rfl := Except.ok.inj hr
          obtain ⟨ir, r1, r2, r3, r4⟩ := ih index stop right (by omega) h2 (by omega) hrr
          have hce : chordEnd (stop - 1) index = index - 1 := if_neg (by omega)
          by_cases hlong : start + 2 ≤ index
          · obtain ⟨il, l1, l2, l3, l4⟩ := ih start index left hlong (by omega) (by omega) hl
            have hne : il ≠ [] := by rintro rfl; simp at l2
            have hil : il = il.dropLast ++ [index - 1] := by
              rw [List.getLast?_eq_some_getLast hne] at l3
              rw [← Option.some.inj l3, List.dropLast_append_getLast]
            set d := il.dropLast with hd
            rw [hil, List.isChain_append] at l4
            obtain ⟨c1, -, c3⟩ := l4
            have hdne : d ≠ [] := by
              intro e
              rw [e] at hil
              rw [hil] at l2
              simp at l2
              omega
            have hlt : ∀ x ∈ d, x < index - 1 := by
              have hp : (d ++ [index - 1]).Pairwise (· < ·) := by
                rw [← hil]
                refine List.isChain_iff_pairwise.1 ?_
                rw [hil, List.isChain_append]
                exact ⟨c1.imp fun _ _ h => h.1, List.isChain_singleton _, fun x hx y hy => (c3 x hx y hy).1⟩
              intro x hx
              exact (List.pairwise_append.1 hp).2.2 x hx _ (List.mem_singleton.2 rfl)
            refine ⟨d ++ ir, ?_, ?_, ?_, ?_⟩
            · rw [List.map_append, List.map_append, r1, hd, List.map_dropLast, l1, ← List.map_dropLast]
            · rw [List.head?_append, hd, ← l2]
              cases il with
              | nil => simp at l2
              | cons a t =>
                cases t with
                | nil => simp [hd] at hdne
                | cons b t => simp
            · rw [List.getLast?_append, r3]; rfl
            · rw [List.isChain_append]
              refine ⟨?_, r4, ?_⟩
              · have : d.IsChain (fun i j => KeptPair poly eps (index - 1) i j ∧ j < index - 1) := by
                  rw [List.isChain_iff_getElem] at c1 ⊢
                  intro i hi
                  exact ⟨c1 i hi, hlt _ (List.getElem_mem _)⟩
                refine this.imp fun i j hij => ⟨hij.1.1, ?_⟩
                have e1 : chordEnd (index - 1) j = j - 1 := if_neg (by omega)
                have e2 : chordEnd (stop - 1) j = j - 1 := if_neg (by omega)
                have := hij.1.2
                rw [e1] at this
                rw [e2]
                exact this
              · intro x hx y hy
                rw [r2] at hy
                obtain rfl := Option.some.inj hy
                have h5 := c3 x hx (index - 1) (by simp)
                refine ⟨by have := h5.1; omega, ?_⟩
                have e1 : chordEnd (index - 1) (index - 1) = index - 1 := if_pos rfl
                have := h5.2
                rw [e1] at this
                rw [hce]
                exact this
          · have hi1 : index = start + 1 := by omega
            have hleft : left.dropLast.map some = [poly[start]?] := by
              obtain ⟨g1, g2, g3, g4⟩ := (rdp_spec checked poly eps heps fuel start index i1 (by omega) (by omega)).2.2.1 left hl
              have hlen := g4.1.length_le
              have hseg : (seg poly start index).length ≤ 1 := by
                unfold seg
                simp
                omega
              match left, g1, g2, hlen with
              | [a, b], _, g2, _ => simpa using g2
              | a :: b :: c :: t, _, _, hlen => simp at hlen; omega
            refine ⟨start :: ir, ?_, rfl, ?_, ?_⟩
            · rw [List.map_cons, r1, List.map_append, hleft]; rfl
            · rw [List.getLast?_cons, r3]; rfl
            · rw [List.isChain_cons]
              refine ⟨fun y hy => ?_, r4⟩
              rw [r2] at hy
              obtain rfl := Option.some.inj hy
              refine ⟨i1, fun m A B p hm1 hm2 => ?_⟩
              rw [hce] at hm2
              omega
    · rw [if_neg hgt] at hr
      have e1 : poly[start]? = some poly[start] := List.getElem?_eq_getElem _
      have e2 : poly[stop - 1]? = some poly[stop - 1] := List.getElem?_eq_getElem _
      rw [if_neg (by simp; intro _; omega), e1, e2] at hr
      obtain rfl := Except.ok.inj hr
      refine ⟨[start, stop - 1], by simp [e1, e2], rfl, rfl, ?_⟩
      rw [List.isChain_pair]
      have e3 : chordEnd (stop - 1) (stop - 1) = stop - 1 := if_pos rfl
      refine ⟨by omega, fun m A B p h1 h2 hA hB hp => ?_⟩
      rw [e3] at h2 hB
      rw [e1] at hA
      rw [e2] at hB
      obtain rfl := Option.some.inj hA
      obtain rfl := Option.some.inj hB
      exact nearLine_mono (hd2 m p h1 (by omega) hp) (not_lt.1 hgt)

end Geometrix
