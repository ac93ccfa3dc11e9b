import Verif.Lemmas.SweepQueue

/-!
# Helper lemmas: the search for new events
-/

set_option linter.unusedSectionVars false

namespace Geometrix

open Spec

variable {K : Type*} [Field K] [LinearOrder K] [IsStrictOrderedRing K]

theorem Grows.mono {P P' : P2 K → Prop} {Q Q' : EventQueue K} (h : Grows P Q Q') (hP : ∀ x, P x → P' x) :
    Grows P' Q Q' :=
  ⟨h.sorted, h.keep, fun e he => (h.new e he).imp id fun h => ⟨h.1, hP _ h.2.1, h.2.2⟩⟩

/-- The point is after `q`, and two segments of the sweep line cross there. -/
def NewPoint (q : P2 K) (T : List (SweepItem K)) (x : P2 K) : Prop :=
  lk q < lk x ∧ ∃ a ∈ T, ∃ b ∈ T, Crossing a.seg b.seg x

/-- All crossings of the two segments after `q` are events. -/
def Covered (q : P2 K) (Q : EventQueue K) (a b : SweepItem K) : Prop :=
  ∀ x, lk q < lk x → Crossing a.seg b.seg x → IsKey Q x

theorem Covered.swap {q : P2 K} {Q : EventQueue K} {a b : SweepItem K} (h : Covered q Q a b) : Covered q Q b a :=
  fun x h1 h2 => h x h1 (crossing_swap h2)

theorem Covered.mono {P : P2 K → Prop} {q : P2 K} {Q Q' : EventQueue K} {a b : SweepItem K} (h : Covered q Q a b)
    (hg : Grows P Q Q') : Covered q Q' a b := fun x h1 h2 => hg.key (h x h1 h2)

/-- What is known of the sweep line when new events are looked for. -/
structure LineOK (q : P2 K) (T : List (SweepItem K)) (Q : EventQueue K) : Prop where
  rising : ∀ x ∈ T, Rising x.seg
  start : ∀ x ∈ T, lk x.seg.s ≤ lk q
  key : ∀ x ∈ T, IsKey Q x.seg.e
  idx : ∀ x ∈ T, ∀ y ∈ T, x.idx = y.idx → x = y

theorem LineOK.grow {P : P2 K → Prop} {q : P2 K} {T : List (SweepItem K)} {Q Q' : EventQueue K} (h : LineOK q T Q)
    (hg : Grows P Q Q') : LineOK q T Q' := ⟨h.rising, h.start, fun x hx => hg.key (h.key x hx), h.idx⟩

theorem processNew_line {cap : Nat} {q : P2 K} {T : List (SweepItem K)} {Q : EventQueue K} (h : LineOK q T Q)
    (hQ : QSorted Q) (hcap : Q.length ≤ cap) {a b : SweepItem K} (ha : a ∈ T) (hb : b ∈ T) :
    (processNew Cmp.direct cap q a b Q = .error .outOfRange ∧ ∃ Q', Grows (NewPoint q T) Q Q' ∧ cap < Q'.length) ∨
    ∃ Q', processNew Cmp.direct cap q a b Q = .ok Q' ∧ Grows (NewPoint q T) Q Q' ∧ Q'.length ≤ cap ∧
      Covered q Q' a b := by
  have hP : ∀ x, (lk q < lk x ∧ Crossing a.seg b.seg x) → NewPoint q T x := fun x hx => ⟨hx.1, a, ha, b, hb, hx.2⟩
  rcases processNew_spec (cap := cap) (q := q) (h.rising a ha) (h.rising b hb) (h.idx a ha b hb) hQ hcap (h.start a ha)
    (h.start b hb) (h.key a ha) (h.key b hb) with ⟨e, Q', hg, hl⟩ | ⟨Q', e, hg, hl, hc⟩
  · exact Or.inl ⟨e, Q', hg.mono hP, hl⟩
  · exact Or.inr ⟨Q', e, hg.mono hP, hl, hc⟩

theorem newEvents_spec {cap n : Nat} {q : P2 K} {T1 M T2 uc : List (SweepItem K)} {Q : EventQueue K}
    (h : LineOK q (T1 ++ (M ++ T2)) Q) (hQ : QSorted Q) (hcap : Q.length ≤ cap) (hM : ∀ x, x ∈ uc ↔ x ∈ M)
    (h1 : ∀ x ∈ T1, x ∉ uc) (h2 : ∀ x ∈ T2, x ∉ uc)
    (hlow : M = [] → sweepLowerBound Cmp.direct q ⟨n, ⟨q, ⟨q.x + 1, q.y⟩⟩⟩ (T1 ++ T2) = .ok (T1, T2)) :
    (newEvents Cmp.direct cap n q uc (T1 ++ (M ++ T2)) Q = .error .outOfRange ∧
      ∃ Q', Grows (NewPoint q (T1 ++ (M ++ T2))) Q Q' ∧ cap < Q'.length) ∨
    ∃ Q', newEvents Cmp.direct cap n q uc (T1 ++ (M ++ T2)) Q = .ok Q' ∧
      Grows (NewPoint q (T1 ++ (M ++ T2))) Q Q' ∧ Q'.length ≤ cap ∧
      (∀ T0 a b R, T1 = T0 ++ [a] → M ++ T2 = b :: R → Covered q Q' a b) ∧
      (∀ L a b R, T1 ++ M = L ++ [a] → T2 = b :: R → Covered q Q' a b) := by
  unfold newEvents
  by_cases hlen : (T1 ++ (M ++ T2)).length < 2
  · right
    rw [if_pos hlen]
    refine ⟨Q, rfl, Grows.refl hQ, hcap, fun T0 a b R e1 e2 => ?_, fun L a b R e1 e2 => ?_⟩
    · rw [e1, e2] at hlen; simp at hlen; omega
    · rw [← List.append_assoc, e1, e2] at hlen; simp at hlen; omega
  · rw [if_neg hlen]
    cases M with
    | nil =>
      have huc : uc.isEmpty = true := by
        rw [List.isEmpty_iff, List.eq_nil_iff_forall_not_mem]
        intro x hx; exact absurd ((hM x).mp hx) (by simp)
      rw [if_pos huc]
      simp only [List.nil_append] at h ⊢
      rw [hlow rfl]
      simp only
      rcases List.eq_nil_or_concat T1 with rfl | ⟨T0, a, rfl⟩
      · right
        simp only [List.getLast?_nil]
        refine ⟨Q, rfl, Grows.refl hQ, hcap, fun T0 a b R e1 e2 => ?_, fun L a b R e1 e2 => ?_⟩
        · simp at e1
        · simp at e1
      · rw [List.concat_eq_append] at h ⊢
        rw [List.getLast?_append]
        simp only [List.getLast?_singleton, Option.some_or]
        cases T2 with
        | nil =>
          right
          refine ⟨Q, rfl, Grows.refl hQ, hcap, fun T0 a b R e1 e2 => ?_, fun L a b R e1 e2 => ?_⟩
          · simp at e2
          · simp at e2
        | cons b R =>
          rcases processNew_line (cap := cap) h hQ hcap (a := a) (b := b) (by simp) (by simp) with h3 | ⟨Q', e, hg, hl, hc⟩
          · exact Or.inl h3
          · right
            refine ⟨Q', e, hg, hl, fun T0' a' b' R' e1 e2 => ?_, fun L a' b' R' e1 e2 => ?_⟩
            · have e1' := List.append_inj' e1 rfl
              simp only [List.cons.injEq, and_true] at e1' e2
              rw [← e1'.2, ← e2.1]; exact hc
            · rw [List.append_nil] at e1
              have e1' := List.append_inj' e1 rfl
              simp only [List.cons.injEq, and_true] at e1' e2
              rw [← e1'.2, ← e2.1]; exact hc
    | cons m M =>
      have hm : m ∈ uc := (hM m).mpr (by simp)
      have huc : ¬ uc.isEmpty = true := by
        rw [List.isEmpty_iff]; rintro rfl; simp at hm
      rw [if_neg huc]
      -- the first search
      have s1 : (processPair Cmp.direct cap q (firstPair uc (T1 ++ (m :: M ++ T2))) Q = .error .outOfRange ∧
            ∃ Q', Grows (NewPoint q (T1 ++ (m :: M ++ T2))) Q Q' ∧ cap < Q'.length) ∨
        ∃ Q', processPair Cmp.direct cap q (firstPair uc (T1 ++ (m :: M ++ T2))) Q = .ok Q' ∧
            Grows (NewPoint q (T1 ++ (m :: M ++ T2))) Q Q' ∧ Q'.length ≤ cap ∧
            ∀ a b, firstPair uc (T1 ++ (m :: M ++ T2)) = some (a, b) → Covered q Q' a b := by
        rcases hf : firstPair uc (T1 ++ (m :: M ++ T2)) with _ | ⟨a, b⟩
        · exact Or.inr ⟨Q, rfl, Grows.refl hQ, hcap, by simp⟩
        · obtain ⟨ma, mb⟩ := firstPair_mem hf
          rcases processNew_line (cap := cap) h hQ hcap ma mb with h3 | ⟨Q', e, hg, hl, hc⟩
          · exact Or.inl h3
          · refine Or.inr ⟨Q', e, hg, hl, fun a' b' e' => ?_⟩
            injection e' with e'; injection e' with e1 e2; rw [← e1, ← e2]; exact hc
      rcases s1 with ⟨e, h3⟩ | ⟨Q1, e, hg1, hl1, hc1⟩
      · left; rw [e]; exact ⟨rfl, h3⟩
      · rw [e]
        simp only
        have hcov1 : ∀ T0 a b R, T1 = T0 ++ [a] → m :: M ++ T2 = b :: R → Covered q Q1 a b := by
          intro T0 a b R e1 e2
          rw [List.cons_append, List.cons.injEq] at e2
          apply hc1
          rw [e1, ← e2.1]
          have := firstPair_spec (uc := uc) T0 (a := a) (b := m) (M ++ T2) (fun y hy => h1 y (by simp [e1, hy]))
            (h1 a (by simp [e1])) hm
          simpa using this
        have h' := h.grow hg1
        rcases hf : firstPair uc (T1 ++ (m :: M ++ T2)).reverse with _ | ⟨b, a⟩
        · right
          refine ⟨Q1, rfl, hg1, hl1, hcov1, fun L a b R e1 e2 => ?_⟩
          exfalso
          have hrev : (T1 ++ (m :: M ++ T2)).reverse = R.reverse ++ b :: a :: L.reverse := by
            rw [← List.append_assoc, e1, e2]; simp
          have ha : a ∈ uc := by
            rcases List.eq_nil_or_concat M with rfl | ⟨M0, c, rfl⟩
            · have := List.append_inj' e1 rfl
              simp only [List.cons.injEq, and_true] at this
              rw [← this.2]; exact hm
            · rw [List.concat_eq_append, ← List.cons_append, ← List.append_assoc] at e1
              have := List.append_inj' e1 rfl
              simp only [List.cons.injEq, and_true] at this
              rw [← this.2]; exact (hM c).mpr (by simp)
          rw [hrev, firstPair_spec (uc := uc) R.reverse L.reverse (fun y hy => h2 y (by rw [e2]; simp at hy; simp [hy]))
            (h2 b (by simp [e2])) ha] at hf
          simp at hf
        · obtain ⟨mb, ma⟩ := firstPair_mem hf
          simp only [List.mem_reverse] at ma mb
          simp only [Option.map_some, Prod.swap_prod_mk, processPair]
          rcases processNew_line (cap := cap) h' hg1.sorted hl1 ma mb with ⟨e3, Q', h3, h4⟩ | ⟨Q', e3, hg, hl, hc⟩
          · exact Or.inl ⟨e3, Q', hg1.trans h3, h4⟩
          · right
            refine ⟨Q', e3, hg1.trans hg, hl, fun T0 a b R e1 e2 => (hcov1 T0 a b R e1 e2).mono hg,
              fun L a' b' R e1 e2 => ?_⟩
            have hrev : (T1 ++ (m :: M ++ T2)).reverse = R.reverse ++ b' :: a' :: L.reverse := by
              rw [← List.append_assoc, e1, e2]; simp
            have ha : a' ∈ uc := by
              rcases List.eq_nil_or_concat M with rfl | ⟨M0, c, rfl⟩
              · have := List.append_inj' e1 rfl
                simp only [List.cons.injEq, and_true] at this
                rw [← this.2]; exact hm
              · rw [List.concat_eq_append, ← List.cons_append, ← List.append_assoc] at e1
                have := List.append_inj' e1 rfl
                simp only [List.cons.injEq, and_true] at this
                rw [← this.2]; exact (hM c).mpr (by simp)
            rw [hrev, firstPair_spec (uc := uc) R.reverse L.reverse (fun y hy => h2 y (by rw [e2]; simp at hy; simp [hy]))
              (h2 b' (by simp [e2])) ha] at hf
            injection hf with hf; injection hf with f1 f2
            rw [f1, f2]; exact hc

end Geometrix
