import Verif.Lemmas.EdgeListTrace
import Mathlib.Data.List.Perm.Basic

/-!
Lemmas for C111: all sequences, as vertices.
-/

set_option linter.unusedSectionVars false

namespace Geometrix

open Spec

theorem mem_sides {α : Type*} {l : List α} {v t : α} (hv : l.head? = some v) (ht : l.getLast? = some t) {p q : α} :
    (p, q) ∈ sides l ↔ (p, q) ∈ l.zip l.tail ∨ (p = t ∧ q = v) := by
  cases l with
  | nil => simp at hv
  | cons a l =>
    simp at hv
    subst hv
    unfold sides
    simp only [List.rotate_cons_succ, List.rotate_zero, List.tail_cons]
    have key : ∀ (l : List α) (b w : α), (b :: l).getLast? = some t →
        ((p, q) ∈ (b :: l).zip (l ++ [w]) ↔ (p, q) ∈ (b :: l).zip l ∨ (p = t ∧ q = w)) := by
      intro l
      induction l with
      | nil =>
        intro b w hb
        simp at hb
        subst hb
        simp
      | cons c l ih =>
        intro b w hb
        rw [List.getLast?_cons_cons] at hb
        have := ih c w hb
        simp only [List.cons_append, List.zip_cons_cons, List.mem_cons] at this ⊢
        rw [this, or_assoc]
    exact key l a a ht

/-- A polyline. -/
structure LineOf (E : List (Nat × Nat)) (l : List Nat) : Prop where
  nodup : l.Nodup
  chain : l.IsChain fun a b => (a, b) ∈ E
  ends : ∃ v t, l.head? = some v ∧ l.getLast? = some t ∧ (∀ a, (a, v) ∉ E) ∧ ∀ b, (t, b) ∉ E

/-- A polygon. -/
structure LoopOf (E : List (Nat × Nat)) (l : List Nat) : Prop where
  nodup : l.Nodup
  chain : l.IsChain fun a b => (a, b) ∈ E
  ends : ∃ v t, l.head? = some v ∧ l.getLast? = some t ∧ (t, v) ∈ E

theorem WayOf.perm {E : List (Nat × Nat)} {c : List Nat} {v t : Nat} {l : List Nat} (h : WayOf E c v t l) (hn : c.Nodup)
    (ha : ∀ x ∈ c, x ∈ l) : l.Perm c :=
  (List.perm_ext_iff_of_nodup h.nodup hn).2 fun x => ⟨h.sub x, ha x⟩

theorem sequencesOf_spec {E : List (Nat × Nat)} (hT : Thin E) {fuel : Nat} (cs : List (List Nat))
    (hcl : ∀ e ∈ E, ∀ c ∈ cs, e.1 ∈ c ↔ e.2 ∈ c)
    (hmin : ∀ c ∈ cs, ∀ S : Nat → Prop, (∀ e ∈ E, S e.1 ↔ S e.2) → (∃ v ∈ c, S v) → ∀ w ∈ c, S w)
    (hn : ∀ c ∈ cs, c.Nodup) (hf : ∀ c ∈ cs, c ≠ []) (hfu : ∀ c ∈ cs, c.length ≤ fuel) :
    ∃ ls ps, sequencesOf E fuel cs = .ok (ls, ps) ∧ (∀ l ∈ ls, LineOf E l) ∧ (∀ l ∈ ps, LoopOf E l) ∧
      (ls.flatten ++ ps.flatten).Perm cs.flatten := by
  induction cs with
  | nil => exact ⟨[], [], rfl, by simp, by simp, by simp⟩
  | cons c cs ih =>
    obtain ⟨ls, ps, e, h1, h2, h3⟩ := ih (fun e he c hc => hcl e he c (List.mem_cons_of_mem _ hc))
      (fun c hc => hmin c (List.mem_cons_of_mem _ hc)) (fun c hc => hn c (List.mem_cons_of_mem _ hc))
      (fun c hc => hf c (List.mem_cons_of_mem _ hc)) (fun c hc => hfu c (List.mem_cons_of_mem _ hc))
    have kcl := fun e he => hcl e he c List.mem_cons_self
    have kmin := hmin c List.mem_cons_self
    have kn := hn c List.mem_cons_self
    have kf := hfu c List.mem_cons_self
    have k0 := hf c List.mem_cons_self
    unfold sequencesOf
    cases hs : findStart E c with
    | some v =>
      have hv : v ∈ c := List.mem_of_find?_eq_some hs
      have hv' : ∀ a, (a, v) ∉ E := by
        have := List.find?_some hs
        simp only [decide_eq_true_eq] at this
        exact fun a ha => this _ ha rfl
      obtain ⟨l, t, g1, g2, g3⟩ := traceEdges_spec hT kcl kmin (v := v) (Or.inl hv') fuel v (c.erase v) [v]
        (by rw [List.length_erase_of_mem hv]; omega)
        ⟨by simp, by simpa using hv, rfl, rfl, by simp⟩ (kn.erase v)
        (fun x => by
          rw [kn.mem_erase_iff, List.mem_singleton]
          by_cases hx : x = v
          · subst hx; simp [hv]
          · simp [hx])
        (fun x hx => by
          rw [kn.mem_erase_iff] at hx
          simpa using hx.1)
      refine ⟨l :: ls, ps, by simp only [g1, e], ?_, h2, ?_⟩
      · intro l' hl
        rcases List.mem_cons.1 hl with rfl | hl
        · refine ⟨g2.nodup, g2.chain, v, t, g2.head, g2.last, hv', fun b hb => ?_⟩
          have hbc : b ∈ c := (kcl _ hb).1 (g2.sub t (List.mem_of_getLast? g2.last))
          have := g2.back hT hb (g3 b hbc)
          subst this
          exact hv' t hb
        · exact h1 l' hl
      · simp only [List.flatten_cons, List.append_assoc]
        exact (g2.perm kn g3).append h3
    | none =>
      have hin : ∀ x ∈ c, ∃ y, (y, x) ∈ E := by
        intro x hx
        have := List.find?_eq_none.1 hs x hx
        simp only [decide_eq_true_eq, not_forall, not_not] at this
        obtain ⟨⟨y, z⟩, he, rfl⟩ := this
        exact ⟨y, he⟩
      have hout := all_leave hT kn kcl hin
      cases c with
      | nil => exact absurd rfl k0
      | cons v c =>
        rw [List.nodup_cons] at kn
        obtain ⟨l, t, g1, g2, g3⟩ := traceEdges_spec hT kcl kmin (v := v) (Or.inr hout) fuel v c [v]
          (by simp at kf; omega)
          ⟨by simp, by simp, rfl, rfl, by simp⟩ kn.2
          (fun x => by rw [List.mem_cons, List.mem_singleton, or_comm])
          (fun x hx => by
            rw [List.mem_singleton]
            rintro rfl
            exact kn.1 hx)
        refine ⟨ls, l :: ps, by simp only [g1, e], h1, ?_, ?_⟩
        · intro l' hl
          rcases List.mem_cons.1 hl with rfl | hl
          · refine ⟨g2.nodup, g2.chain, v, t, g2.head, g2.last, ?_⟩
            have htc := g2.sub t (List.mem_of_getLast? g2.last)
            obtain ⟨b, hb⟩ := hout t htc
            have := g2.back hT hb (g3 b ((kcl _ hb).1 htc))
            subst this
            exact hb
          · exact h2 l' hl
        · simp only [List.flatten_cons]
          have hp := (g2.perm (List.nodup_cons.2 kn) g3).append h3
          refine List.Perm.trans ?_ hp
          rw [← List.append_assoc, ← List.append_assoc]
          exact (List.perm_append_comm).append_right _

theorem flatten_nodup {cs : List (List Nat)} (h1 : ∀ c ∈ cs, c.Nodup) (h2 : cs.Pairwise List.Disjoint) :
    cs.flatten.Nodup := List.nodup_flatten.2 ⟨h1, h2⟩

/-- The edges are those of the sequences. -/
theorem sequences_edges {E : List (Nat × Nat)} (hT : Thin E) {ls ps : List (List Nat)} (h1 : ∀ l ∈ ls, LineOf E l)
    (h2 : ∀ l ∈ ps, LoopOf E l) (h3 : ∀ e ∈ E, e.1 ∈ ls.flatten ++ ps.flatten) (p q : Nat) :
    (p, q) ∈ E ↔ (∃ l ∈ ls, (p, q) ∈ l.zip l.tail) ∨ ∃ g ∈ ps, (p, q) ∈ sides g := by
  have hz : ∀ l : List Nat, (l.IsChain fun a b => (a, b) ∈ E) → (p, q) ∈ l.zip l.tail → (p, q) ∈ E := by
    intro l
    induction l with
    | nil => simp
    | cons a l ih =>
      cases l with
      | nil => simp
      | cons b l =>
        intro hc hm
        rw [List.isChain_cons_cons] at hc
        simp only [List.tail_cons, List.zip_cons_cons, List.mem_cons] at hm
        rcases hm with hm | hm
        · simp at hm
          rw [hm.1, hm.2]
          exact hc.1
        · exact ih hc.2 hm
  constructor
  · intro he
    have := h3 _ he
    rw [List.mem_append, List.mem_flatten, List.mem_flatten] at this
    rcases this with ⟨l, hl, hp⟩ | ⟨l, hl, hp⟩
    · left
      obtain ⟨v, t, -, g2, -, g4⟩ := (h1 l hl).ends
      obtain ⟨y, k1, k2⟩ := isChain_succ (h1 l hl).chain g2 hp (by rintro rfl; exact g4 q he)
      refine ⟨l, hl, ?_⟩
      rwa [hT.source he k2]
    · right
      obtain ⟨v, t, g1, g2, g3⟩ := (h2 l hl).ends
      refine ⟨l, hl, (mem_sides g1 g2).2 ?_⟩
      by_cases hpt : p = t
      · right
        subst hpt
        exact ⟨rfl, hT.source he g3⟩
      · left
        obtain ⟨y, k1, k2⟩ := isChain_succ (h2 l hl).chain g2 hp hpt
        rwa [hT.source he k2]
  · rintro (⟨l, hl, hm⟩ | ⟨l, hl, hm⟩)
    · exact hz l (h1 l hl).chain hm
    · obtain ⟨v, t, g1, g2, g3⟩ := (h2 l hl).ends
      rcases (mem_sides g1 g2).1 hm with hm | ⟨rfl, rfl⟩
      · exact hz l (h2 l hl).chain hm
      · exact g3

theorem LineOf.long {E : List (Nat × Nat)} {l : List Nat} (h : LineOf E l) (hi : ∀ v ∈ l, ∃ e ∈ E, v = e.1 ∨ v = e.2) :
    2 ≤ l.length := by
  obtain ⟨v, t, h1, h2, h3, h4⟩ := h.ends
  match l with
  | [] => simp at h1
  | [a] =>
    simp at h1 h2
    subst h1 h2
    obtain ⟨⟨x, y⟩, he, h | h⟩ := hi a (by simp)
    · simp at h; subst h; exact absurd he (h4 y)
    · simp at h; subst h; exact absurd he (h3 x)
  | _ :: _ :: _ => simp

end Geometrix
