import Verif.Lemmas.EdgeListComponents
import Verif.Spec.EdgeList
import Mathlib.Data.List.Chain

/-!
Lemmas for C111: the loop along the edges.
-/

set_option linter.unusedSectionVars false

namespace Geometrix

open Spec

/-- No two edges with the same source, and none with the same target. -/
structure Thin (E : List (Nat × Nat)) : Prop where
  src : (E.map Prod.fst).Nodup
  tgt : (E.map Prod.snd).Nodup

theorem Thin.source {E : List (Nat × Nat)} (h : Thin E) {a b c : Nat} (h1 : (a, b) ∈ E) (h2 : (a, c) ∈ E) : b = c := by
  have := List.inj_on_of_nodup_map h.src h1 h2 rfl
  simpa using this

theorem Thin.target {E : List (Nat × Nat)} (h : Thin E) {a b c : Nat} (h1 : (a, c) ∈ E) (h2 : (b, c) ∈ E) : a = b := by
  have := List.inj_on_of_nodup_map h.tgt h1 h2 rfl
  simpa using this

theorem filter_source {E : List (Nat × Nat)} (h : Thin E) (t : Nat) :
    (E.filter (fun e => decide (e.1 = t)) = [] ∧ ∀ b, (t, b) ∉ E) ∨
      ∃ b, E.filter (fun e => decide (e.1 = t)) = [(t, b)] ∧ (t, b) ∈ E := by
  have hm : ∀ e, e ∈ E.filter (fun e => decide (e.1 = t)) ↔ e ∈ E ∧ e.1 = t := by simp
  have hs : ((E.filter (fun e => decide (e.1 = t))).map Prod.fst).Nodup := h.src.sublist (List.filter_sublist.map _)
  generalize E.filter (fun e => decide (e.1 = t)) = l at hm hs
  match l with
  | [] =>
    left
    refine ⟨rfl, fun b hb => ?_⟩
    simpa using (hm (t, b)).2 ⟨hb, rfl⟩
  | [(a, b)] =>
    right
    have := (hm (a, b)).1 (by simp)
    simp at this
    obtain ⟨h1, rfl⟩ := this
    exact ⟨b, rfl, h1⟩
  | (a, b) :: (c, d) :: l =>
    exfalso
    have h1 := (hm (a, b)).1 (by simp)
    have h2 := (hm (c, d)).1 (by simp)
    simp at h1 h2
    simp [h1.2, h2.2] at hs

/-- A way along edges, with its first and last vertex. -/
structure WayOf (E : List (Nat × Nat)) (c : List Nat) (v t : Nat) (acc : List Nat) : Prop where
  nodup : acc.Nodup
  sub : ∀ x ∈ acc, x ∈ c
  head : acc.head? = some v
  last : acc.getLast? = some t
  chain : acc.IsChain fun a b => (a, b) ∈ E

theorem isChain_pred {α : Type*} {R : α → α → Prop} {l : List α} (h : l.IsChain R) {v x : α} (hv : l.head? = some v)
    (hx : x ∈ l) (hne : x ≠ v) : ∃ y, (y, x) ∈ l.zip l.tail ∧ R y x := by
  induction l generalizing v with
  | nil => simp at hx
  | cons a l ih =>
    cases l with
    | nil => simp at hv hx; subst hv hx; exact absurd rfl hne
    | cons b l =>
      simp at hv
      subst hv
      rw [List.isChain_cons_cons] at h
      rcases List.mem_cons.1 hx with rfl | hx
      · exact absurd rfl hne
      · by_cases hb : x = b
        · subst hb
          exact ⟨a, by simp, h.1⟩
        · obtain ⟨y, h1, h2⟩ := ih h.2 rfl hx hb
          exact ⟨y, by simp only [List.tail_cons, List.zip_cons_cons, List.mem_cons]; exact Or.inr h1, h2⟩

theorem isChain_succ {α : Type*} {R : α → α → Prop} {l : List α} (h : l.IsChain R) {v x : α} (hv : l.getLast? = some v)
    (hx : x ∈ l) (hne : x ≠ v) : ∃ y, (x, y) ∈ l.zip l.tail ∧ R x y := by
  induction l with
  | nil => simp at hx
  | cons a l ih =>
    cases l with
    | nil => simp at hv hx; subst hv hx; exact absurd rfl hne
    | cons b l =>
      rw [List.isChain_cons_cons] at h
      rcases List.mem_cons.1 hx with rfl | hx
      · exact ⟨b, by simp, h.1⟩
      · obtain ⟨y, h1, h2⟩ := ih h.2 (by rwa [List.getLast?_cons_cons] at hv) hx
        exact ⟨y, by simp only [List.tail_cons, List.zip_cons_cons, List.mem_cons]; exact Or.inr h1, h2⟩

theorem mem_zip_tail {α : Type*} {l : List α} {x y : α} (h : (x, y) ∈ l.zip l.tail) : x ∈ l ∧ y ∈ l :=
  ⟨(List.of_mem_zip h).1, List.mem_of_mem_tail (List.of_mem_zip h).2⟩

/-- The last of a list without repetitions has nothing behind it. -/
theorem last_zip_tail {α : Type*} {l : List α} (hn : l.Nodup) {t y : α} (ht : l.getLast? = some t) :
    (t, y) ∉ l.zip l.tail := by
  induction l with
  | nil => simp
  | cons a l ih =>
    cases l with
    | nil => simp
    | cons b l =>
      rw [List.getLast?_cons_cons] at ht
      rw [List.nodup_cons] at hn
      simp only [List.tail_cons, List.zip_cons_cons, List.mem_cons, Prod.mk.injEq, not_or]
      refine ⟨?_, ih hn.2 ht⟩
      rintro ⟨rfl, -⟩
      exact hn.1 (List.mem_of_getLast? ht)

/-- The way comes back only to its first vertex. -/
theorem WayOf.back {E : List (Nat × Nat)} {c : List Nat} {v t t' : Nat} {acc : List Nat} (hT : Thin E)
    (h : WayOf E c v t acc) (he : (t, t') ∈ E) (ht : t' ∈ acc) : t' = v := by
  by_contra hne
  obtain ⟨y, h1, h2⟩ := isChain_pred h.chain h.head ht hne
  have := hT.target h2 he
  subst this
  exact last_zip_tail h.nodup h.last h1

/-- A way that starts at a source and ends where nothing leaves it, or returns to its start, is all of the component. -/
theorem WayOf.all {E : List (Nat × Nat)} {c : List Nat} {v t : Nat} {acc : List Nat} (hT : Thin E)
    (hmin : ∀ S : Nat → Prop, (∀ e ∈ E, S e.1 ↔ S e.2) → (∃ v ∈ c, S v) → ∀ w ∈ c, S w)
    (h : WayOf E c v t acc)
    (h2 : (t, v) ∈ E ∨ ((∀ a, (a, v) ∉ E) ∧ ∀ b, (t, b) ∉ E)) : ∀ w ∈ c, w ∈ acc := by
  have hv : v ∈ acc := List.mem_of_mem_head? h.head
  have ht : t ∈ acc := List.mem_of_getLast? h.last
  refine hmin (· ∈ acc) ?_ ⟨v, h.sub v hv, hv⟩
  rintro ⟨a, b⟩ he
  simp only
  constructor
  · intro ha
    by_cases hat : a = t
    · subst hat
      rcases h2 with h2 | h2
      · rwa [hT.source he h2]
      · exact absurd he (h2.2 b)
    · obtain ⟨y, h1, h3⟩ := isChain_succ h.chain h.last ha hat
      rw [hT.source he h3]
      exact (mem_zip_tail h1).2
  · intro hb
    by_cases hbv : b = v
    · subst hbv
      rcases h2 with h2 | h2
      · rwa [hT.target he h2]
      · exact absurd he (h2.1 a)
    · obtain ⟨y, h1, h3⟩ := isChain_pred h.chain h.head hb hbv
      rw [hT.target he h3]
      exact (mem_zip_tail h1).1

theorem WayOf.push {E : List (Nat × Nat)} {c : List Nat} {v t t' : Nat} {acc : List Nat} (h : WayOf E c v t acc)
    (he : (t, t') ∈ E) (h1 : t' ∈ c) (h2 : t' ∉ acc) : WayOf E c v t' (acc ++ [t']) where
  nodup := by
    rw [List.nodup_append]
    exact ⟨h.nodup, by simp, fun a ha b hb => by simp at hb; subst hb; rintro rfl; exact h2 ha⟩
  sub := by
    intro x hx
    rw [List.mem_append, List.mem_singleton] at hx
    rcases hx with hx | rfl
    · exact h.sub x hx
    · exact h1
  head := by rw [List.head?_append, h.head]; rfl
  last := by simp
  chain := by
    rw [List.isChain_append]
    refine ⟨h.chain, by simp, ?_⟩
    intro x hx y hy
    rw [h.last] at hx
    simp at hx hy
    subst hx hy
    exact he

/-- The loop along the edges goes through the whole component. -/
theorem traceEdges_spec {E : List (Nat × Nat)} (hT : Thin E) {c : List Nat}
    (hcl : ∀ e ∈ E, e.1 ∈ c ↔ e.2 ∈ c)
    (hmin : ∀ S : Nat → Prop, (∀ e ∈ E, S e.1 ↔ S e.2) → (∃ v ∈ c, S v) → ∀ w ∈ c, S w) {v : Nat}
    (hv : (∀ a, (a, v) ∉ E) ∨ ∀ x ∈ c, ∃ y, (x, y) ∈ E) (fuel : Nat) :
    ∀ (t : Nat) (comp acc : List Nat), comp.length ≤ fuel → WayOf E c v t acc → comp.Nodup →
      (∀ x, x ∈ c ↔ x ∈ comp ∨ x ∈ acc) → (∀ x ∈ comp, x ∉ acc) →
      ∃ l t', traceEdges E fuel t comp acc = .ok l ∧ WayOf E c v t' l ∧ ∀ x ∈ c, x ∈ l := by
  induction fuel with
  | zero =>
    intro t comp acc hf hw _ hc _
    cases comp with
    | nil => exact ⟨acc, t, rfl, hw, fun x hx => by simpa using (hc x).1 hx⟩
    | cons a comp => simp at hf
  | succ fuel ih =>
    intro t comp acc hf hw hn hc hd
    cases comp with
    | nil => exact ⟨acc, t, rfl, hw, fun x hx => by simpa using (hc x).1 hx⟩
    | cons a comp =>
      have htc : t ∈ c := hw.sub t (List.mem_of_getLast? hw.last)
      have hac : a ∈ c := (hc a).2 (by simp)
      have haa : a ∉ acc := hd a (by simp)
      rcases filter_source hT t with ⟨-, h2⟩ | ⟨b, h1, h2⟩
      · exfalso
        rcases hv with hv | hv
        · exact haa (hw.all hT hmin (Or.inr ⟨hv, h2⟩) a hac)
        · obtain ⟨y, hy⟩ := hv t htc
          exact h2 y hy
      · have hbc : b ∈ c := (hcl _ h2).1 htc
        have hb : b ∉ acc := by
          intro hb
          have := hw.back hT h2 hb
          subst this
          exact haa (hw.all hT hmin (Or.inl h2) a hac)
        have hb' : b ∈ a :: comp := ((hc b).1 hbc).resolve_right hb
        obtain ⟨l, t', k1, k2, k3⟩ := ih b ((a :: comp).erase b) (acc ++ [b])
          (by rw [List.length_erase_of_mem hb']; simpa using hf) (hw.push h2 hbc hb) (hn.erase b)
          (fun x => by
            rw [hc x, hn.mem_erase_iff, List.mem_append, List.mem_singleton]
            by_cases hx : x = b
            · subst hx; simp [hb']
            · simp [hx])
          (fun x hx => by
            rw [hn.mem_erase_iff] at hx
            rw [List.mem_append, List.mem_singleton, not_or]
            exact ⟨hd x hx.2, hx.1⟩)
        refine ⟨l, t', ?_, k2, k3⟩
        unfold traceEdges
        rw [h1]
        simp only [if_pos hb', k1]

/-- If every vertex of a component has an edge to it, every vertex has one from it. -/
theorem all_leave {E : List (Nat × Nat)} (hT : Thin E) {c : List Nat} (hn : c.Nodup)
    (hcl : ∀ e ∈ E, e.1 ∈ c ↔ e.2 ∈ c) (h : ∀ x ∈ c, ∃ y, (y, x) ∈ E) : ∀ x ∈ c, ∃ y, (x, y) ∈ E := by
  classical
  have hp : ∃ f : Nat → Nat, ∀ x ∈ c, (f x, x) ∈ E := by
    refine ⟨fun x => if hx : x ∈ c then (h x hx).choose else 0, fun x hx => ?_⟩
    simp only [dif_pos hx]
    exact (h x hx).choose_spec
  obtain ⟨f, hf⟩ := hp
  have h1 : (c.map f).Nodup := by
    refine List.Nodup.map_on (fun x hx y hy hxy => ?_) hn
    have := hf y hy
    rw [← hxy] at this
    exact hT.source (hf x hx) this
  have h2 : c.map f ⊆ c := by
    intro y hy
    obtain ⟨x, hx, rfl⟩ := List.mem_map.1 hy
    exact (hcl _ (hf x hx)).2 hx
  have h3 := (List.subperm_of_subset h1 h2).perm_of_length_le (by simp)
  intro x hx
  obtain ⟨y, hy, rfl⟩ := List.mem_map.1 (h3.mem_iff.2 hx)
  exact ⟨y, hf y hy⟩

end Geometrix
