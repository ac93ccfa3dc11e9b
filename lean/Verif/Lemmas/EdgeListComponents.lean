import Verif.Model.EdgeList
import Mathlib.Data.List.Nodup
import Mathlib.Data.List.Perm.Subperm

/-!
Lemmas for C111: the components.
-/

set_option linter.unusedSectionVars false

namespace Geometrix

/-- The invariant of the sets of connected vertices. -/
structure CompsOf (n : Nat) (E : List (Nat × Nat)) (cs : List (List Nat)) : Prop where
  lt : ∀ c ∈ cs, ∀ v ∈ c, v < n
  cover : ∀ v < n, ∃ c ∈ cs, v ∈ c
  disj : cs.Pairwise List.Disjoint
  nodup : ∀ c ∈ cs, c.Nodup
  full : ∀ c ∈ cs, c ≠ []
  closed : ∀ e ∈ E, ∀ c ∈ cs, e.1 ∈ c ↔ e.2 ∈ c
  minimal : ∀ c ∈ cs, ∀ S : Nat → Prop, (∀ e ∈ E, S e.1 ↔ S e.2) → (∃ v ∈ c, S v) → ∀ w ∈ c, S w

theorem mem_mergeComponents {n a b : Nat} {cs : List (List Nat)} {c : List Nat}
    (hd : cs.Pairwise List.Disjoint) (hn : ∀ c ∈ cs, ∀ v ∈ c, v < n)
    (h : c ∈ mergeComponents n a b cs) :
    (c ∈ cs ∧ a ∉ c ∧ b ∉ c) ∨
      (c.Nodup ∧ (∃ r ∈ cs, a ∈ r ∨ b ∈ r) ∧ ∀ x, x ∈ c ↔ ∃ r ∈ cs, (a ∈ r ∨ b ∈ r) ∧ x ∈ r) := by
  induction cs with
  | nil => simp [mergeComponents] at h
  | cons r rest ih =>
    rw [List.pairwise_cons] at hd
    unfold mergeComponents at h
    split_ifs at h with hr
    · rw [List.mem_cons] at h
      rcases h with rfl | h
      · right
        refine ⟨List.nodup_range.filter _, ⟨r, by simp, hr⟩, fun x => ?_⟩
        simp only [List.mem_filter, List.mem_range, decide_eq_true_eq, List.mem_cons, exists_eq_or_imp]
        constructor
        · rintro ⟨-, h | h⟩
          · exact Or.inl ⟨hr, h⟩
          · exact Or.inr h
        · rintro (⟨-, h⟩ | ⟨r', h1, h2, h3⟩)
          · exact ⟨hn r (by simp) x h, Or.inl h⟩
          · exact ⟨hn r' (by simp [h1]) x h3, Or.inr ⟨r', h1, h2, h3⟩⟩
      · left
        simp only [List.mem_filter, decide_eq_true_eq, not_or] at h
        exact ⟨List.mem_cons_of_mem _ h.1, h.2⟩
    · rw [List.mem_cons] at h
      rcases h with rfl | h
      · exact Or.inl ⟨by simp, not_or.1 hr⟩
      · rcases ih hd.2 (fun c hc => hn c (List.mem_cons_of_mem _ hc)) h with ⟨h1, h2⟩ | ⟨h1, ⟨r', h2, h2'⟩, h3⟩
        · exact Or.inl ⟨List.mem_cons_of_mem _ h1, h2⟩
        · refine Or.inr ⟨h1, ⟨r', by simp [h2], h2'⟩, fun x => ?_⟩
          rw [h3]
          simp only [List.mem_cons, exists_eq_or_imp]
          exact ⟨Or.inr, fun h => h.resolve_left fun h => hr h.1⟩

theorem mergeComponents_cover {n a b : Nat} {cs : List (List Nat)} {x : Nat} (hn : ∀ c ∈ cs, ∀ v ∈ c, v < n)
    (h : ∃ c ∈ cs, x ∈ c) : ∃ c ∈ mergeComponents n a b cs, x ∈ c := by
  induction cs with
  | nil => simp at h
  | cons r rest ih =>
    obtain ⟨c, hc, hx⟩ := h
    have hxn := hn c hc x hx
    unfold mergeComponents
    split_ifs with hr
    · by_cases h2 : a ∈ c ∨ b ∈ c
      · refine ⟨_, List.mem_cons_self, ?_⟩
        simp only [List.mem_filter, List.mem_range, decide_eq_true_eq]
        refine ⟨hxn, ?_⟩
        rcases List.mem_cons.1 hc with rfl | hc
        · exact Or.inl hx
        · exact Or.inr ⟨c, hc, h2, hx⟩
      · rcases List.mem_cons.1 hc with rfl | hc
        · exact absurd hr h2
        · exact ⟨c, List.mem_cons_of_mem _ (by simp only [List.mem_filter, decide_eq_true_eq]; exact ⟨hc, h2⟩), hx⟩
    · rcases List.mem_cons.1 hc with rfl | hc
      · exact ⟨c, List.mem_cons_self, hx⟩
      · obtain ⟨c', h1, h2⟩ := ih (fun c hc => hn c (List.mem_cons_of_mem _ hc)) ⟨c, hc, hx⟩
        exact ⟨c', List.mem_cons_of_mem _ h1, h2⟩

theorem mergeComponents_disjoint {n a b : Nat} {cs : List (List Nat)} (hn : ∀ c ∈ cs, ∀ v ∈ c, v < n)
    (h : cs.Pairwise List.Disjoint) : (mergeComponents n a b cs).Pairwise List.Disjoint := by
  induction cs with
  | nil => simp [mergeComponents]
  | cons r rest ih =>
    rw [List.pairwise_cons] at h
    have hn' : ∀ c ∈ rest, ∀ v ∈ c, v < n := fun c hc => hn c (List.mem_cons_of_mem _ hc)
    unfold mergeComponents
    split_ifs with hr
    · rw [List.pairwise_cons]
      refine ⟨fun c hc x hx hx' => ?_, h.2.filter _⟩
      simp only [List.mem_filter, List.mem_range, decide_eq_true_eq] at hc hx
      rcases hx.2 with h1 | ⟨r', h1, h2, h3⟩
      · exact h.1 c hc.1 h1 hx'
      · have : r' = c := by
          by_contra hne
          haveI : Std.Symm (List.Disjoint (α := Nat)) := ⟨fun _ _ h => h.symm⟩
          exact h.2.forall h1 hc.1 hne h3 hx'
        subst this
        exact hc.2 h2
    · rw [List.pairwise_cons]
      refine ⟨fun c hc x hx hx' => ?_, ih hn' h.2⟩
      rcases mem_mergeComponents h.2 hn' hc with ⟨h1, -⟩ | ⟨-, -, h3⟩
      · exact h.1 c h1 hx hx'
      · obtain ⟨r', h4, -, h5⟩ := (h3 x).1 hx'
        exact h.1 r' h4 hx h5

theorem CompsOf.merge {n a b : Nat} {E : List (Nat × Nat)} {cs : List (List Nat)} (h : CompsOf n E cs)
    (ha : a < n) (hb : b < n) : CompsOf n (E ++ [(a, b)]) (mergeComponents n a b cs) where
  lt := by
    intro c hc v hv
    rcases mem_mergeComponents h.disj h.lt hc with ⟨h1, -⟩ | ⟨-, -, h3⟩
    · exact h.lt c h1 v hv
    · obtain ⟨r, h4, -, h5⟩ := (h3 v).1 hv
      exact h.lt r h4 v h5
  cover := fun v hv => mergeComponents_cover h.lt (h.cover v hv)
  disj := mergeComponents_disjoint h.lt h.disj
  nodup := by
    intro c hc
    rcases mem_mergeComponents h.disj h.lt hc with ⟨h1, -⟩ | ⟨h1, -⟩
    · exact h.nodup c h1
    · exact h1
  full := by
    intro c hc
    rcases mem_mergeComponents h.disj h.lt hc with ⟨h1, -⟩ | ⟨-, ⟨r, h1, h2⟩, h3⟩
    · exact h.full c h1
    · rintro rfl
      rcases h2 with h2 | h2
      · exact absurd ((h3 a).2 ⟨r, h1, Or.inl h2, h2⟩) (by simp)
      · exact absurd ((h3 b).2 ⟨r, h1, Or.inr h2, h2⟩) (by simp)
  closed := by
    intro e he c hc
    rw [List.mem_append, List.mem_singleton] at he
    rcases mem_mergeComponents h.disj h.lt hc with ⟨h1, h2, h3⟩ | ⟨-, -, h3⟩
    · rcases he with he | rfl
      · exact h.closed e he c h1
      · exact ⟨fun h => absurd h h2, fun h => absurd h h3⟩
    · rcases he with he | rfl
      · rw [h3, h3]
        constructor
        · rintro ⟨r, h4, h5, h6⟩
          exact ⟨r, h4, h5, (h.closed e he r h4).1 h6⟩
        · rintro ⟨r, h4, h5, h6⟩
          exact ⟨r, h4, h5, (h.closed e he r h4).2 h6⟩
      · obtain ⟨ra, a1, a2⟩ := h.cover a ha
        obtain ⟨rb, b1, b2⟩ := h.cover b hb
        exact ⟨fun _ => (h3 b).2 ⟨rb, b1, Or.inr b2, b2⟩, fun _ => (h3 a).2 ⟨ra, a1, Or.inl a2, a2⟩⟩
  minimal := by
    intro c hc S hS hv w hw
    have hS' : ∀ e ∈ E, S e.1 ↔ S e.2 := fun e he => hS e (List.mem_append_left _ he)
    have hab : S a ↔ S b := hS (a, b) (by simp)
    rcases mem_mergeComponents h.disj h.lt hc with ⟨h1, -⟩ | ⟨-, -, h3⟩
    · exact h.minimal c h1 S hS' hv w hw
    · obtain ⟨v, hvc, hv⟩ := hv
      obtain ⟨r, r1, r2, r3⟩ := (h3 v).1 hvc
      obtain ⟨r', r1', r2', r3'⟩ := (h3 w).1 hw
      have k1 : S a := by
        rcases r2 with r2 | r2
        · exact h.minimal r r1 S hS' ⟨v, r3, hv⟩ a r2
        · exact hab.2 (h.minimal r r1 S hS' ⟨v, r3, hv⟩ b r2)
      rcases r2' with r2' | r2'
      · exact h.minimal r' r1' S hS' ⟨a, r2', k1⟩ w r3'
      · exact h.minimal r' r1' S hS' ⟨b, r2', hab.1 k1⟩ w r3'

theorem compsOf_fold {n : Nat} (E2 : List (Nat × Nat)) : ∀ (E1 : List (Nat × Nat)) (cs : List (List Nat)),
    CompsOf n E1 cs → (∀ e ∈ E2, e.1 < n ∧ e.2 < n) →
    CompsOf n (E1 ++ E2) (E2.foldl (fun cs e => mergeComponents n e.1 e.2 cs) cs) := by
  induction E2 with
  | nil => intro E1 cs h _; simpa using h
  | cons e E2 ih =>
    intro E1 cs h hE
    have := ih (E1 ++ [e]) (mergeComponents n e.1 e.2 cs) (h.merge (hE e (by simp)).1 (hE e (by simp)).2)
      (fun e he => hE e (List.mem_cons_of_mem _ he))
    simpa using this

theorem connectedComponents_spec {n : Nat} {E : List (Nat × Nat)} (hE : ∀ e ∈ E, e.1 < n ∧ e.2 < n) :
    CompsOf n E (connectedComponents n E) := by
  have h0 : CompsOf n [] ((List.range n).map fun v => [v]) := by
    refine ⟨?_, ?_, ?_, ?_, ?_, ?_, ?_⟩
    · simp
    · intro v hv; exact ⟨[v], by simpa using hv, by simp⟩
    · rw [List.pairwise_map]
      refine List.nodup_range.imp ?_
      intro a b hab
      simpa using hab.symm
    · simp
    · simp
    · simp
    · intro c hc S _ hv w hw
      simp only [List.mem_map, List.mem_range] at hc
      obtain ⟨a, -, rfl⟩ := hc
      simp at hw hv
      rwa [hw]
  exact compsOf_fold E [] _ h0 hE

end Geometrix
