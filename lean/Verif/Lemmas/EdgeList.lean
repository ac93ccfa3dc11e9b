import Verif.Lemmas.EdgeListSequences
import Verif.Lemmas.Lexicographic

/-!
Lemmas for C111: the construction, and the sequences as points.
-/

set_option linter.unusedSectionVars false

namespace Geometrix

open Spec

variable {K : Type*} [Field K] [LinearOrder K] [IsStrictOrderedRing K]

theorem lexSame_iff (p q : P2 K) : (!lexCompare Cmp.direct p q && !lexCompare Cmp.direct q p) = true ↔ p = q := by
  simp only [Bool.and_eq_true, Bool.not_eq_true', ← Bool.not_eq_true, lexCompare_iff]
  constructor
  · rintro ⟨h1, h2⟩
    rcases lexLT_trichotomy p q with h | h | h
    · exact absurd h h1
    · exact h
    · exact absurd h h2
  · rintro rfl
    exact ⟨fun h => lexLT_asymm h h, fun h => lexLT_asymm h h⟩

/-- The list of half edges as it is built. -/
structure Listed (d : EdgeList K) : Prop where
  nodup : d.pts.Nodup
  count : d.count = d.pts.length
  links : d.links = d.edges

theorem addVertex_spec {d : EdgeList K} (h : Listed d) (p : P2 K) : ∃ v d', d.addVertex Cmp.direct p = .ok (v, d') ∧
    Listed d' ∧ d'.edges = d.edges ∧ d.pts <+: d'.pts ∧ d'.pts[v]? = some p ∧
    ∀ x, x < d'.pts.length → x < d.pts.length ∨ x = v := by
  unfold EdgeList.addVertex
  cases hf : d.pts.findIdx? (fun k => !lexCompare Cmp.direct k p && !lexCompare Cmp.direct p k) with
  | some v =>
    rw [List.findIdx?_eq_some_iff_getElem] at hf
    obtain ⟨hv, h1, -⟩ := hf
    refine ⟨v, d, rfl, h, rfl, List.prefix_rfl, ?_, fun x hx => Or.inl hx⟩
    rw [lexSame_iff] at h1
    rw [List.getElem?_eq_getElem hv, h1]
  | none =>
    rw [List.findIdx?_eq_none_iff] at hf
    have hp : p ∉ d.pts := by
      intro hp
      have := hf p hp
      rw [← Bool.not_eq_true, lexSame_iff] at this
      exact this rfl
    simp only
    rw [if_pos h.count.symm]
    refine ⟨_, _, rfl, ⟨?_, ?_, h.links⟩, rfl, List.prefix_append _ _, by simp, ?_⟩
    · simp only
      rw [List.nodup_append]
      exact ⟨h.nodup, by simp, fun a ha b hb => by simp at hb; subst hb; rintro rfl; exact hp ha⟩
    · simp [h.count]
    · intro x hx
      simp at hx
      omega

theorem prefix_getElem? {α : Type*} {l l' : List α} (h : l <+: l') {i : Nat} {a : α} (ha : l[i]? = some a) : l'[i]? = some a := by
  obtain ⟨m, rfl⟩ := h
  have := (List.getElem?_eq_some_iff.1 ha).1
  rw [List.getElem?_append_left this, ha]

/-- The segments the edges stand for. -/
structure Lists (d : EdgeList K) (segs : List (Seg K)) : Prop extends Listed d where
  segs : List.Forall₂ (fun e s => d.pts[e.1]? = some s.s ∧ d.pts[e.2]? = some s.e) d.edges segs
  used : ∀ v, v < d.pts.length → ∃ e ∈ d.edges, v = e.1 ∨ v = e.2

theorem addEdge_spec {d : EdgeList K} {segs : List (Seg K)} (h : Lists d segs) (s : Seg K) :
    ∃ d', d.addEdge Cmp.direct s.s s.e = .ok d' ∧ Lists d' (segs ++ [s]) := by
  obtain ⟨v, d1, a1, a2, a3, a4, a5, a6⟩ := addVertex_spec h.toListed s.s
  obtain ⟨w, d2, b1, b2, b3, b4, b5, b6⟩ := addVertex_spec a2 s.e
  have a5' := prefix_getElem? b4 a5
  have hv := (List.getElem?_eq_some_iff.1 a5').1
  have hw := (List.getElem?_eq_some_iff.1 b5).1
  unfold EdgeList.addEdge
  simp only [a1, b1]
  refine ⟨_, rfl, ⟨b2.nodup, ?_, ?_⟩, ?_, ?_⟩
  · simp only
    rw [b2.count]
    omega
  · simp only [b2.links]
  · simp only
    rw [b3, a3]
    refine List.rel_append ?_ (List.Forall₂.cons ⟨a5', b5⟩ List.Forall₂.nil)
    exact h.segs.imp fun e s ⟨h1, h2⟩ => ⟨prefix_getElem? b4 (prefix_getElem? a4 h1), prefix_getElem? b4 (prefix_getElem? a4 h2)⟩
  · intro x hx
    simp only at hx ⊢
    rw [b3, a3]
    rcases b6 x hx with h1 | rfl
    · rcases a6 x h1 with h1 | rfl
      · obtain ⟨e, he, h2⟩ := h.used x h1
        exact ⟨e, by simp [he], h2⟩
      · exact ⟨(x, w), by simp, Or.inl rfl⟩
    · exact ⟨(v, x), by simp, Or.inr rfl⟩

theorem addEdges_spec (more : List (Seg K)) : ∀ {d : EdgeList K} {segs : List (Seg K)}, Lists d segs →
    ∃ d', EdgeList.addEdges Cmp.direct more d = .ok d' ∧ Lists d' (segs ++ more) := by
  induction more with
  | nil => intro d segs h; exact ⟨d, rfl, by simpa using h⟩
  | cons s more ih =>
    intro d segs h
    obtain ⟨d1, h1, h2⟩ := addEdge_spec h s
    obtain ⟨d2, h3, h4⟩ := ih h2
    refine ⟨d2, ?_, by simpa using h4⟩
    unfold EdgeList.addEdges
    simp only [h1, h3]

theorem lists_empty : Lists (EdgeList.empty : EdgeList K) [] := ⟨⟨by simp [EdgeList.empty], rfl, rfl⟩, List.Forall₂.nil, by simp [EdgeList.empty]⟩

theorem Lists.mem_left {d : EdgeList K} {segs : List (Seg K)} (h : Lists d segs) {e : Nat × Nat} (he : e ∈ d.edges) :
    ∃ s ∈ segs, d.pts[e.1]? = some s.s ∧ d.pts[e.2]? = some s.e := by
  replace h := h.segs
  revert h
  generalize d.edges = E at he
  intro h
  induction h with
  | nil => simp at he
  | @cons a b l l' h1 _ ih =>
    rcases List.mem_cons.1 he with rfl | he
    · exact ⟨b, by simp, h1⟩
    · obtain ⟨s, k1, k2⟩ := ih he
      exact ⟨s, by simp [k1], k2⟩

theorem Lists.mem_right {d : EdgeList K} {segs : List (Seg K)} (h : Lists d segs) {s : Seg K} (hs : s ∈ segs) :
    ∃ e ∈ d.edges, d.pts[e.1]? = some s.s ∧ d.pts[e.2]? = some s.e := by
  replace h := h.segs
  revert h
  generalize d.edges = E
  intro h
  induction h with
  | nil => simp at hs
  | @cons a b l l' h1 _ ih =>
    rcases List.mem_cons.1 hs with rfl | hs
    · exact ⟨a, by simp, h1⟩
    · obtain ⟨e, k1, k2⟩ := ih hs
      exact ⟨e, by simp [k1], k2⟩

theorem Lists.thin {d : EdgeList K} {segs : List (Seg K)} (h : Lists d segs) (h1 : (segs.map Seg.s).Nodup)
    (h2 : (segs.map Seg.e).Nodup) : Thin d.edges := by
  replace h := h.segs
  revert h
  generalize d.edges = E
  intro h
  have key : ∀ {f : Nat × Nat → Nat} {g : Seg K → P2 K} {E : List (Nat × Nat)} {S : List (Seg K)},
      List.Forall₂ (fun e s => d.pts[f e]? = some (g s)) E S → (S.map g).Nodup → (E.map f).Nodup := by
    intro f g E S hh hn
    induction hh with
    | nil => simp
    | @cons a b l l' k1 k2 ih =>
      simp only [List.map_cons, List.nodup_cons] at hn ⊢
      refine ⟨?_, ih hn.2⟩
      intro hm
      obtain ⟨e, he, hfe⟩ := List.mem_map.1 hm
      apply hn.1
      have : ∃ s ∈ l', d.pts[f e]? = some (g s) := by
        clear ih hn hm hfe
        induction k2 with
        | nil => simp at he
        | @cons a b l l' k1 k2 ih =>
          rcases List.mem_cons.1 he with rfl | he
          · exact ⟨b, by simp, k1⟩
          · obtain ⟨s, j1, j2⟩ := ih he
            exact ⟨s, by simp [j1], j2⟩
      obtain ⟨s, hs, hs'⟩ := this
      rw [hfe, k1] at hs'
      refine List.mem_map.2 ⟨s, hs, ?_⟩
      simpa using hs'.symm
  exact ⟨key (f := Prod.fst) (h.imp fun _ _ h => h.1) h1, key (f := Prod.snd) (h.imp fun _ _ h => h.2) h2⟩

/-- The points of vertices that exist. -/
theorem positions_eq {d : EdgeList K} (f : Nat → P2 K) (hf : ∀ v < d.pts.length, d.pts[v]? = some (f v)) {l : List Nat}
    (hl : ∀ v ∈ l, v < d.pts.length) : d.positions l = l.map f := by
  unfold EdgeList.positions
  induction l with
  | nil => rfl
  | cons a l ih =>
    rw [List.filterMap_cons_some (hf a (hl a (by simp))), ih fun v hv => hl v (by simp [hv])]
    rfl

theorem sides_map {α β : Type*} (f : α → β) (l : List α) : sides (l.map f) = (sides l).map (Prod.map f f) := by
  unfold sides
  rw [← List.map_rotate, List.zip_map]

/-- The sequences of a list of half edges. -/
theorem Lists.sequences {d : EdgeList K} {segs : List (Seg K)} (h : Lists d segs) (h1 : (segs.map Seg.s).Nodup)
    (h2 : (segs.map Seg.e).Nodup) {fuel : Nat} (hf : d.pts.length ≤ fuel) :
    ∃ lines gons, d.sequences fuel = .ok (lines, gons) ∧ Linked segs lines gons := by
  have hT := h.thin h1 h2
  have hlt : ∀ e ∈ d.edges, e.1 < d.pts.length ∧ e.2 < d.pts.length := by
    intro e he
    obtain ⟨s, -, k1, k2⟩ := h.mem_left he
    exact ⟨(List.getElem?_eq_some_iff.1 k1).1, (List.getElem?_eq_some_iff.1 k2).1⟩
  have hc := connectedComponents_spec hlt
  obtain ⟨ls, ps, e, l1, l2, l3⟩ := sequencesOf_spec hT (fuel := fuel) _ hc.closed hc.minimal hc.nodup hc.full (by
    intro c hcc
    refine le_trans ?_ hf
    have := (List.subperm_of_subset (hc.nodup c hcc) (l₂ := List.range d.pts.length)
      (fun v hv => List.mem_range.2 (hc.lt c hcc v hv))).length_le
    simpa using this)
  have hin : ∀ x, x ∈ ls.flatten ++ ps.flatten ↔ x < d.pts.length := by
    intro x
    rw [l3.mem_iff, List.mem_flatten]
    exact ⟨fun ⟨c, k1, k2⟩ => hc.lt c k1 x k2, fun hx => hc.cover x hx⟩
  obtain ⟨f, hfv⟩ : ∃ f : Nat → P2 K, ∀ v < d.pts.length, d.pts[v]? = some (f v) :=
    ⟨fun v => (d.pts[v]?).getD 0, fun v hv => by simp [List.getElem?_eq_getElem hv]⟩
  have hinj : ∀ v < d.pts.length, ∀ w < d.pts.length, f v = f w → v = w := by
    intro v hv w hw hvw
    have k1 := hfv v hv
    have k2 := hfv w hw
    rw [hvw, ← k2] at k1
    exact (List.getElem?_inj hv h.nodup).1 k1
  have hl : ∀ l ∈ ls, ∀ v ∈ l, v < d.pts.length := fun l hl v hv =>
    (hin v).1 (List.mem_append_left _ (List.mem_flatten.2 ⟨l, hl, hv⟩))
  have hp : ∀ l ∈ ps, ∀ v ∈ l, v < d.pts.length := fun l hl v hv =>
    (hin v).1 (List.mem_append_right _ (List.mem_flatten.2 ⟨l, hl, hv⟩))
  have hE := sequences_edges hT l1 l2 (fun e he => (hin e.1).2 (hlt e he).1)
  have els : ls.map d.positions = ls.map (List.map f) := List.map_congr_left fun l h => positions_eq f hfv (hl l h)
  have eps : ps.map d.positions = ps.map (List.map f) := List.map_congr_left fun l h => positions_eq f hfv (hp l h)
  refine ⟨ls.map (List.map f), ps.map (List.map f), ?_, ⟨?_, ?_, ?_, ?_⟩⟩
  · unfold EdgeList.sequences
    by_cases h0 : d.pts = []
    · have : ls.flatten ++ ps.flatten = [] := by
        rw [List.eq_nil_iff_forall_not_mem]
        intro x hx
        rw [hin, h0] at hx
        simp at hx
      have hnl : ∀ l ∈ ls, l ≠ [] := by
        intro l hl
        obtain ⟨v, t, k, -⟩ := (l1 l hl).ends
        rintro rfl
        simp at k
      have hnp : ∀ l ∈ ps, l ≠ [] := by
        intro l hl
        obtain ⟨v, t, k, -⟩ := (l2 l hl).ends
        rintro rfl
        simp at k
      rw [List.append_eq_nil_iff, List.flatten_eq_nil_iff, List.flatten_eq_nil_iff] at this
      have a1 : ls = [] := List.eq_nil_iff_forall_not_mem.2 fun l hl => hnl l hl (this.1 l hl)
      have a2 : ps = [] := List.eq_nil_iff_forall_not_mem.2 fun l hl => hnp l hl (this.2 l hl)
      simp [h0, a1, a2]
    · rw [if_neg (by simpa using h0)]
      unfold EdgeList.components
      rw [if_pos h.count, h.links, h.count]
      simp only [e, els, eps]
  · intro p q
    have hm : ∀ x y, x < d.pts.length → y < d.pts.length → ∀ l : List (Nat × Nat),
        (∀ z ∈ l, z.1 < d.pts.length ∧ z.2 < d.pts.length) →
        ((f x, f y) ∈ l.map (Prod.map f f) ↔ (x, y) ∈ l) := by
      intro x y hx hy l hl
      rw [List.mem_map]
      constructor
      · rintro ⟨⟨a, b⟩, k1, k2⟩
        simp only [Prod.map_apply, Prod.mk.injEq] at k2
        rwa [← hinj a (hl _ k1).1 x hx k2.1, ← hinj b (hl _ k1).2 y hy k2.2]
      · exact fun k => ⟨(x, y), k, rfl⟩
    have hE' : (∃ s ∈ segs, s.s = p ∧ s.e = q) ↔ ∃ x y, (x, y) ∈ d.edges ∧ f x = p ∧ f y = q := by
      constructor
      · rintro ⟨s, hs, rfl, rfl⟩
        obtain ⟨⟨x, y⟩, k1, k2, k3⟩ := h.mem_right hs
        rw [hfv _ (hlt _ k1).1] at k2
        rw [hfv _ (hlt _ k1).2] at k3
        exact ⟨x, y, k1, by simpa using k2, by simpa using k3⟩
      · rintro ⟨x, y, k1, rfl, rfl⟩
        obtain ⟨s, k2, k3, k4⟩ := h.mem_left k1
        rw [hfv _ (hlt _ k1).1] at k3
        rw [hfv _ (hlt _ k1).2] at k4
        exact ⟨s, k2, by simpa using k3.symm, by simpa using k4.symm⟩
    rw [hE']
    constructor
    · rintro ⟨x, y, k1, rfl, rfl⟩
      rcases (hE x y).1 k1 with ⟨l, k2, k3⟩ | ⟨l, k2, k3⟩
      · left
        refine ⟨l.map f, List.mem_map_of_mem k2, ?_⟩
        rw [← List.map_tail, List.zip_map]
        exact List.mem_map.2 ⟨_, k3, rfl⟩
      · right
        refine ⟨l.map f, List.mem_map_of_mem k2, ?_⟩
        rw [sides_map]
        exact List.mem_map.2 ⟨_, k3, rfl⟩
    · rintro (⟨l, k2, k3⟩ | ⟨l, k2, k3⟩)
      · obtain ⟨l, k2', rfl⟩ := List.mem_map.1 k2
        rw [← List.map_tail, List.zip_map] at k3
        obtain ⟨⟨x, y⟩, k4, k5⟩ := List.mem_map.1 k3
        simp only [Prod.map_apply, Prod.mk.injEq] at k5
        exact ⟨x, y, (hE x y).2 (Or.inl ⟨l, k2', k4⟩), k5⟩
      · obtain ⟨l, k2', rfl⟩ := List.mem_map.1 k2
        rw [sides_map] at k3
        obtain ⟨⟨x, y⟩, k4, k5⟩ := List.mem_map.1 k3
        simp only [Prod.map_apply, Prod.mk.injEq] at k5
        exact ⟨x, y, (hE x y).2 (Or.inr ⟨l, k2', k4⟩), k5⟩
  · rw [← List.map_flatten, ← List.map_flatten, ← List.map_append]
    refine List.Nodup.map_on (fun x hx y hy hxy => hinj x ((hin x).1 hx) y ((hin y).1 hy) hxy) ?_
    exact l3.nodup_iff.2 (flatten_nodup hc.nodup hc.disj)
  · intro l hl'
    obtain ⟨l, k2, rfl⟩ := List.mem_map.1 hl'
    rw [List.length_map]
    exact (l1 l k2).long fun v hv => h.used v (hl l k2 v hv)
  · intro l hl'
    obtain ⟨l, k2, rfl⟩ := List.mem_map.1 hl'
    obtain ⟨v, t, k, -⟩ := (l2 l k2).ends
    rintro hh
    rw [List.map_eq_nil_iff] at hh
    subst hh
    simp at k

theorem Lists.few {d : EdgeList K} {segs : List (Seg K)} (h : Lists d segs) : d.pts.length ≤ 2 * segs.length := by
  have h1 : List.range d.pts.length ⊆ d.edges.map Prod.fst ++ d.edges.map Prod.snd := by
    intro v hv
    obtain ⟨e, he, h1 | h1⟩ := h.used v (List.mem_range.1 hv)
    · exact List.mem_append_left _ (List.mem_map.2 ⟨e, he, h1.symm⟩)
    · exact List.mem_append_right _ (List.mem_map.2 ⟨e, he, h1.symm⟩)
  have := (List.subperm_of_subset List.nodup_range h1).length_le
  simp only [List.length_range, List.length_append, List.length_map, h.segs.length_eq] at this
  omega

end Geometrix
