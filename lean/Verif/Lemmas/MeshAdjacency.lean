import Verif.Model.Mesh
import Verif.Spec.Mesh
import Mathlib.Tactic.Linarith

/-!
# Lemmas about the adjacency matrix of a mesh
-/

set_option linter.unusedSectionVars false

namespace Geometrix
open Spec

theorem sideKeyLt_iff (p q : Nat × Nat) : sideKeyLt p q = true ↔ p.1 < q.1 ∨ (p.1 = q.1 ∧ p.2 < q.2) := by
  unfold sideKeyLt; simp

theorem sideKeyLt_trans {p q r : Nat × Nat} (h : sideKeyLt p q = true) (h' : sideKeyLt q r = true) : sideKeyLt p r = true := by
  rw [sideKeyLt_iff] at h h' ⊢; omega

theorem sideKeyLt_total {p q : Nat × Nat} (h : p ≠ q) (h' : ¬ sideKeyLt p q = true) : sideKeyLt q p = true := by
  rw [sideKeyLt_iff] at h' ⊢
  have : ¬ (p.1 = q.1 ∧ p.2 = q.2) := fun e => h (Prod.ext e.1 e.2)
  omega

theorem sideKeyLt_ne {p q : Nat × Nat} (h : sideKeyLt p q = true) : p ≠ q := by
  rintro rfl
  rw [sideKeyLt_iff] at h; omega

/-- The keys are ascending. -/
def SideMap.Ordered (m : SideMap) : Prop := m.Pairwise fun e f => sideKeyLt e.1 f.1 = true

/-- The items of a key; none for a key that is not in the map. -/
def SideMap.items (m : SideMap) (key : Nat × Nat) : List (Nat × Nat) := (m.find key).getD []

theorem SideMap.find_cons (e : (Nat × Nat) × List (Nat × Nat)) (m : SideMap) (key : Nat × Nat) :
    SideMap.find (e :: m) key = if e.1 = key then some e.2 else SideMap.find m key := by
  unfold SideMap.find
  by_cases h : e.1 = key
  · rw [List.find?_cons_of_pos (by simpa using h), if_pos h]; rfl
  · rw [List.find?_cons_of_neg (by simpa using h), if_neg h]

theorem SideMap.items_cons (e : (Nat × Nat) × List (Nat × Nat)) (m : SideMap) (key : Nat × Nat) :
    SideMap.items (e :: m) key = if e.1 = key then e.2 else SideMap.items m key := by
  unfold SideMap.items
  rw [SideMap.find_cons]
  split_ifs <;> rfl

theorem SideMap.find_none_of_lt {m : SideMap} {key : Nat × Nat} (h : ∀ e ∈ m, sideKeyLt key e.1 = true) :
    m.find key = none := by
  induction m with
  | nil => rfl
  | cons e m ih =>
    rw [SideMap.find_cons, if_neg (sideKeyLt_ne (h e List.mem_cons_self)).symm]
    exact ih fun f hf => h f (List.mem_cons_of_mem _ hf)

theorem SideMap.push_keys {m : SideMap} {key item : Nat × Nat} {e : (Nat × Nat) × List (Nat × Nat)}
    (he : e ∈ m.push key item) : e.1 = key ∨ ∃ f ∈ m, f.1 = e.1 := by
  induction m with
  | nil =>
    simp only [SideMap.push, List.mem_singleton] at he
    rw [he]; exact Or.inl rfl
  | cons f m ih =>
    unfold SideMap.push at he
    split_ifs at he with h1 h2
    · rcases List.mem_cons.1 he with rfl | he
      · exact Or.inr ⟨f, List.mem_cons_self, rfl⟩
      · exact Or.inr ⟨e, List.mem_cons_of_mem _ he, rfl⟩
    · rcases List.mem_cons.1 he with rfl | he
      · exact Or.inl rfl
      · exact Or.inr ⟨e, he, rfl⟩
    · rcases List.mem_cons.1 he with rfl | he
      · exact Or.inr ⟨e, List.mem_cons_self, rfl⟩
      · rcases ih he with h | ⟨g, hg, hg'⟩
        · exact Or.inl h
        · exact Or.inr ⟨g, List.mem_cons_of_mem _ hg, hg'⟩

theorem SideMap.push_ordered {m : SideMap} (h : m.Ordered) (key item : Nat × Nat) : (m.push key item).Ordered := by
  induction m with
  | nil => exact List.pairwise_singleton _ _
  | cons f m ih =>
    obtain ⟨h1, h2⟩ := List.pairwise_cons.1 h
    unfold SideMap.push
    split_ifs with k1 k2
    · exact List.pairwise_cons.2 ⟨h1, h2⟩
    · refine List.pairwise_cons.2 ⟨fun e he => ?_, h⟩
      rcases List.mem_cons.1 he with rfl | he
      · exact k2
      · exact sideKeyLt_trans k2 (h1 e he)
    · refine List.pairwise_cons.2 ⟨fun e he => ?_, ih h2⟩
      rcases SideMap.push_keys he with h3 | ⟨g, hg, hg'⟩
      · rw [h3]
        exact sideKeyLt_total (fun e => k1 e.symm) k2
      · rw [← hg']; exact h1 g hg

theorem SideMap.push_items {m : SideMap} (h : m.Ordered) (key item k : Nat × Nat) :
    (m.push key item).items k = if k = key then m.items k ++ [item] else m.items k := by
  induction m with
  | nil =>
    simp only [SideMap.push, SideMap.items_cons]
    by_cases hk : k = key
    · subst hk; simp [SideMap.items, SideMap.find]
    · rw [if_neg (Ne.symm hk), if_neg hk]
  | cons f m ih =>
    obtain ⟨h1, h2⟩ := List.pairwise_cons.1 h
    unfold SideMap.push
    by_cases k1 : f.1 = key
    · rw [if_pos k1]
      by_cases hk : k = key
      · rw [if_pos hk, SideMap.items_cons, SideMap.items_cons, hk, if_pos k1, if_pos k1]
      · rw [if_neg hk, SideMap.items_cons, SideMap.items_cons]
        simp only [k1, Ne.symm hk, if_false]
    · rw [if_neg k1]
      by_cases k2 : sideKeyLt key f.1 = true
      · rw [if_pos k2, SideMap.items_cons]
        by_cases hk : k = key
        · have : SideMap.items m key = [] := by
            unfold SideMap.items
            rw [SideMap.find_none_of_lt fun e he => sideKeyLt_trans k2 (h1 e he)]; rfl
          rw [hk, if_pos rfl, if_pos rfl, SideMap.items_cons, if_neg k1, this]; rfl
        · rw [if_neg (Ne.symm hk), if_neg hk]
      · rw [if_neg k2, SideMap.items_cons, SideMap.items_cons, ih h2]
        by_cases hk : k = key
        · rw [hk, if_neg k1, if_neg k1, if_pos rfl]
        · rw [if_neg hk, if_neg hk]

/-- The items of a map are the sides of the triangles. -/
theorem sideMapLoop_spec : ∀ (ts : List (Nat × Nat × Nat)) (n : Nat) (m : SideMap), m.Ordered →
    (sideMapLoop n m ts).Ordered ∧ ∀ i s k, (i, s) ∈ (sideMapLoop n m ts).items k ↔
      (i, s) ∈ m.items k ∨ ∃ j t, ts[j]? = some t ∧ i = n + j ∧ HasSide t s k.1 k.2
  | [], n, m, h => ⟨h, fun i s k => by simp [sideMapLoop]⟩
  | t :: ts, n, m, h => by
    have o1 := SideMap.push_ordered h (t.1, t.2.1) (n, 0)
    have o2 := SideMap.push_ordered o1 (t.2.1, t.2.2) (n, 1)
    have o3 := SideMap.push_ordered o2 (t.2.2, t.1) (n, 2)
    obtain ⟨a, b⟩ := sideMapLoop_spec ts (n + 1) _ o3
    refine ⟨a, fun i s k => ?_⟩
    have hitem : (i, s) ∈ (((m.push (t.1, t.2.1) (n, 0)).push (t.2.1, t.2.2) (n, 1)).push (t.2.2, t.1) (n, 2)).items k ↔
        (i, s) ∈ m.items k ∨ (i = n ∧ HasSide t s k.1 k.2) := by
      rw [SideMap.push_items o2, SideMap.push_items o1, SideMap.push_items h]
      obtain ⟨k1, k2⟩ := k
      have key : ∀ (c : Prop) [Decidable c] (l : List (Nat × Nat)) (x : Nat × Nat),
          (i, s) ∈ (if c then l ++ [x] else l) ↔ (i, s) ∈ l ∨ (c ∧ (i, s) = x) := by
        intro c _ l x
        split_ifs with hc <;> simp [hc]
      rw [key, key, key]
      unfold HasSide
      simp only [Prod.mk.injEq]
      tauto
    show (i, s) ∈ (sideMapLoop (n + 1) _ ts).items k ↔ _
    rw [b, hitem]
    constructor
    · rintro ((h | ⟨rfl, h⟩) | ⟨j, u, hj, rfl, hs⟩)
      · exact Or.inl h
      · exact Or.inr ⟨0, t, rfl, rfl, h⟩
      · exact Or.inr ⟨j + 1, u, hj, by omega, hs⟩
    · rintro (h | ⟨j, u, hj, rfl, hs⟩)
      · exact Or.inl (Or.inl h)
      · cases j with
        | zero =>
          simp only [List.getElem?_cons_zero, Option.some.injEq] at hj
          subst hj
          exact Or.inl (Or.inr ⟨rfl, hs⟩)
        | succ j => exact Or.inr ⟨j, u, by simpa using hj, by omega, hs⟩

theorem sides_items (ts : List (Nat × Nat × Nat)) (i s : Nat) (k : Nat × Nat) :
    (i, s) ∈ (sideMapLoop 0 [] ts).items k ↔ ∃ t, ts[i]? = some t ∧ HasSide t s k.1 k.2 := by
  rw [(sideMapLoop_spec ts 0 [] List.Pairwise.nil).2]
  constructor
  · rintro (h | ⟨j, t, hj, rfl, hs⟩)
    · simp [SideMap.items, SideMap.find] at h
    · exact ⟨t, by simpa using hj, hs⟩
  · rintro ⟨t, hj, hs⟩
    exact Or.inr ⟨i, t, hj, by omega, hs⟩

theorem SideMap.items_of_mem {m : SideMap} (h : m.Ordered) {e : (Nat × Nat) × List (Nat × Nat)} (he : e ∈ m) :
    m.items e.1 = e.2 := by
  induction m with
  | nil => simp at he
  | cons f m ih =>
    obtain ⟨h1, h2⟩ := List.pairwise_cons.1 h
    rw [SideMap.items_cons]
    rcases List.mem_cons.1 he with rfl | he
    · rw [if_pos rfl]
    · rw [if_neg (sideKeyLt_ne (h1 e he)), ih h2 he]

theorem SideMap.mem_of_items {m : SideMap} {k x : Nat × Nat} (h : x ∈ m.items k) : ∃ e ∈ m, e.1 = k ∧ x ∈ e.2 := by
  induction m with
  | nil => simp [SideMap.items, SideMap.find] at h
  | cons f m ih =>
    rw [SideMap.items_cons] at h
    split_ifs at h with hk
    · exact ⟨f, List.mem_cons_self, hk, h⟩
    · obtain ⟨e, he, h1, h2⟩ := ih h
      exact ⟨e, List.mem_cons_of_mem _ he, h1, h2⟩

/-! ## The matrix -/

/-- The entry is a triangle across the side. -/
def Linked (ts : List (Nat × Nat × Nat)) (m : AdjMatrix) (i s : Nat) : Prop := ∃ r, Across ts i s (m i s) r

/-- Every entry is that of no triangle, or of one across the side. -/
def SoundAdj (ts : List (Nat × Nat × Nat)) (m : AdjMatrix) : Prop := ∀ i s, m i s = noTriangle ∨ Linked ts m i s

theorem across_symm {ts : List (Nat × Nat × Nat)} {i s j r : Nat} (h : Across ts i s j r) : Across ts j r i s := by
  obtain ⟨t, u, p, q, h1, h2, h3, h4⟩ := h
  exact ⟨u, t, q, p, h2, h1, h4, h3⟩

theorem linked_set {ts : List (Nat × Nat × Nat)} {m : AdjMatrix} {i s : Nat} (h : Linked ts m i s) {a b c r : Nat}
    (hr : Across ts a b c r) : Linked ts (m.set a b c) i s := by
  unfold Linked AdjMatrix.set
  by_cases hc : i = a ∧ s = b
  · obtain ⟨rfl, rfl⟩ := hc
    simp only [and_self, if_true]
    exact ⟨r, hr⟩
  · simp only [hc, if_false]
    exact h

theorem linked_set_self {ts : List (Nat × Nat × Nat)} {m : AdjMatrix} {a b c r : Nat}
    (hr : Across ts a b c r) : Linked ts (m.set a b c) a b := by
  unfold Linked AdjMatrix.set
  simp only [and_self, if_true]
  exact ⟨r, hr⟩

theorem sound_set {ts : List (Nat × Nat × Nat)} {m : AdjMatrix} (h : SoundAdj ts m) {a b c r : Nat}
    (hr : Across ts a b c r) : SoundAdj ts (m.set a b c) := by
  intro i s
  by_cases hc : i = a ∧ s = b
  · obtain ⟨rfl, rfl⟩ := hc
    exact Or.inr (linked_set_self hr)
  · rcases h i s with h | h
    · left
      unfold AdjMatrix.set
      simp only [hc, if_false]
      exact h
    · exact Or.inr (linked_set h hr)

theorem linkSides_spec {ts : List (Nat × Nat × Nat)} {is js : List (Nat × Nat)}
    (hx : ∀ x ∈ is, ∀ y ∈ js, Across ts x.1 x.2 y.1 y.2) (m : AdjMatrix) :
    (SoundAdj ts m → SoundAdj ts (linkSides m is js)) ∧
    (∀ i s, Linked ts m i s → Linked ts (linkSides m is js) i s) ∧
    (js ≠ [] → ∀ x ∈ is, Linked ts (linkSides m is js) x.1 x.2) := by
  have inner : ∀ (js : List (Nat × Nat)) (x : Nat × Nat), (∀ y ∈ js, Across ts x.1 x.2 y.1 y.2) → ∀ m : AdjMatrix,
      (SoundAdj ts m → SoundAdj ts (js.foldl (fun m j => linkPair m x j) m)) ∧
      (∀ i s, Linked ts m i s → Linked ts (js.foldl (fun m j => linkPair m x j) m) i s) ∧
      (js ≠ [] → Linked ts (js.foldl (fun m j => linkPair m x j) m) x.1 x.2) := by
    intro js
    induction js with
    | nil => intro x _ m; exact ⟨fun h => h, fun _ _ h => h, fun h => absurd rfl h⟩
    | cons y js ih =>
      intro x hx m
      have hxy := hx y List.mem_cons_self
      obtain ⟨a, b, c⟩ := ih x (fun z hz => hx z (List.mem_cons_of_mem _ hz)) (linkPair m x y)
      refine ⟨fun h => a (sound_set (sound_set h hxy) (across_symm hxy)),
        fun i s h => b i s (linked_set (linked_set h hxy) (across_symm hxy)), fun _ => b _ _ ?_⟩
      exact linked_set (linked_set_self hxy) (across_symm hxy)
  induction is generalizing m with
  | nil => exact ⟨fun h => h, fun _ _ h => h, fun _ x hx => absurd hx List.not_mem_nil⟩
  | cons x is ih =>
    obtain ⟨a, b, c⟩ := inner js x (hx x List.mem_cons_self) m
    obtain ⟨a', b', c'⟩ := ih (fun z hz => hx z (List.mem_cons_of_mem _ hz)) (js.foldl (fun m j => linkPair m x j) m)
    refine ⟨fun h => a' (a h), fun i s h => b' i s (b i s h), fun hj z hz => ?_⟩
    rcases List.mem_cons.1 hz with rfl | hz
    · exact b' _ _ (c hj)
    · exact c' hj z hz

theorem entries_across {ts : List (Nat × Nat × Nat)} {k x y : Nat × Nat}
    (hx : x ∈ (sideMapLoop 0 [] ts).items k) (hy : y ∈ (sideMapLoop 0 [] ts).items (k.2, k.1)) :
    Across ts x.1 x.2 y.1 y.2 := by
  obtain ⟨t, h1, h2⟩ := (sides_items ts x.1 x.2 k).1 hx
  obtain ⟨u, h3, h4⟩ := (sides_items ts y.1 y.2 (k.2, k.1)).1 hy
  exact ⟨t, u, k.1, k.2, h1, h3, h2, h4⟩

theorem linkEntries_spec (ts : List (Nat × Nat × Nat)) : ∀ (l : SideMap), (∀ e ∈ l, e ∈ sideMapLoop 0 [] ts) →
    ∀ m : AdjMatrix, (SoundAdj ts m → SoundAdj ts (l.foldl (linkEntry (sideMapLoop 0 [] ts)) m)) ∧
    (∀ i s, Linked ts m i s → Linked ts (l.foldl (linkEntry (sideMapLoop 0 [] ts)) m) i s) ∧
    (∀ e ∈ l, (sideMapLoop 0 [] ts).items (e.1.2, e.1.1) ≠ [] → ∀ x ∈ e.2,
      Linked ts (l.foldl (linkEntry (sideMapLoop 0 [] ts)) m) x.1 x.2)
  | [], _, m => ⟨fun h => h, fun _ _ h => h, fun e he => absurd he List.not_mem_nil⟩
  | e :: l, hl, m => by
    obtain ⟨a, b, c⟩ := linkEntries_spec ts l (fun f hf => hl f (List.mem_cons_of_mem _ hf))
      (linkEntry (sideMapLoop 0 [] ts) m e)
    have ho := (sideMapLoop_spec ts 0 [] List.Pairwise.nil).1
    have hitems := SideMap.items_of_mem ho (hl e List.mem_cons_self)
    have hstep : (SoundAdj ts m → SoundAdj ts (linkEntry (sideMapLoop 0 [] ts) m e)) ∧
        (∀ i s, Linked ts m i s → Linked ts (linkEntry (sideMapLoop 0 [] ts) m e) i s) ∧
        ((sideMapLoop 0 [] ts).items (e.1.2, e.1.1) ≠ [] → ∀ x ∈ e.2,
          Linked ts (linkEntry (sideMapLoop 0 [] ts) m e) x.1 x.2) := by
      unfold linkEntry
      cases hf : (sideMapLoop 0 [] ts).find (e.1.2, e.1.1) with
      | none =>
        refine ⟨fun h => h, fun _ _ h => h, fun h => absurd ?_ h⟩
        unfold SideMap.items; rw [hf]; rfl
      | some js =>
        have hjs : (sideMapLoop 0 [] ts).items (e.1.2, e.1.1) = js := by unfold SideMap.items; rw [hf]; rfl
        rw [hjs]
        refine linkSides_spec (fun x hx y hy => ?_) m
        exact entries_across (k := e.1) (by rw [hitems]; exact hx) (by rw [hjs]; exact hy)
    refine ⟨fun h => a (hstep.1 h), fun i s h => b i s (hstep.2.1 i s h), fun f hf hn x hx => ?_⟩
    rcases List.mem_cons.1 hf with rfl | hf
    · exact b _ _ (hstep.2.2 hn x hx)
    · exact c f hf hn x hx

theorem adjacency_sound (ts : List (Nat × Nat × Nat)) (i s : Nat) :
    adjacency ts i s = noTriangle ∨ ∃ r, Across ts i s (adjacency ts i s) r :=
  (linkEntries_spec ts _ (fun _ h => h) _).1 (fun _ _ => Or.inl rfl) i s

theorem adjacency_complete {ts : List (Nat × Nat × Nat)} {i s j r : Nat} (h : Across ts i s j r) :
    ∃ r, Across ts i s (adjacency ts i s) r := by
  obtain ⟨t, u, p, q, h1, h2, h3, h4⟩ := h
  have k1 := (sides_items ts i s (p, q)).2 ⟨t, h1, h3⟩
  have k2 := (sides_items ts j r (q, p)).2 ⟨u, h2, h4⟩
  obtain ⟨e, he, hk, hx⟩ := SideMap.mem_of_items k1
  refine (linkEntries_spec ts _ (fun _ h => h) fun _ _ => noTriangle).2.2 e he ?_ _ hx
  rw [hk]
  exact List.ne_nil_of_mem k2

theorem across_lt {ts : List (Nat × Nat × Nat)} {i s j r : Nat} (h : Across ts i s j r) :
    i < ts.length ∧ s < 3 ∧ j < ts.length ∧ r < 3 := by
  obtain ⟨t, u, p, q, h1, h2, h3, h4⟩ := h
  refine ⟨(List.getElem?_eq_some_iff.1 h1).1, ?_, (List.getElem?_eq_some_iff.1 h2).1, ?_⟩
  · unfold HasSide at h3; omega
  · unfold HasSide at h4; omega

theorem across_unique {ts : List (Nat × Nat × Nat)} (ho : SidesOnce ts) {i s j r j' r' : Nat} (h : Across ts i s j r)
    (h' : Across ts i s j' r') : j = j' ∧ r = r' := by
  obtain ⟨t, u, p, q, h1, h2, h3, h4⟩ := h
  obtain ⟨t', u', p', q', h1', h2', h3', h4'⟩ := h'
  rw [h1, Option.some.injEq] at h1'
  subst h1'
  have : p = p' ∧ q = q' := by unfold HasSide at h3 h3'; omega
  obtain ⟨rfl, rfl⟩ := this
  exact ho j j' r r' u u' q p h2 h2' h4 h4'

theorem isAdjacentSide_iff {i j : Nat} (hi : i < 3) (hj : j < 3) (t u : Nat × Nat × Nat) :
    isAdjacentSide i j t u = true ↔ ∃ p q, HasSide t i p q ∧ HasSide u j q p := by
  obtain ⟨t0, t1, t2⟩ := t
  obtain ⟨u0, u1, u2⟩ := u
  unfold isAdjacentSide HasSide
  have ci : i = 0 ∨ i = 1 ∨ i = 2 := by omega
  have cj : j = 0 ∨ j = 1 ∨ j = 2 := by omega
  simp only [Bool.and_eq_true, beq_iff_eq]
  constructor
  · rintro ⟨a, b⟩
    refine ⟨triIndex (t0, t1, t2) i, triIndex (t0, t1, t2) ((i + 1) % 3), ?_, ?_⟩
    · rcases ci with rfl | rfl | rfl <;> simp [triIndex]
    · rw [a, b]
      rcases cj with rfl | rfl | rfl <;> simp [triIndex]
  · rintro ⟨p, q, h1, h2⟩
    rcases ci with rfl | rfl | rfl <;> rcases cj with rfl | rfl | rfl <;> simp only [triIndex] <;> omega

/-- The first side with a reverse in the other triangle. -/
theorem adjacentSide_spec (t u : Nat × Nat × Nat) :
    (∃ s, adjacentSide t u = .ok s ∧ (∃ r p q, HasSide t s p q ∧ HasSide u r q p) ∧
      ∀ s' < s, ¬ ∃ r p q, HasSide t s' p q ∧ HasSide u r q p) ∨
    (adjacentSide t u = .error .assertFailed ∧ ¬ ∃ s r p q, HasSide t s p q ∧ HasSide u r q p) := by
  have hs : ∀ s, s < 3 → ((isAdjacentSide s 0 t u || isAdjacentSide s 1 t u || isAdjacentSide s 2 t u) = true ↔
      ∃ r p q, HasSide t s p q ∧ HasSide u r q p) := by
    intro s h
    rw [Bool.or_eq_true, Bool.or_eq_true, isAdjacentSide_iff h (by omega), isAdjacentSide_iff h (by omega),
      isAdjacentSide_iff h (by omega)]
    constructor
    · rintro ((⟨p, q, h1, h2⟩ | ⟨p, q, h1, h2⟩) | ⟨p, q, h1, h2⟩)
      · exact ⟨0, p, q, h1, h2⟩
      · exact ⟨1, p, q, h1, h2⟩
      · exact ⟨2, p, q, h1, h2⟩
    · rintro ⟨r, p, q, h1, h2⟩
      have : r = 0 ∨ r = 1 ∨ r = 2 := by unfold HasSide at h2; omega
      rcases this with rfl | rfl | rfl
      · exact Or.inl (Or.inl ⟨p, q, h1, h2⟩)
      · exact Or.inl (Or.inr ⟨p, q, h1, h2⟩)
      · exact Or.inr ⟨p, q, h1, h2⟩
  unfold adjacentSide
  split_ifs with h0 h1 h2
  · exact Or.inl ⟨0, rfl, (hs 0 (by omega)).1 h0, by omega⟩
  · refine Or.inl ⟨1, rfl, (hs 1 (by omega)).1 h1, fun s' h => ?_⟩
    have : s' = 0 := by omega
    subst this
    exact fun h => h0 ((hs 0 (by omega)).2 h)
  · refine Or.inl ⟨2, rfl, (hs 2 (by omega)).1 h2, fun s' h => ?_⟩
    have : s' = 0 ∨ s' = 1 := by omega
    rcases this with rfl | rfl
    · exact fun h => h0 ((hs 0 (by omega)).2 h)
    · exact fun h => h1 ((hs 1 (by omega)).2 h)
  · refine Or.inr ⟨rfl, ?_⟩
    rintro ⟨s, r, p, q, k1, k2⟩
    have : s = 0 ∨ s = 1 ∨ s = 2 := by unfold HasSide at k1; omega
    rcases this with rfl | rfl | rfl
    · exact h0 ((hs 0 (by omega)).2 ⟨r, p, q, k1, k2⟩)
    · exact h1 ((hs 1 (by omega)).2 ⟨r, p, q, k1, k2⟩)
    · exact h2 ((hs 2 (by omega)).2 ⟨r, p, q, k1, k2⟩)

end Geometrix
