import Verif.Model.GrahamScan
import Verif.Spec.GrahamScan
import Verif.Lemmas.Convex
import Mathlib.Data.List.Sort

/-!
# Lemmas on Graham's scan
-/

set_option linter.unusedSectionVars false

namespace Geometrix

open Spec

variable {K : Type*} [Field K] [LinearOrder K] [IsStrictOrderedRing K]

theorem findLowest_id {o : P2 K} {t : List (P2 K)} (h : LowestOf o t) :
    findLowest Cmp.direct (o :: t) = o :: t := by
  have key : ∀ L : List Nat, (∀ i ∈ L, 1 ≤ i) →
      L.foldl (findLowestStep Cmp.direct) (o :: t, 0) = (o :: t, 0) := by
    intro L
    induction L with
    | nil => intro _; rfl
    | cons i L ih =>
      intro hL
      rw [List.foldl_cons]
      have : findLowestStep Cmp.direct (o :: t, 0) i = (o :: t, 0) := by
        unfold findLowestStep
        simp only [List.getElem?_cons_zero]
        cases hp : (o :: t)[i]? with
        | none => rfl
        | some p =>
          have h1 := hL i (by simp)
          obtain ⟨j, rfl⟩ : ∃ j, i = j + 1 := ⟨i - 1, by omega⟩
          rw [List.getElem?_cons_succ] at hp
          have hm : p ∈ t := List.mem_iff_getElem?.2 ⟨j, hp⟩
          have : grahamLower Cmp.direct p o = false := by
            simp only [grahamLower, direct_lt, direct_equals, direct_gt]
            rcases h p hm with h | ⟨h, h'⟩
            · simp [h.le, h.ne']
            · simp [h, h'.le]
          simp [this]
      rw [this]
      exact ih fun i hi => hL i (by simp [hi])
  unfold findLowest
  rw [key _ (by intro i hi; rw [List.mem_range'_1] at hi; omega)]

theorem findLowestStep_perm (st : List (P2 K) × Nat) (i : Nat) (l : List (P2 K)) (h : st.1.Perm l)
    (hs : st.2 < l.length) :
    (findLowestStep Cmp.direct st i).1.Perm l ∧ (findLowestStep Cmp.direct st i).2 < l.length := by
  unfold findLowestStep
  have hl := h.length_eq
  split
  · rename_i first low p h0 h1 h2
    split
    · obtain ⟨a1, a2⟩ := List.getElem?_eq_some_iff.1 h0
      obtain ⟨b1, b2⟩ := List.getElem?_eq_some_iff.1 h1
      obtain ⟨c1, c2⟩ := List.getElem?_eq_some_iff.1 h2
      refine ⟨?_, by simp only; omega⟩
      have := List.set_set_perm (as := st.1) a1 b1
      rw [a2, b2] at this
      exact this.trans h
    · exact ⟨h, hs⟩
  · exact ⟨h, hs⟩

theorem findLowest_perm (l : List (P2 K)) : (findLowest Cmp.direct l).Perm l := by
  cases l with
  | nil => exact List.Perm.refl _
  | cons o t =>
    have key : ∀ (L : List Nat) (st : List (P2 K) × Nat), st.1.Perm (o :: t) → st.2 < (o :: t).length →
        (L.foldl (findLowestStep Cmp.direct) st).1.Perm (o :: t) := by
      intro L
      induction L with
      | nil => intro st h _; exact h
      | cons i L ih =>
        intro st h hs
        rw [List.foldl_cons]
        have := findLowestStep_perm st i _ h hs
        exact ih _ this.1 this.2
    exact key _ _ (List.Perm.refl _) (by simp)

theorem grahamLoop_mem : ∀ (n : Nat) (rest stack hull : List (P2 K)),
    grahamLoop Cmp.direct n rest stack = .ok hull → ∀ v ∈ hull, v ∈ rest ∨ v ∈ stack := by
  intro n
  induction n with
  | zero =>
    intro rest stack hull h
    cases rest with
    | nil =>
      simp only [grahamLoop] at h
      have := Except.ok.inj h
      subst this
      intro v hv; exact Or.inr hv
    | cons p rest => simp [grahamLoop] at h
  | succ n ih =>
    intro rest stack hull h
    cases rest with
    | nil =>
      simp only [grahamLoop] at h
      have := Except.ok.inj h
      subst this
      intro v hv; exact Or.inr hv
    | cons p rest =>
      match stack, h with
      | p2 :: p1 :: stack, h =>
        simp only [grahamLoop] at h
        split at h
        · intro v hv
          rcases ih _ _ _ h v hv with h | h
          · exact Or.inl (by simp [h])
          · rcases List.mem_cons.1 h with h | h
            · exact Or.inl (by simp [h])
            · exact Or.inr h
        · intro v hv
          rcases ih _ _ _ h v hv with h | h
          · exact Or.inl h
          · exact Or.inr (List.mem_cons_of_mem _ h)
      | [], h => simp [grahamLoop] at h
      | [x], h => simp [grahamLoop] at h

/-- Every element of the list, with two later ones, makes a left turn backwards. -/
def ConvStack : List (P2 K) → Prop
  | [] => True
  | c :: t => t.Pairwise (fun b a => 0 < area2 a b c) ∧ ConvStack t

theorem ConvStack.star {o : P2 K} : ∀ {u : List (P2 K)}, ConvStack (u ++ [o]) →
    u.Pairwise fun c b => 0 < area2 o b c := by
  intro u
  induction u with
  | nil => intro _; exact List.Pairwise.nil
  | cons c t ih =>
    intro h
    obtain ⟨h1, h2⟩ := h
    refine List.pairwise_cons.2 ⟨?_, ih h2⟩
    intro b hb
    exact (List.pairwise_append.1 h1).2.2 b hb o (by simp)

theorem ConvStack.strict : ∀ {s : List (P2 K)}, ConvStack s → StrictlyConvex s.reverse := by
  intro s
  induction s with
  | nil => intro _ i j k a b c _ _ h; simp at h
  | cons p t ih =>
    rintro ⟨h1, h2⟩ i j k a b c hij hjk hi hj hk
    rw [List.reverse_cons] at hi hj hk
    have hlen : k < t.reverse.length + 1 := by
      by_contra hcon
      rw [List.getElem?_eq_none (by simp at hcon ⊢; omega)] at hk; simp at hk
    rw [List.getElem?_append_left (by omega)] at hi hj
    rcases Nat.lt_or_ge k t.reverse.length with hlt | hge
    · rw [List.getElem?_append_left hlt] at hk
      exact ih h2 i j k a b c hij hjk hi hj hk
    · have : k = t.reverse.length := by omega
      subst this
      rw [List.getElem?_append_right (le_refl _)] at hk
      simp only [Nat.sub_self, List.getElem?_cons_zero, Option.some.injEq] at hk
      subst hk
      have hp := List.pairwise_reverse.2 h1
      obtain ⟨a1, a2⟩ := List.getElem?_eq_some_iff.1 hi
      obtain ⟨b1, b2⟩ := List.getElem?_eq_some_iff.1 hj
      have := List.pairwise_iff_getElem.1 hp i j a1 b1 hij
      rw [a2, b2] at this
      exact this

theorem push_lemma {o p p2 : P2 K} {u : List (P2 K)} (hc : ConvStack (p2 :: u ++ [o]))
    (hs : ∀ x ∈ p2 :: u, 0 < area2 o x p)
    (htop : ∀ p1, u.head? = some p1 → 0 < area2 p1 p2 p) : ConvStack (p :: p2 :: u ++ [o]) := by
  refine ⟨?_, hc⟩
  obtain ⟨hc1, hc2⟩ := hc
  have hstar : (p2 :: u).Pairwise fun c b => 0 < area2 o b c :=
    ConvStack.star (o := o) (u := p2 :: u) ⟨hc1, hc2⟩
  obtain ⟨s1, s2⟩ := List.pairwise_cons.1 hstar
  have hp2 := hs p2 (by simp)
  have A : ∀ a ∈ u, 0 < area2 a p2 p := by
    cases u with
    | nil => intro a ha; simp at ha
    | cons p1 u' =>
      intro a ha
      have h1 := htop p1 rfl
      rcases List.mem_cons.1 ha with rfl | ha
      · exact h1
      · have e1 := s1 p1 (by simp)
        have e2 : 0 < area2 a p1 p2 := by
          have := List.pairwise_append.1 hc1
          exact (List.pairwise_cons.1 this.1).1 a ha
        have e3 := s1 a (by simp [ha])
        have id : area2 o p1 p2 * area2 a p2 p = area2 a p1 p2 * area2 o p2 p + area2 o a p2 * area2 p1 p2 p := by
          unfold area2; ring
        have : 0 < area2 o p1 p2 * area2 a p2 p := by
          rw [id]; exact add_pos (mul_pos e2 hp2) (mul_pos e3 h1)
        exact (mul_pos_iff_of_pos_left e1).1 this
  show List.Pairwise _ (p2 :: (u ++ [o]))
  rw [List.pairwise_cons]
  refine ⟨?_, ?_⟩
  · intro a ha
    rcases List.mem_append.1 ha with ha | ha
    · exact A a ha
    · rw [List.mem_singleton] at ha; subst ha; exact hp2
  · rw [List.pairwise_append]
    refine ⟨?_, List.pairwise_singleton _ _, ?_⟩
    · have h1 := (List.pairwise_append.1 hc1).1
      have hboth := h1.and s2
      refine List.Pairwise.imp_of_mem ?_ hboth
      rintro b a hb ha ⟨q1, q2⟩
      have e1 := s1 b hb
      have e2 := A b hb
      have e3 := hs b (by simp [hb])
      have id : area2 o b p2 * area2 a b p = area2 o b p * area2 a b p2 + area2 b p2 p * area2 o a b := by
        unfold area2; ring
      have : 0 < area2 o b p2 * area2 a b p := by
        rw [id]; exact add_pos (mul_pos e3 q1) (mul_pos e2 q2)
      exact (mul_pos_iff_of_pos_left e1).1 this
    · intro b hb a ha
      rw [List.mem_singleton] at ha; subst ha
      exact hs b (by simp [hb])

theorem grahamLoop_terminates : ∀ (n : Nat) (rest stack : List (P2 K)), 0 < stack.length →
    2 * rest.length + stack.length ≤ n + 2 → grahamLoop Cmp.direct n rest stack ≠ .error .diverges := by
  intro n
  induction n with
  | zero =>
    intro rest stack h1 h2
    cases rest with
    | nil => simp [grahamLoop]
    | cons p rest => simp at h2; omega
  | succ n ih =>
    intro rest stack h1 h2
    cases rest with
    | nil => simp [grahamLoop]
    | cons p rest =>
      match stack, h1, h2 with
      | p2 :: p1 :: stack, h1, h2 =>
        simp only [grahamLoop]
        simp only [List.length_cons] at h2
        split
        · exact ih _ _ (by simp) (by simp only [List.length_cons]; omega)
        · exact ih _ _ (by simp) (by simp only [List.length_cons]; omega)
      | [x], _, _ => simp [grahamLoop]

theorem strictWeakOn_mono {α : Type*} {lt : α → α → Bool} {l l' : List α} (h : StrictWeakOn lt l)
    (hl : ∀ x ∈ l', x ∈ l) : StrictWeakOn lt l' :=
  ⟨fun a ha => h.1 a (hl a ha),
   fun a ha b hb c hc => h.2.1 a (hl a ha) b (hl b hb) c (hl c hc),
   fun a ha b hb c hc => h.2.2 a (hl a ha) b (hl b hb) c (hl c hc)⟩

/-- Not less is transitive. -/
theorem strictWeakOn_negTrans {α : Type*} {lt : α → α → Bool} {l : List α} (h : StrictWeakOn lt l)
    {a b c : α} (ha : a ∈ l) (hb : b ∈ l) (hc : c ∈ l) (h1 : lt b a = false) (h2 : lt c b = false) :
    lt c a = false := by
  obtain ⟨_, ht, he⟩ := h
  cases hca : lt c a with
  | false => rfl
  | true =>
    cases hab : lt a b with
    | true => rw [ht c hc a ha b hb hca hab] at h2; cases h2
    | false =>
      cases hbc : lt b c with
      | true => rw [ht b hb c hc a ha hbc hca] at h1; cases h1
      | false => rw [(he a ha b hb c hc hab h1 hbc h2).2] at hca; cases hca

/-- Insertion sort. -/
def insSort {α : Type*} (lt : α → α → Bool) (l : List α) : List α := l.insertionSort fun a b => lt b a = false

theorem insSort_sorts {α : Type*} : Sorts (α := α) insSort := by
  intro lt l
  refine ⟨List.perm_insertionSort _ _, ?_⟩
  have ins : ∀ (a : α) (l : List α), StrictWeakOn lt (a :: l) →
      l.Pairwise (fun a b => lt b a = false) →
      (l.orderedInsert (fun a b => lt b a = false) a).Pairwise (fun a b => lt b a = false) := by
    intro a l
    induction l with
    | nil => intro _ _; simp
    | cons b l ih =>
      intro hw hp
      rw [List.orderedInsert_cons]
      obtain ⟨p1, p2⟩ := List.pairwise_cons.1 hp
      split
      · rename_i hba
        refine List.pairwise_cons.2 ⟨?_, hp⟩
        intro c hc
        rcases List.mem_cons.1 hc with rfl | hc
        · exact hba
        · exact strictWeakOn_negTrans hw (by simp) (b := b) (by simp) (by simp [hc]) hba (p1 c hc)
      · rename_i hba
        refine List.pairwise_cons.2 ⟨?_, ih (strictWeakOn_mono hw fun x hx => ?_) p2⟩
        · intro c hc
          rcases List.mem_cons.1 ((List.perm_orderedInsert _ a l).subset hc) with rfl | hc
          · cases hcb : lt c b with
            | false => rfl
            | true =>
              have := hw.2.1 b (by simp) c (by simp) b (by simp) (by simpa using hba) hcb
              rw [hw.1 b (by simp)] at this; cases this
          · exact p1 c hc
        · rcases List.mem_cons.1 hx with rfl | hx
          · simp
          · simp [hx]
  induction l with
  | nil => intro _; exact List.Pairwise.nil
  | cons a l ih =>
    intro hw
    exact ins a _ (strictWeakOn_mono hw fun x hx => by
      rcases List.mem_cons.1 hx with rfl | hx
      · simp
      · exact List.mem_cons_of_mem _ ((List.perm_insertionSort _ l).subset hx))
      (ih (strictWeakOn_mono hw fun x hx => List.mem_cons_of_mem _ hx))

theorem cross_sub (o a b : P2 K) : cross (a - o) (b - o) = area2 o a b := by
  unfold cross area2
  simp only [P2.sub_x, P2.sub_y]

theorem grahamLess_iff (o a b : P2 K) : grahamLess Cmp.direct o a b = true ↔ 0 < area2 o a b := by
  unfold grahamLess
  rw [direct_gt, cross_sub]

theorem lowest_trans {o a b c : P2 K} (ha : o.y < a.y ∨ (o.y = a.y ∧ a.x < o.x))
    (hb : o.y < b.y ∨ (o.y = b.y ∧ b.x < o.x)) (hc : o.y < c.y ∨ (o.y = c.y ∧ c.x < o.x))
    (h1 : 0 < area2 o a b) (h2 : 0 < area2 o b c) : 0 < area2 o a c := by
  have id : (b.y - o.y) * area2 o a c = (c.y - o.y) * area2 o a b + (a.y - o.y) * area2 o b c := by
    unfold area2; ring
  rcases hb with hb | ⟨hb, hb'⟩
  · have hA : 0 ≤ a.y - o.y := by rcases ha with h | ⟨h, _⟩ <;> linarith
    have hC : 0 ≤ c.y - o.y := by rcases hc with h | ⟨h, _⟩ <;> linarith
    have : 0 < (b.y - o.y) * area2 o a c := by
      rw [id]
      rcases ha with ha | ⟨ha, ha'⟩
      · have := mul_pos (sub_pos.2 ha) h2
        have := mul_nonneg hC h1.le
        linarith
      · exfalso
        unfold area2 at h1
        rw [← ha] at h1
        nlinarith [mul_pos (sub_pos.2 ha') (sub_pos.2 hb)]
    exact (mul_pos_iff_of_pos_left (sub_pos.2 hb)).1 this
  · exfalso
    unfold area2 at h2
    rw [← hb] at h2
    rcases hc with hc | ⟨hc, _⟩
    · nlinarith [mul_pos (sub_pos.2 hb') (sub_pos.2 hc)]
    · rw [← hc] at h2; linarith

end Geometrix
