import Verif.Lemmas.SweepCompare
import Verif.Lemmas.Lexicographic
import Verif.Props.SegmentIntersection

/-!
# Helper lemmas: the event queue of the sweep
-/

set_option linter.unusedSectionVars false

namespace Geometrix

open Spec

variable {K : Type*} [Field K] [LinearOrder K] [IsStrictOrderedRing K]

/-- The events are in order. -/
def QSorted (Q : EventQueue K) : Prop := Q.Pairwise fun a b => lk a.1 < lk b.1

/-- The point is an event of the queue. -/
def IsKey (Q : EventQueue K) (x : P2 K) : Prop := ∃ u, (x, u) ∈ Q

theorem lexCompare_lk (p q : P2 K) : lexCompare Cmp.direct p q = true ↔ lk p < lk q := by
  rw [lexCompare_iff, lk_lt]; rfl

theorem touch_mem {Q : EventQueue K} (hQ : QSorted Q) (x : P2 K) (e : P2 K × List (SweepItem K)) :
    e ∈ queueTouch Cmp.direct x Q ↔ e ∈ Q ∨ (e = (x, []) ∧ ∀ e' ∈ Q, e'.1 ≠ x) := by
  induction Q with
  | nil => simp [queueTouch]
  | cons k Q ih =>
    obtain ⟨k, u⟩ := k
    have hQ' := List.pairwise_cons.mp hQ
    unfold queueTouch
    split_ifs with h1 h2
    · rw [List.mem_cons, ih hQ'.2, List.mem_cons]
      have hk : k ≠ x := fun h => by rw [lexCompare_lk, h] at h1; exact lt_irrefl _ h1
      simp only [List.forall_mem_cons]
      tauto
    · rw [lexCompare_lk] at h2
      have hall : ∀ e' ∈ ((k, u) :: Q : EventQueue K), e'.1 ≠ x := by
        intro e' he' h
        rcases List.mem_cons.mp he' with rfl | he'
        · rw [← h] at h2; exact lt_irrefl _ h2
        · have := hQ'.1 e' he'; rw [h] at this; exact lt_asymm h2 this
      simp only [List.mem_cons] at hall ⊢
      constructor
      · rintro (h | h)
        · exact Or.inr ⟨h, hall⟩
        · exact Or.inl h
      · rintro (h | h)
        · exact Or.inr h
        · exact Or.inl h.1
    · rw [lexCompare_lk] at h1 h2
      have hk : k = x := lk_inj (le_antisymm (not_lt.mp h2) (not_lt.mp h1))
      constructor
      · exact Or.inl
      · rintro (h | h)
        · exact h
        · exact absurd hk (h.2 (k, u) (by simp))

theorem touch_sorted {Q : EventQueue K} (hQ : QSorted Q) (x : P2 K) : QSorted (queueTouch Cmp.direct x Q) := by
  induction Q with
  | nil => simp [queueTouch, QSorted]
  | cons k Q ih =>
    obtain ⟨k, u⟩ := k
    have hQ' := List.pairwise_cons.mp hQ
    unfold queueTouch
    split_ifs with h1 h2
    · rw [lexCompare_lk] at h1
      refine List.pairwise_cons.mpr ⟨fun e he => ?_, ih hQ'.2⟩
      rcases (touch_mem hQ'.2 x e).mp he with he | he
      · exact hQ'.1 e he
      · rw [he.1]; exact h1
    · rw [lexCompare_lk] at h2
      refine List.pairwise_cons.mpr ⟨fun e he => ?_, hQ⟩
      rcases List.mem_cons.mp he with rfl | he
      · exact h2
      · exact h2.trans (hQ'.1 e he)
    · exact hQ

theorem touch_of_key {Q : EventQueue K} (hQ : QSorted Q) {x : P2 K} (h : IsKey Q x) :
    queueTouch Cmp.direct x Q = Q := by
  induction Q with
  | nil => obtain ⟨u, hu⟩ := h; simp at hu
  | cons k Q ih =>
    obtain ⟨k, u⟩ := k
    have hQ' := List.pairwise_cons.mp hQ
    obtain ⟨v, hv⟩ := h
    unfold queueTouch
    split_ifs with h1 h2
    · rw [lexCompare_lk] at h1
      rcases List.mem_cons.mp hv with hv | hv
      · rw [Prod.mk.injEq] at hv; rw [hv.1] at h1; exact absurd h1 (lt_irrefl _)
      · rw [ih hQ'.2 ⟨v, hv⟩]
    · rw [lexCompare_lk] at h2
      rcases List.mem_cons.mp hv with hv | hv
      · rw [Prod.mk.injEq] at hv; rw [hv.1] at h2; exact absurd h2 (lt_irrefl _)
      · exact absurd (hQ'.1 _ hv) (lt_asymm h2)
    · rfl

theorem touch_length (x : P2 K) (Q : EventQueue K) : (queueTouch Cmp.direct x Q).length ≤ Q.length + 1 := by
  induction Q with
  | nil => simp [queueTouch]
  | cons k Q ih =>
    obtain ⟨k, u⟩ := k
    unfold queueTouch
    split_ifs <;> simp only [List.length_cons] <;> omega

theorem insert_length (x : P2 K) (i : SweepItem K) (Q : EventQueue K) :
    (queueInsert Cmp.direct x i Q).length ≤ Q.length + 1 := by
  induction Q with
  | nil => simp [queueInsert]
  | cons k Q ih =>
    obtain ⟨k, u⟩ := k
    unfold queueInsert
    split_ifs <;> simp only [List.length_cons] <;> omega

theorem insert_mem {Q : EventQueue K} (hQ : QSorted Q) (x : P2 K) (i : SweepItem K) (e : P2 K × List (SweepItem K)) :
    e ∈ queueInsert Cmp.direct x i Q ↔ (e ∈ Q ∧ e.1 ≠ x) ∨
      (∃ u, (x, u) ∈ Q ∧ e = (x, if i ∈ u then u else u ++ [i])) ∨ ((∀ e' ∈ Q, e'.1 ≠ x) ∧ e = (x, [i])) := by
  induction Q with
  | nil => simp [queueInsert]
  | cons k Q ih =>
    obtain ⟨k, u⟩ := k
    have hQ' := List.pairwise_cons.mp hQ
    unfold queueInsert
    by_cases h1 : lexCompare Cmp.direct k x = true
    · rw [if_pos h1, List.mem_cons, ih hQ'.2]
      have hk : k ≠ x := fun h => by rw [lexCompare_lk, h] at h1; exact lt_irrefl _ h1
      simp only [List.mem_cons, Prod.mk.injEq, forall_eq_or_imp]
      constructor
      · rintro (rfl | h | ⟨v, h⟩ | h)
        · exact Or.inl ⟨Or.inl rfl, hk⟩
        · exact Or.inl ⟨Or.inr h.1, h.2⟩
        · exact Or.inr (Or.inl ⟨v, Or.inr h.1, h.2⟩)
        · exact Or.inr (Or.inr ⟨⟨hk, h.1⟩, h.2⟩)
      · rintro (⟨rfl | h, h'⟩ | ⟨v, h | h, h'⟩ | h)
        · exact Or.inl rfl
        · exact Or.inr (Or.inl ⟨h, h'⟩)
        · exact absurd h.1.symm hk
        · exact Or.inr (Or.inr (Or.inl ⟨v, h, h'⟩))
        · exact Or.inr (Or.inr (Or.inr ⟨h.1.2, h.2⟩))
    · rw [if_neg h1]
      by_cases h2 : lexCompare Cmp.direct x k = true
      · rw [if_pos h2]
        rw [lexCompare_lk] at h2
        have hall : ∀ e' ∈ ((k, u) :: Q : EventQueue K), e'.1 ≠ x := by
          intro e' he' h
          rcases List.mem_cons.mp he' with rfl | he'
          · rw [← h] at h2; exact lt_irrefl _ h2
          · have := hQ'.1 e' he'; rw [h] at this; exact lt_asymm h2 this
        rw [List.mem_cons]
        constructor
        · rintro (h | h)
          · exact Or.inr (Or.inr ⟨hall, h⟩)
          · exact Or.inl ⟨h, hall e h⟩
        · rintro (h | ⟨v, h, -⟩ | h)
          · exact Or.inr h.1
          · exact absurd rfl (hall _ h)
          · exact Or.inl h.2
      · rw [if_neg h2]
        rw [lexCompare_lk] at h1 h2
        have hk : k = x := lk_inj (le_antisymm (not_lt.mp h2) (not_lt.mp h1))
        subst hk
        have hall : ∀ e' ∈ Q, e'.1 ≠ k := by
          intro e' he' h
          have := hQ'.1 e' he'; rw [h] at this; exact lt_irrefl _ this
        simp only [List.mem_cons]
        constructor
        · rintro (h | h)
          · exact Or.inr (Or.inl ⟨u, Or.inl rfl, h⟩)
          · exact Or.inl ⟨Or.inr h, hall e h⟩
        · rintro (⟨rfl | h, h'⟩ | ⟨v, h | h, h'⟩ | h)
          · exact absurd rfl h'
          · exact Or.inr h
          · rw [Prod.mk.injEq] at h; rw [h.2] at h'; exact Or.inl h'
          · exact absurd rfl (hall _ h)
          · exact absurd rfl (h.1 _ (Or.inl rfl))

theorem insert_sorted {Q : EventQueue K} (hQ : QSorted Q) (x : P2 K) (i : SweepItem K) :
    QSorted (queueInsert Cmp.direct x i Q) := by
  induction Q with
  | nil => simp [queueInsert, QSorted]
  | cons k Q ih =>
    obtain ⟨k, u⟩ := k
    have hQ' := List.pairwise_cons.mp hQ
    unfold queueInsert
    by_cases h1 : lexCompare Cmp.direct k x = true
    · rw [if_pos h1]
      rw [lexCompare_lk] at h1
      refine List.pairwise_cons.mpr ⟨fun e he => ?_, ih hQ'.2⟩
      rcases (insert_mem hQ'.2 x i e).mp he with he | ⟨v, -, he⟩ | he
      · exact hQ'.1 e he.1
      · rw [he]; exact h1
      · rw [he.2]; exact h1
    · rw [if_neg h1]
      by_cases h2 : lexCompare Cmp.direct x k = true
      · rw [if_pos h2]
        rw [lexCompare_lk] at h2
        refine List.pairwise_cons.mpr ⟨fun e he => ?_, hQ⟩
        rcases List.mem_cons.mp he with rfl | he
        · exact h2
        · exact h2.trans (hQ'.1 e he)
      · rw [if_neg h2]
        exact List.pairwise_cons.mpr ⟨hQ'.1, hQ'.2⟩

/-- What the queue is once the items of a list are in it. -/
structure QueueBuilt (done : List (SweepItem K)) (Q : EventQueue K) : Prop where
  sorted : QSorted Q
  key : ∀ e ∈ Q, ∃ i ∈ done, e.1 = i.seg.s ∨ e.1 = i.seg.e
  start : ∀ i ∈ done, IsKey Q i.seg.s
  stop : ∀ i ∈ done, IsKey Q i.seg.e
  items : ∀ e ∈ Q, ∀ x, x ∈ e.2 ↔ x ∈ done ∧ x.seg.s = e.1
  short : Q.length ≤ 2 * done.length

theorem built_insert {done : List (SweepItem K)} {Q : EventQueue K} (h : QueueBuilt done Q) (i : SweepItem K) :
    QueueBuilt (done ++ [i]) (queueTouch Cmp.direct i.seg.e (queueInsert Cmp.direct i.seg.s i Q)) := by
  have hs := insert_sorted h.sorted i.seg.s i
  have hm := insert_mem h.sorted i.seg.s i
  have ht := touch_mem hs i.seg.e
  -- the keys of the queue after the insertion
  have hk : ∀ k, IsKey Q k → IsKey (queueInsert Cmp.direct i.seg.s i Q) k := by
    rintro k ⟨u, hu⟩
    by_cases hki : k = i.seg.s
    · subst hki; exact ⟨_, (hm _).mpr (Or.inr (Or.inl ⟨u, hu, rfl⟩))⟩
    · exact ⟨u, (hm _).mpr (Or.inl ⟨hu, hki⟩)⟩
  have hki : IsKey (queueInsert Cmp.direct i.seg.s i Q) i.seg.s := by
    by_cases hex : ∃ u, (i.seg.s, u) ∈ Q
    · exact hk _ hex
    · exact ⟨_, (hm _).mpr (Or.inr (Or.inr ⟨fun e' he' he => hex ⟨e'.2, by rw [← he]; exact he'⟩, rfl⟩))⟩
  have hk2 : ∀ k, IsKey (queueInsert Cmp.direct i.seg.s i Q) k →
      IsKey (queueTouch Cmp.direct i.seg.e (queueInsert Cmp.direct i.seg.s i Q)) k := by
    rintro k ⟨u, hu⟩
    exact ⟨u, (ht _).mpr (Or.inl hu)⟩
  have hke : IsKey (queueTouch Cmp.direct i.seg.e (queueInsert Cmp.direct i.seg.s i Q)) i.seg.e := by
    by_cases hex : ∃ u, (i.seg.e, u) ∈ queueInsert Cmp.direct i.seg.s i Q
    · exact hk2 _ hex
    · exact ⟨[], (ht _).mpr (Or.inr ⟨rfl, fun e' he' he => hex ⟨e'.2, by rw [← he]; exact he'⟩⟩)⟩
  have hins : ∀ e ∈ queueInsert Cmp.direct i.seg.s i Q, (∃ j ∈ done ++ [i], e.1 = j.seg.s ∨ e.1 = j.seg.e) ∧
      ∀ x, x ∈ e.2 ↔ x ∈ done ++ [i] ∧ x.seg.s = e.1 := by
    intro e he
    rcases (hm e).mp he with ⟨h1, h2⟩ | ⟨u, h1, rfl⟩ | ⟨h1, rfl⟩
    · obtain ⟨j, hj, hje⟩ := h.key e h1
      refine ⟨⟨j, by simp [hj], hje⟩, fun x => ?_⟩
      rw [h.items e h1 x, List.mem_append, List.mem_singleton]
      constructor
      · exact fun hx => ⟨Or.inl hx.1, hx.2⟩
      · rintro ⟨hx | rfl, hx'⟩
        · exact ⟨hx, hx'⟩
        · exact absurd hx'.symm h2
    · refine ⟨⟨i, by simp, Or.inl rfl⟩, fun x => ?_⟩
      have := h.items _ h1
      simp only at this
      rw [List.mem_append, List.mem_singleton]
      split_ifs with hiu
      · rw [this]
        constructor
        · exact fun hx => ⟨Or.inl hx.1, hx.2⟩
        · rintro ⟨hx | rfl, hx'⟩
          · exact ⟨hx, hx'⟩
          · exact (this x).mp hiu
      · rw [List.mem_append, List.mem_singleton, this]
        constructor
        · rintro (hx | rfl)
          · exact ⟨Or.inl hx.1, hx.2⟩
          · exact ⟨Or.inr rfl, rfl⟩
        · rintro ⟨hx | rfl, hx'⟩
          · exact Or.inl ⟨hx, hx'⟩
          · exact Or.inr rfl
    · refine ⟨⟨i, by simp, Or.inl rfl⟩, fun x => ?_⟩
      simp only [List.mem_singleton, List.mem_append]
      constructor
      · rintro rfl; exact ⟨Or.inr rfl, rfl⟩
      · rintro ⟨hx | rfl, hx'⟩
        · obtain ⟨u, hu⟩ := h.start x hx
          exact absurd hx' (h1 _ hu)
        · rfl
  refine ⟨touch_sorted hs _, fun e he => ?_, fun j hj => ?_, fun j hj => ?_, fun e he x => ?_, ?_⟩
  · rcases (ht e).mp he with he | ⟨rfl, -⟩
    · exact (hins e he).1
    · exact ⟨i, by simp, Or.inr rfl⟩
  · rcases List.mem_append.mp hj with hj | hj
    · exact hk2 _ (hk _ (h.start j hj))
    · rw [List.mem_singleton.mp hj]; exact hk2 _ hki
  · rcases List.mem_append.mp hj with hj | hj
    · exact hk2 _ (hk _ (h.stop j hj))
    · rw [List.mem_singleton.mp hj]; exact hke
  · rcases (ht e).mp he with he | ⟨rfl, hne⟩
    · exact (hins e he).2 x
    · simp only [List.not_mem_nil, false_iff, not_and]
      intro hx hxe
      have : IsKey (queueInsert Cmp.direct i.seg.s i Q) x.seg.s := by
        rcases List.mem_append.mp hx with hx | hx
        · exact hk _ (h.start x hx)
        · rw [List.mem_singleton.mp hx]; exact hki
      obtain ⟨u, hu⟩ := this
      exact hne _ hu hxe
  · have h1 := touch_length i.seg.e (queueInsert Cmp.direct i.seg.s i Q)
    have h2 := insert_length i.seg.s i Q
    have h3 := h.short
    simp only [List.length_append, List.length_singleton]
    omega

theorem built_all (rest done : List (SweepItem K)) (Q : EventQueue K) (h : QueueBuilt done Q) :
    QueueBuilt (done ++ rest) (buildQueue Cmp.direct rest Q) := by
  induction rest generalizing done Q with
  | nil => simpa [buildQueue] using h
  | cons i rest ih =>
    have := ih _ _ (built_insert h i)
    simpa [buildQueue] using this

theorem buildQueue_built (items : List (SweepItem K)) : QueueBuilt items (buildQueue Cmp.direct items []) := by
  have := built_all items [] [] ⟨List.Pairwise.nil, by simp, by simp, by simp, by simp, by simp⟩
  simpa using this

/-- The queue grows by events at which `P` holds. -/
structure Grows (P : P2 K → Prop) (Q Q' : EventQueue K) : Prop where
  sorted : QSorted Q'
  keep : ∀ e ∈ Q, e ∈ Q'
  new : ∀ e ∈ Q', e ∈ Q ∨ (e.2 = [] ∧ P e.1 ∧ ∀ e' ∈ Q, e'.1 ≠ e.1)

theorem Grows.refl {P : P2 K → Prop} {Q : EventQueue K} (h : QSorted Q) : Grows P Q Q :=
  ⟨h, fun _ he => he, fun _ he => Or.inl he⟩

theorem Grows.trans {P : P2 K → Prop} {Q Q' Q'' : EventQueue K} (h1 : Grows P Q Q') (h2 : Grows P Q' Q'') :
    Grows P Q Q'' := by
  refine ⟨h2.sorted, fun e he => h2.keep e (h1.keep e he), fun e he => ?_⟩
  rcases h2.new e he with he | ⟨a, b, c⟩
  · exact h1.new e he
  · exact Or.inr ⟨a, b, fun e' he' => c e' (h1.keep e' he')⟩

theorem Grows.key {P : P2 K → Prop} {Q Q' : EventQueue K} (h : Grows P Q Q') {x : P2 K} (hx : IsKey Q x) :
    IsKey Q' x := by
  obtain ⟨u, hu⟩ := hx; exact ⟨u, h.keep _ hu⟩

theorem grows_touch {P : P2 K → Prop} {Q : EventQueue K} (h : QSorted Q) {x : P2 K} (hx : P x) :
    Grows P Q (queueTouch Cmp.direct x Q) := by
  refine ⟨touch_sorted h x, fun e he => (touch_mem h x e).mpr (Or.inl he), fun e he => ?_⟩
  rcases (touch_mem h x e).mp he with he | ⟨rfl, hn⟩
  · exact Or.inl he
  · exact Or.inr ⟨rfl, hx, hn⟩

theorem isKey_touch {Q : EventQueue K} (h : QSorted Q) (x : P2 K) : IsKey (queueTouch Cmp.direct x Q) x := by
  by_cases hex : ∃ u, (x, u) ∈ Q
  · obtain ⟨u, hu⟩ := hex
    exact ⟨u, (touch_mem h x _).mpr (Or.inl hu)⟩
  · exact ⟨[], (touch_mem h x _).mpr (Or.inr ⟨rfl, fun e' he' he => hex ⟨e'.2, by rw [← he]; exact he'⟩⟩)⟩

theorem xDenom_spread (s t : Seg K) : xDenom s.s s.e t.s t.e = - spread s t := by
  unfold xDenom spread cross
  simp only [P2.sub_x, P2.sub_y]
  ring

/-- The first of the points is an end of a segment. -/
def FirstEnd (A B C D : P2 K) (r : IType × List (P2 K)) : Prop :=
  r.1 ≠ .nonCrossing → ∃ x rest, r.2 = x :: rest ∧ (x = A ∨ x = B ∨ x = C ∨ x = D)

theorem firstEnd_ite {A B C D : P2 K} {c : Prop} [Decidable c] {r r' : IType × List (P2 K)}
    (h : FirstEnd A B C D r) (h' : FirstEnd A B C D r') : FirstEnd A B C D (if c then r else r') := by
  split_ifs <;> assumption

/-- The first point for parallel segments is an end. -/
theorem parallel_head (cmp : Cmp K) {A B C D : P2 K} {r : IType} {pts : List (P2 K)}
    (e : parallelIntersection cmp A B C D = (r, pts)) (hr : r ≠ .nonCrossing) :
    ∃ x rest, pts = x :: rest ∧ (x = A ∨ x = B ∨ x = C ∨ x = D) := by
  have key : FirstEnd A B C D (parallelIntersection cmp A B C D) := by
    unfold parallelIntersection
    dsimp only
    have h0 : FirstEnd A B C D (.nonCrossing, []) := fun h => absurd rfl h
    refine firstEnd_ite h0 (firstEnd_ite ?_ (firstEnd_ite ?_ (firstEnd_ite ?_ (firstEnd_ite ?_ (firstEnd_ite ?_
      (firstEnd_ite ?_ (firstEnd_ite ?_ (firstEnd_ite ?_ (firstEnd_ite ?_ (firstEnd_ite ?_ (firstEnd_ite ?_ h0)))))))))))
      <;> exact fun _ => ⟨_, _, rfl, by simp⟩
  rw [e] at key
  exact key hr

theorem inside_of_on {A B P : P2 K} (h : OnSegment A B P) (hA : P ≠ A) (hB : P ≠ B) : InsideSegment A B P := by
  obtain ⟨t, h0, h1, e⟩ := h
  refine ⟨t, h0.lt_of_ne ?_, h1.lt_of_ne ?_, e⟩
  · rintro rfl; exact hA (by rw [e]; apply P2.ext <;> simp)
  · rintro rfl; exact hB (by rw [e]; apply P2.ext <;> simp)

theorem answer_crossing {s t : Seg K} (hs : Rising s) {r : IType} {pts : List (P2 K)}
    (h : CorrectAnswer s.s s.e t.s t.e r pts) {P : P2 K} (hP : Crossing s t P) : r = .crossing ∨ r = .endpoint := by
  obtain ⟨h0, h1, h2⟩ := hP
  by_cases he : P = s.s ∨ P = s.e ∨ P = t.s ∨ P = t.e
  · right
    refine h.endpoint.mpr ⟨?_, P, ⟨h1, h2⟩, he⟩
    rw [parallel_iff_cross (sub_ne_zero_P2 (rising_ne hs))]; exact h0
  · left
    push Not at he
    exact h.crossing.mpr ⟨P, inside_of_on h1 he.1 he.2.1, inside_of_on h2 he.2.2.1 he.2.2.2,
      fun Q hQ => crossing_unique ⟨h0, hQ⟩ ⟨h0, h1, h2⟩⟩

/-- The point that the intersection of two segments gives first. -/
theorem segSeg_first {s t : Seg K} (hs : Rising s) (ht : Rising t) :
    ∃ r pts, segSegIntersection Cmp.direct s.s s.e t.s t.e = .ok (r, pts) ∧
      (r ≠ .nonCrossing → ∃ x rest, pts = x :: rest ∧
        ((x = s.s ∨ x = s.e ∨ x = t.s ∨ x = t.e) ∨ Crossing s t x)) ∧
      ∀ x, Crossing s t x → r ≠ .nonCrossing ∧ ∃ rest, pts = x :: rest := by
  obtain ⟨r, pts, e, h⟩ := C09_segment_segment s.s s.e t.s t.e (rising_ne hs) (rising_ne ht)
  refine ⟨r, pts, e, ?_, ?_⟩
  · intro hr
    by_cases h0 : spread s t = 0
    · have hd : Cmp.direct.equals (xDenom s.s s.e t.s t.e) 0 = true := by
        rw [direct_equals, xDenom_spread, h0, neg_zero]
      unfold segSegIntersection at e
      simp only at e
      rw [if_pos hd] at e
      injection e with e
      obtain ⟨x, rest, h1, h2⟩ := parallel_head _ e hr
      exact ⟨x, rest, h1, Or.inl h2⟩
    · have hex : ∃ P, Common s.s s.e t.s t.e P := by
        by_contra hc; exact hr (h.nonCrossing.mpr hc)
      obtain ⟨P, hP⟩ := hex
      obtain ⟨P', hp, hP'⟩ := h.point (answer_crossing hs h ⟨h0, hP⟩)
      exact ⟨P', [], hp, Or.inr ⟨h0, (hP' P').mpr rfl⟩⟩
  · intro x hx
    refine ⟨fun hr => h.nonCrossing.mp hr ⟨x, hx.2⟩, ?_⟩
    obtain ⟨P', hp, hP'⟩ := h.point (answer_crossing hs h hx)
    rw [(hP' x).mp hx.2]
    exact ⟨[], hp⟩

/-- What the search for a new event does to the queue. -/
theorem processNew_spec {cap : Nat} {q : P2 K} {a b : SweepItem K} {Q : EventQueue K} (ha : Rising a.seg)
    (hb : Rising b.seg) (hab : a.idx = b.idx → a = b) (hQ : QSorted Q) (hcap : Q.length ≤ cap)
    (as : lk a.seg.s ≤ lk q) (bs : lk b.seg.s ≤ lk q) (ae : IsKey Q a.seg.e) (be : IsKey Q b.seg.e) :
    (processNew Cmp.direct cap q a b Q = .error .outOfRange ∧
      ∃ Q', Grows (fun x => lk q < lk x ∧ Crossing a.seg b.seg x) Q Q' ∧ cap < Q'.length) ∨
    ∃ Q', processNew Cmp.direct cap q a b Q = .ok Q' ∧
      Grows (fun x => lk q < lk x ∧ Crossing a.seg b.seg x) Q Q' ∧ Q'.length ≤ cap ∧
      ∀ x, lk q < lk x → Crossing a.seg b.seg x → IsKey Q' x := by
  unfold processNew
  by_cases hi : a.idx = b.idx
  · right
    rw [if_pos hi]
    refine ⟨Q, rfl, Grows.refl hQ, hcap, fun x _ hx => ?_⟩
    rw [hab hi] at hx
    exact absurd (cross_self _) hx.1
  · rw [if_neg hi]
    obtain ⟨r, pts, e, h1, h2⟩ := segSeg_first ha hb
    rw [e]
    simp only
    by_cases hr : r = .nonCrossing
    · right
      rw [if_pos hr]
      exact ⟨Q, rfl, Grows.refl hQ, hcap, fun x _ hx => absurd hr (h2 x hx).1⟩
    · rw [if_neg hr]
      obtain ⟨x, rest, rfl, hx⟩ := h1 hr
      simp only
      have hc : (Cmp.direct.gt x.x q.x || (Cmp.direct.equals x.x q.x && Cmp.direct.gt x.y q.y)) = true ↔ lk q < lk x := by
        rw [lk_lt, Bool.or_eq_true, Bool.and_eq_true, direct_gt, direct_equals, direct_gt]
        exact or_congr Iff.rfl (and_congr eq_comm Iff.rfl)
      by_cases hg : lk q < lk x
      · rw [if_pos (hc.mpr hg)]
        rcases hx with hx | hx
        · have hk : IsKey Q x := by
            rcases hx with rfl | rfl | rfl | rfl
            · exact absurd hg (not_lt.mpr as)
            · exact ae
            · exact absurd hg (not_lt.mpr bs)
            · exact be
          right
          rw [touch_of_key hQ hk, if_pos hcap]
          refine ⟨Q, rfl, Grows.refl hQ, hcap, fun y _ hy => ?_⟩
          obtain ⟨rest', e'⟩ := (h2 y hy).2
          injection e' with e1 e2
          rw [← e1]; exact hk
        · have hgr : Grows (fun x => lk q < lk x ∧ Crossing a.seg b.seg x) Q (queueTouch Cmp.direct x Q) :=
            grows_touch hQ ⟨hg, hx⟩
          by_cases hl : (queueTouch Cmp.direct x Q).length ≤ cap
          · right
            rw [if_pos hl]
            refine ⟨_, rfl, hgr, hl, fun y _ hy => ?_⟩
            rw [crossing_unique hy hx]
            exact isKey_touch hQ x
          · left
            rw [if_neg hl]
            exact ⟨rfl, _, hgr, not_le.mp hl⟩
      · right
        rw [if_neg (fun h => hg (hc.mp h))]
        refine ⟨Q, rfl, Grows.refl hQ, hcap, fun y hy1 hy => ?_⟩
        obtain ⟨rest', e'⟩ := (h2 y hy).2
        injection e' with e1 e2
        rw [← e1] at hy1
        exact absurd hy1 hg

theorem firstPair_mem {uc T : List (SweepItem K)} {a b : SweepItem K} (h : firstPair uc T = some (a, b)) :
    a ∈ T ∧ b ∈ T := by
  induction T with
  | nil => simp [firstPair] at h
  | cons x T ih =>
    cases T with
    | nil => simp [firstPair] at h
    | cons y T =>
      unfold firstPair at h
      split_ifs at h with h1
      · injection h with h; injection h with h2 h3; subst h2; subst h3; simp
      · obtain ⟨h2, h3⟩ := ih h
        exact ⟨List.mem_cons_of_mem _ h2, List.mem_cons_of_mem _ h3⟩

theorem firstPair_spec {uc : List (SweepItem K)} (T0 : List (SweepItem K)) {a b : SweepItem K}
    (rest : List (SweepItem K)) (h0 : ∀ y ∈ T0, y ∉ uc) (ha : a ∉ uc) (hb : b ∈ uc) :
    firstPair uc (T0 ++ a :: b :: rest) = some (a, b) := by
  induction T0 with
  | nil => simp [firstPair, hb]
  | cons x T0 ih =>
    have := ih fun y hy => h0 y (by simp [hy])
    cases T0 with
    | nil => simp only [List.cons_append, List.nil_append] at this ⊢; rw [firstPair, if_neg ha]; exact this
    | cons z T0 =>
      simp only [List.cons_append] at this ⊢
      rw [firstPair, if_neg (h0 z (by simp))]
      exact this

end Geometrix
