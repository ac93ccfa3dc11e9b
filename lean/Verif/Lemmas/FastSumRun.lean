import Verif.Lemmas.FastSum

/-!
All the steps of a sum of two expansions, and nearly nonadjacent expansions as they are specified.
-/

set_option linter.unusedSectionVars false

namespace Geometrix

open Spec

variable {K : Type*} [Field K] [LinearOrder K] [IsStrictOrderedRing K] [FloorRing K]

theorem Spec.HalfBelow.err {p : Nat} (hp : 1 ≤ p) {a x : K} (h : HalfBelow a x) : HalfBelow a (x - roundBits p x) := by
  obtain ⟨e, h1, h2⟩ := h
  exact ⟨e, h1.sub (h1.round hp), h2⟩

theorem Spec.WellBelow.err {p : Nat} (hp : 1 ≤ p) {a x : K} (h : WellBelow a x) : WellBelow a (x - roundBits p x) := by
  obtain ⟨e, h1, h2⟩ := h
  exact ⟨e, h1.sub (h1.round hp), h2⟩

theorem Spec.HalfBelow.round {p : Nat} (hp : 1 ≤ p) {a x : K} (h : HalfBelow a x) : HalfBelow a (roundBits p x) := by
  obtain ⟨e, h1, h2⟩ := h
  exact ⟨e, h1.round hp, h2⟩

theorem Spec.WellBelow.round {p : Nat} (hp : 1 ≤ p) {a x : K} (h : WellBelow a x) : WellBelow a (roundBits p x) := by
  obtain ⟨e, h1, h2⟩ := h
  exact ⟨e, h1.round hp, h2⟩

/-- What holds while two expansions are summed: `pe` and `pf` are used, `e` and `f` are left, `Q` is the sum so far and `hs` are
the rounding errors that are not zero, the last first. -/
structure FastInv (p : Nat) (pe e pf f : List K) (Q : K) (hs : List K) : Prop where
  fe : ∀ a ∈ pe ++ e, IsFloat p a ∧ a ≠ 0
  ff : ∀ a ∈ pf ++ f, IsFloat p a ∧ a ≠ 0
  fh : ∀ a ∈ hs, IsFloat p a ∧ a ≠ 0
  fq : IsFloat p Q
  ne : RevNear (pe ++ e).reverse
  nf : RevNear (pf ++ f).reverse
  nh : RevNear hs
  sorted : ∀ x ∈ pe ++ pf, ∀ y ∈ e ++ f, |x| ≤ |y|
  tot : Q + hs.sum = pe.sum + pf.sum
  below : ∀ h hs0, hs = h :: hs0 →
    ∀ y ∈ Q :: (e ++ f), HalfBelow h y ∧ (WellBelow h y ∨ ∀ z ∈ hs0.head?, WellBelow z h)
  last : ∀ h hs0, hs = h :: hs0 → ∃ u Q' pe' me pf' mf, LastErr p pe pf Q h hs.sum u Q' pe' me pf' mf

theorem FastInv.swap {p : Nat} {pe e pf f : List K} {Q : K} {hs : List K} (i : FastInv p pe e pf f Q hs) :
    FastInv p pf f pe e Q hs where
  fe := i.ff
  ff := i.fe
  fh := i.fh
  fq := i.fq
  ne := i.nf
  nf := i.ne
  nh := i.nh
  sorted := fun x hx y hy => i.sorted x (by simp at hx ⊢; tauto) y (by simp at hy ⊢; tauto)
  tot := by rw [i.tot]; ring
  below := fun h hs0 heq y hy => i.below h hs0 heq y (by simp at hy ⊢; tauto)
  last := fun h hs0 heq => by
    obtain ⟨u, Q', pe', me, pf', mf, d⟩ := i.last h hs0 heq
    exact ⟨u, Q', pf', mf, pe', me, d.swap⟩

theorem FastInv.hist {p : Nat} {pe e pf f : List K} {Q : K} {hs : List K} (i : FastInv p pe e pf f Q hs) :
    hs.sum = 0 ∨ ∃ h u Q' pe' me pf' mf, LastErr p pe pf Q h hs.sum u Q' pe' me pf' mf := by
  rcases hs with _ | ⟨h, hs0⟩
  · left; rfl
  · right
    exact ⟨h, i.last h hs0 rfl⟩

/-- One step without a rounding error. -/
theorem FastInv.step_exact {p : Nat} (hp : 6 ≤ p) {pe e pf f : List K} {Q g : K} {hs : List K}
    (i : FastInv p pe (g :: e) pf f Q hs) (hg : ∀ y ∈ e ++ f, |g| ≤ |y|) (h0 : roundBits p (Q + g) = Q + g) :
    FastInv p (pe ++ [g]) e pf f (Q + g) hs where
  fe := fun a ha => i.fe a (by simpa using ha)
  ff := i.ff
  fh := i.fh
  fq := by rw [← h0]; exact roundBits_isFloat (by omega) _
  ne := by simpa using i.ne
  nf := i.nf
  nh := i.nh
  sorted := by
    intro x hx y hy
    by_cases hxg : x = g
    · rw [hxg]; exact hg y hy
    · exact i.sorted x (by simp at hx ⊢; tauto) y (by simp at hy ⊢; tauto)
  tot := by
    rw [List.sum_append, List.sum_singleton]
    linear_combination i.tot
  below := by
    intro h hs0 heq y hy
    rcases List.mem_cons.1 hy with rfl | hy
    · obtain ⟨a1, a2⟩ := i.below h hs0 heq Q (by simp)
      obtain ⟨b1, b2⟩ := i.below h hs0 heq g (by simp)
      refine ⟨a1.add b1, ?_⟩
      rcases a2 with a2 | a2
      · rcases b2 with b2 | b2
        · exact Or.inl (a2.add b2)
        · exact Or.inr b2
      · exact Or.inr a2
    · exact i.below h hs0 heq y (by simp at hy ⊢; tauto)
  last := by
    intro h hs0 heq
    obtain ⟨u, Q', pe', me, pf', mf, d⟩ := i.last h hs0 heq
    refine ⟨u, Q', pe', me ++ [g], pf', mf, ?_, d.epf, ?_, d.tot, d.big, d.grid, d.err, d.tie, d.hsum, ?_⟩
    · rw [d.epe, List.append_assoc]
    · rw [d.qsum, List.sum_append, List.sum_singleton]; ring
    · intro x hx y hy
      by_cases hyg : y = g
      · rw [hyg]
        refine i.sorted x ?_ g (by simp)
        rw [d.epe, d.epf]
        simp at hx ⊢
        tauto
      · exact d.sorted x hx y (by simp at hy ⊢; tauto)

theorem onGrid_of_abs {e : ℤ} {x : K} (h : OnGrid e |x|) : OnGrid e x := by
  rcases abs_choice x with h' | h'
  · rwa [h'] at h
  · rw [h'] at h
    simpa using h.neg

/-- One step with a rounding error. -/
theorem FastInv.step_err {p : Nat} (hp : 6 ≤ p) {pe e pf f : List K} {Q g : K} {hs : List K}
    (i : FastInv p pe (g :: e) pf f Q hs) (hg : ∀ y ∈ e ++ f, |g| ≤ |y|) (h0 : Q + g - roundBits p (Q + g) ≠ 0) :
    FastInv p (pe ++ [g]) e pf f (roundBits p (Q + g)) ((Q + g - roundBits p (Q + g)) :: hs) := by
  have hp1 : 1 ≤ p := by omega
  obtain ⟨fg, g0⟩ := i.fe g (by simp)
  have hx0 : Q + g ≠ 0 := by
    intro h
    have hr : roundBits p (0 : K) = 0 := (isFloat_zero p).round hp1
    rw [h, hr, sub_zero] at h0
    exact h0 rfl
  have ferr := sum_err_isFloat hp1 i.fq fg
  have fh' : ∀ a ∈ (Q + g - roundBits p (Q + g)) :: hs, IsFloat p a ∧ a ≠ 0 := by
    intro a ha
    rcases List.mem_cons.1 ha with rfl | ha
    · exact ⟨ferr, h0⟩
    · exact i.fh a ha
  have nh' : RevNear ((Q + g - roundBits p (Q + g)) :: hs) := by
    rcases hs with _ | ⟨h, hs0⟩
    · trivial
    · obtain ⟨a1, a2⟩ := i.below h hs0 rfl Q (by simp)
      obtain ⟨b1, b2⟩ := i.below h hs0 rfl g (by simp)
      refine ⟨(a1.add b1).err hp1, ?_, i.nh⟩
      rcases a2 with a2 | a2
      · rcases b2 with b2 | b2
        · exact Or.inl ((a2.add b2).err hp1)
        · exact Or.inr b2
      · exact Or.inr a2
  refine ⟨fun a ha => i.fe a (by simpa using ha), i.ff, fh', roundBits_isFloat hp1 _, by simpa using i.ne, i.nf, nh', ?_, ?_, ?_, ?_⟩
  · intro x hx y hy
    by_cases hxg : x = g
    · rw [hxg]; exact hg y hy
    · exact i.sorted x (by simp at hx ⊢; tauto) y (by simp at hy ⊢; tauto)
  · rw [List.sum_append, List.sum_singleton, List.sum_cons]
    linear_combination i.tot
  · intro h hs0 heq y hy
    rw [List.cons.injEq] at heq
    obtain ⟨rfl, rfl⟩ := heq
    rcases List.mem_cons.1 hy with rfl | hy
    · have := roundBits_wellBelow hp1 (Q + g)
      exact ⟨this.halfBelow, Or.inl this⟩
    rcases List.mem_append.1 hy with hye | hyf
    · -- a later component of the same expansion
      obtain ⟨m1, m2, rfl⟩ := List.append_of_mem hye
      have ne := i.ne
      have fe := i.fe
      have e1 : (pe ++ g :: (m1 ++ y :: m2)).reverse = m2.reverse ++ (y :: (m1.reverse ++ g :: pe.reverse)) := by simp
      rw [e1] at ne
      obtain ⟨ly, hl, -⟩ := (fe y (by simp)).1.exists_low (fe y (by simp)).2
      have := key_same hp i.hist i.tot (RevNear.drop _ ne) (fun a ha => fe a (by simp at ha ⊢; tauto))
        (RevNear.drop f.reverse (by rw [← List.reverse_append]; exact i.nf)) (fun a ha => i.ff a (by simp [ha]))
        (fun a ha => i.sorted a (by simp [ha]) g (by simp)) hl
      have hw : WellBelow (Q + g - roundBits p (Q + g)) y := ⟨ly, hl.1, this⟩
      exact ⟨hw.halfBelow, Or.inl hw⟩
    · -- a later component of the other expansion
      obtain ⟨m1, m2, rfl⟩ := List.append_of_mem hyf
      have nf := i.nf
      have ff := i.ff
      have e1 : (pf ++ (m1 ++ y :: m2)).reverse = m2.reverse ++ (y :: (m1.reverse ++ pf.reverse)) := by simp
      rw [e1] at nf
      have ne := i.ne
      have e2 : (pe ++ g :: e).reverse = e.reverse ++ g :: pe.reverse := by simp
      rw [e2] at ne
      obtain ⟨ly, hl, -⟩ := (ff y (by simp)).1.exists_low (ff y (by simp)).2
      have i' := i.swap
      obtain ⟨k1, k2⟩ := key_other hp i'.hist i.fq i'.tot (RevNear.drop _ nf) (fun a ha => ff a (by simp at ha ⊢; tauto))
        (RevNear.drop _ ne) (fun a ha => i.fe a (by simp at ha ⊢; tauto)) (hg y (by simp)) hl
      refine ⟨⟨ly, hl.1, k1⟩, ?_⟩
      rcases k1.lt_or_eq with k1 | k1
      · exact Or.inl ⟨ly, hl.1, k1⟩
      · right
        intro z hz
        rcases hs with _ | ⟨z', hs0⟩
        · simp at hz
        · simp only [List.head?_cons, Option.mem_def, Option.some.injEq] at hz
          subst hz
          obtain ⟨u, Q', pe', me, pf', mf, d⟩ := i'.last z' hs0 rfl
          refine ⟨ly - 1, onGrid_of_abs (by rw [k1]; exact onGrid_pow le_rfl), k2 k1 _ _ _ _ _ _ _ d⟩
  · intro h hs0 heq
    rw [List.cons.injEq] at heq
    obtain ⟨rfl, rfl⟩ := heq
    obtain ⟨u, k1, k2, k3, k4, k5, k6, k7⟩ := roundBits_spec hp1 hx0
    refine ⟨u, roundBits p (Q + g), pe ++ [g], [], pf, [], by simp, by simp, by simp, ?_, k6, k3, k4, k5, ?_, by simp⟩
    · rw [List.sum_append, List.sum_singleton, List.sum_cons]
      linear_combination i.tot
    · have := nh'.sum_le fh'
      rw [List.sum_cons]
      rw [two_zpow_pred] at k4
      have := abs_add_le (Q + g - roundBits p (Q + g)) hs.sum
      linarith

/-- The errors and the final sum when the components of `g` are added one after the other. -/
def sumErr (p : Nat) : K → List K → List K
  | Q, [] => [Q]
  | Q, g :: l => (Q + g - roundBits p (Q + g)) :: sumErr p (roundBits p (Q + g)) l

/-- `g` takes the components of `e` and of `f` in some order. -/
inductive Merge : List K → List K → List K → Prop
  | nil : Merge [] [] []
  | left {e f g : List K} (x : K) : Merge e f g → Merge (x :: e) f (x :: g)
  | right {e f g : List K} (x : K) : Merge e f g → Merge e (x :: f) (x :: g)

theorem Merge.mem {e f g : List K} (h : Merge e f g) : ∀ a, a ∈ g ↔ a ∈ e ++ f := by
  induction h with
  | nil => simp
  | left x _ ih => intro a; simp [ih]
  | right x _ ih => intro a; simp [ih]; tauto

theorem FastInv.run {p : Nat} (hp : 6 ≤ p) : ∀ (g e f pe pf : List K) (Q : K) (hs : List K), Merge e f g →
    g.Pairwise (fun x y => |x| ≤ |y|) → FastInv p pe e pf f Q hs → ∃ hs' Q', FastInv p (pe ++ e) [] (pf ++ f) [] Q' hs' ∧
      (sumErr p Q g).filter (· ≠ 0) = ((Q' :: (hs'.take (hs'.length - hs.length))).filter (· ≠ 0)).reverse ∧
      hs <:+ hs' := by
  intro g
  induction g with
  | nil =>
    intro e f pe pf Q hs hm _ i
    cases hm
    refine ⟨hs, Q, by simpa using i, ?_, List.suffix_refl _⟩
    simp only [sumErr, Nat.sub_self, List.take_zero]
    by_cases hQ : Q = 0 <;> simp [hQ]
  | cons x g ih =>
    intro e f pe pf Q hs hm hp' i
    rw [List.pairwise_cons] at hp'
    have hp1 : 1 ≤ p := by omega
    -- the rest of the argument from the state after the step
    have fin : ∀ (e' f' pe' pf' : List K), Merge e' f' g →
        FastInv p pe' e' pf' f' (roundBits p (Q + x))
          (if Q + x - roundBits p (Q + x) = 0 then hs else (Q + x - roundBits p (Q + x)) :: hs) →
        ∃ hs' Q', FastInv p (pe' ++ e') [] (pf' ++ f') [] Q' hs' ∧
          (sumErr p Q (x :: g)).filter (· ≠ 0) = ((Q' :: (hs'.take (hs'.length - hs.length))).filter (· ≠ 0)).reverse ∧
          hs <:+ hs' := by
      intro e' f' pe' pf' hm' i'
      obtain ⟨hs', Q', j1, j2, j3⟩ := ih e' f' pe' pf' _ _ hm' hp'.2 i'
      refine ⟨hs', Q', j1, ?_, ?_⟩
      · rw [sumErr]
        by_cases h0 : Q + x - roundBits p (Q + x) = 0
        · rw [if_pos h0] at j2
          rw [h0]
          simpa using j2
        · rw [if_neg h0] at j2 j3
          rw [List.filter_cons_of_pos (by simpa using h0), j2]
          obtain ⟨t, ht⟩ := j3
          rw [← ht]
          have e1 : (t ++ (Q + x - roundBits p (Q + x)) :: hs).length - ((Q + x - roundBits p (Q + x)) :: hs).length = t.length := by
            simp
          have e2 : (t ++ (Q + x - roundBits p (Q + x)) :: hs).length - hs.length = t.length + 1 := by
            simp; omega
          rw [e1, e2, List.take_left' rfl, List.take_append]
          have e3 : (t.length + 1 - t.length) = 1 := by omega
          rw [List.take_of_length_le (by omega), e3]
          simp only [List.take_succ_cons, List.take_zero]
          rw [← List.cons_append, List.filter_append, List.reverse_append]
          have e4 : List.filter (fun x => decide (x ≠ 0)) [Q + x - roundBits p (Q + x)] = [Q + x - roundBits p (Q + x)] := by
            simp [h0]
          rw [e4]
          rfl
      · by_cases h0 : Q + x - roundBits p (Q + x) = 0
        · rwa [if_pos h0] at j3
        · rw [if_neg h0] at j3
          exact (List.suffix_cons _ _).trans j3
    have stp : ∀ {pe e pf f : List K}, FastInv p pe (x :: e) pf f Q hs → (∀ y ∈ e ++ f, |x| ≤ |y|) →
        FastInv p (pe ++ [x]) e pf f (roundBits p (Q + x))
          (if Q + x - roundBits p (Q + x) = 0 then hs else (Q + x - roundBits p (Q + x)) :: hs) := by
      intro pe e pf f i hx
      by_cases h0 : Q + x - roundBits p (Q + x) = 0
      · rw [if_pos h0]
        have h1 : roundBits p (Q + x) = Q + x := by linear_combination -h0
        have := i.step_exact hp hx h1
        rwa [← h1] at this
      · rw [if_neg h0]
        exact i.step_err hp hx h0
    cases hm with
    | @left e _ _ _ hm =>
      have := fin e f (pe ++ [x]) pf hm (stp i fun y hy => hp'.1 y ((hm.mem y).2 hy))
      simpa using this
    | @right _ f _ _ hm =>
      have := fin e f pe (pf ++ [x]) hm (stp i.swap fun y hy => hp'.1 y ((hm.mem y).2 (by simp at hy ⊢; tauto))).swap
      simpa using this

theorem Spec.NearlyNonadjacent.rev {l : List K} (h : NearlyNonadjacent l) : RevNear (l.filter (· ≠ 0)).reverse := by
  refine revNear_of_pairwise _ (List.pairwise_reverse.2 h.halfBelow) fun a b c hs => h.lonely a b c ?_
  have := hs.reverse
  simpa using this

theorem nearlyNonadjacent_of_rev {p : Nat} {l : List K} (h : RevNear (l.filter (· ≠ 0)).reverse) (hf : ∀ a ∈ l, IsFloat p a) :
    NearlyNonadjacent l := by
  have hf' : ∀ a ∈ (l.filter (· ≠ 0)).reverse, IsFloat p a ∧ a ≠ 0 := by
    intro a ha
    simp at ha
    exact ⟨hf a ha.1, ha.2⟩
  refine ⟨List.pairwise_reverse.1 (h.pairwise _ hf'), fun a b c hs => h.lonely _ hf' a b c ?_⟩
  have := hs.reverse
  simpa using this

/-- The errors and the sum, when two nearly nonadjacent expansions without zeros are summed. -/
theorem sumErr_near {p : Nat} (hp : 6 ≤ p) {e f g : List K} (hm : Merge e f g) (hs : g.Pairwise (fun x y => |x| ≤ |y|))
    (fe : ∀ a ∈ e, IsFloat p a ∧ a ≠ 0) (ff : ∀ a ∈ f, IsFloat p a ∧ a ≠ 0) (ne : RevNear e.reverse)
    (nf : RevNear f.reverse) : RevNear ((sumErr p 0 g).filter (· ≠ 0)).reverse := by
  have i : FastInv p [] e [] f (0 : K) [] :=
    ⟨by simpa using fe, by simpa using ff, by simp, isFloat_zero p, by simpa using ne, by simpa using nf, trivial, by simp,
      by simp, by simp, by simp⟩
  obtain ⟨hs', Q', j1, j2, j3⟩ := i.run hp g e f [] [] 0 [] hm hs
  rw [j2, List.reverse_reverse]
  simp only [List.length_nil, Nat.sub_zero, List.take_length]
  have hh : hs'.filter (· ≠ 0) = hs' := List.filter_eq_self.2 fun a ha => by simpa using (j1.fh a ha).2
  by_cases hQ : Q' = 0
  · rw [List.filter_cons_of_neg (by simpa using hQ), hh]
    exact j1.nh
  · rw [List.filter_cons_of_pos (by simpa using hQ), hh]
    rcases hs' with _ | ⟨h, hs0⟩
    · trivial
    · obtain ⟨a1, a2⟩ := j1.below h hs0 rfl Q' (by simp)
      exact ⟨a1, a2, j1.nh⟩

end Geometrix
