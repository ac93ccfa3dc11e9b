import Verif.Lemmas.GrahamScan

/-!
# What `find_lowest` of Graham's scan brings to the front
-/

set_option linter.unusedSectionVars false

namespace Geometrix

open Spec

variable {K : Type*} [Field K] [LinearOrder K] [IsStrictOrderedRing K]

def LowerThan (p q : P2 K) : Prop := p.y < q.y ∨ (p.y = q.y ∧ q.x < p.x)

theorem grahamLower_iff (p q : P2 K) : grahamLower Cmp.direct p q = true ↔ LowerThan p q := by
  simp only [grahamLower, direct_lt, direct_equals, direct_gt, LowerThan]
  simp

theorem lowerThan_trans {p q r : P2 K} (h1 : LowerThan p q) (h2 : LowerThan q r) : LowerThan p r := by
  unfold LowerThan at *
  rcases h1 with h1 | ⟨h1, h1'⟩ <;> rcases h2 with h2 | ⟨h2, h2'⟩
  · exact Or.inl (h1.trans h2)
  · exact Or.inl (by rw [← h2]; exact h1)
  · exact Or.inl (by rw [h1]; exact h2)
  · exact Or.inr ⟨h1.trans h2, h2'.trans h1'⟩

theorem lowerThan_of_not {p q r : P2 K} (h1 : LowerThan p q) (h2 : ¬ LowerThan r q) : LowerThan p r := by
  unfold LowerThan at *
  push Not at h2
  obtain ⟨h2, h3⟩ := h2
  rcases h1 with h1 | ⟨h1, h1'⟩
  · exact Or.inl (lt_of_lt_of_le h1 h2)
  · rcases eq_or_lt_of_le h2 with h | h
    · exact Or.inr ⟨h1.trans h, lt_of_le_of_lt (h3 h.symm) h1'⟩
    · exact Or.inl (by rw [h1]; exact h)

theorem lowerThan_asymm {p q : P2 K} (h1 : LowerThan p q) : ¬ LowerThan q p := by
  unfold LowerThan at *
  rintro (h2 | ⟨h2, h3⟩) <;> rcases h1 with h1 | ⟨h1, h1'⟩ <;> linarith

/-- The state of the loop after the points up to the index `k`. -/
def LowestInv (pts : List (P2 K)) (P : Nat → P2 K) (k : Nat) (st : List (P2 K) × Nat) : Prop :=
  st.2 ≤ k ∧ st.1.length = pts.length ∧ (∀ i, st.2 ≤ i → st.1[i]? = pts[i]?) ∧ (∀ i < st.2, LowerThan (P st.2) (P i)) ∧
    (∀ i, st.2 < i → i ≤ k → ¬ LowerThan (P i) (P st.2)) ∧
    (0 < st.2 → ∃ f < st.2, st.1[0]? = some (P f) ∧ ∀ i < st.2, ¬ LowerThan (P i) (P f))

theorem lowestInv_step {pts : List (P2 K)} {P : Nat → P2 K} (hP : ∀ i < pts.length, pts[i]? = some (P i)) {k : Nat}
    {st : List (P2 K) × Nat} (h : LowestInv pts P k st) (hk : k + 1 < pts.length) :
    LowestInv pts P (k + 1) (findLowestStep Cmp.direct st (k + 1)) := by
  obtain ⟨s, j⟩ := st
  obtain ⟨h1, h2, h3, h4, h5, h6⟩ := h
  simp only at h1 h2 h3 h4 h5 h6
  have ej : s[j]? = some (P j) := by rw [h3 j le_rfl, hP j (by omega)]
  have ek : s[k + 1]? = some (P (k + 1)) := by rw [h3 (k + 1) (by omega), hP (k + 1) hk]
  obtain ⟨first, e0, hfirst⟩ : ∃ first, s[0]? = some first ∧ (j = 0 → first = P 0) := by
    rcases Nat.eq_zero_or_pos j with hj | hj
    · subst hj; exact ⟨P 0, ej, fun _ => rfl⟩
    · obtain ⟨f, -, hf, -⟩ := h6 hj
      exact ⟨_, hf, fun h => absurd h (by omega)⟩
  unfold findLowestStep
  simp only [e0, ej, ek]
  by_cases hlow : LowerThan (P (k + 1)) (P j)
  · rw [if_pos ((grahamLower_iff _ _).2 hlow)]
    refine ⟨le_rfl, by simp [h2], ?_, ?_, ?_, ?_⟩
    · intro i hi
      simp only at hi ⊢
      rw [List.getElem?_set_ne (by omega), List.getElem?_set_ne (by omega)]
      exact h3 i (by omega)
    · intro i hi
      simp only at hi ⊢
      rcases lt_trichotomy i j with c | c | c
      · exact lowerThan_trans hlow (h4 i c)
      · rw [c]; exact hlow
      · exact lowerThan_of_not hlow (h5 i c (by omega))
    · intro i hi hi'
      simp only at hi
      omega
    · intro _
      simp only
      rcases Nat.eq_zero_or_pos j with hj | hj
      · subst hj
        refine ⟨0, by omega, ?_, ?_⟩
        · rw [hfirst rfl, List.getElem?_set_self (by simp; omega)]
        · intro i hi
          rcases Nat.eq_zero_or_pos i with c | c
          · rw [c]; exact fun h => lowerThan_asymm h h
          · exact h5 i c (by omega)
      · refine ⟨j, by omega, ?_, ?_⟩
        · rw [List.getElem?_set_ne (by omega), List.getElem?_set_self (by omega)]
        · intro i hi
          rcases lt_trichotomy i j with c | c | c
          · exact lowerThan_asymm (h4 i c)
          · rw [c]; exact fun h => lowerThan_asymm h h
          · exact h5 i c (by omega)
  · rw [if_neg (mt (grahamLower_iff _ _).1 hlow)]
    refine ⟨by simp only; omega, h2, h3, h4, ?_, h6⟩
    intro i hi hi'
    simp only at hi ⊢
    rcases Nat.lt_or_ge i (k + 1) with c | c
    · exact h5 i hi (by omega)
    · rw [show i = k + 1 by omega]; exact hlow

theorem lowestInv_all {pts : List (P2 K)} {P : Nat → P2 K} (hP : ∀ i < pts.length, pts[i]? = some (P i)) :
    ∀ k, k < pts.length → LowestInv pts P k ((List.range' 1 k).foldl (findLowestStep Cmp.direct) (pts, 0)) := by
  intro k
  induction k with
  | zero =>
    intro _
    refine ⟨le_rfl, rfl, fun _ _ => rfl, ?_, ?_, ?_⟩
    · intro i hi; simp at hi
    · intro i hi hi'; simp only [List.range'_zero, List.foldl_nil] at hi; omega
    · intro h; simp at h
  | succ k ih =>
    intro hk
    rw [List.range'_1_concat, List.foldl_append]
    simp only [List.foldl_cons, List.foldl_nil]
    rw [Nat.add_comm 1 k]
    exact lowestInv_step hP (ih (by omega)) hk

/-- If the lowest point is not the first one, the lowest of the points before it comes to the front. -/
theorem findLowest_front {A B : List (P2 K)} {f l : P2 K} (hf : f ∈ A) (hfA : ∀ p ∈ A, p = f ∨ LowerThan f p)
    (hA : ∀ p ∈ A, LowerThan l p) (hB : ∀ p ∈ B, ¬ LowerThan p l) : (findLowest Cmp.direct (A ++ l :: B)).head? = some f := by
  set pts := A ++ l :: B with hpts
  have hA0 : 0 < A.length := List.length_pos_of_mem hf
  have hlen : pts.length = A.length + B.length + 1 := by rw [hpts]; simp; omega
  set P : Nat → P2 K := fun i => pts.getD i l with hPdef
  have hP : ∀ i < pts.length, pts[i]? = some (P i) := by
    intro i hi
    rw [hPdef]
    simp only [List.getD_eq_getElem?_getD, List.getElem?_eq_getElem hi, Option.getD_some]
  have hPA : ∀ i < A.length, P i ∈ A := by
    intro i hi
    have := hP i (by omega)
    rw [hpts, List.getElem?_append_left hi] at this
    exact List.mem_of_getElem? this
  have hPl : P A.length = l := by
    have := hP A.length (by omega)
    rw [hpts, List.getElem?_append_right le_rfl] at this
    simpa using this.symm
  have hPB : ∀ i, A.length < i → i < pts.length → P i ∈ B := by
    intro i hi hi'
    have := hP i hi'
    rw [hpts, List.getElem?_append_right hi.le] at this
    obtain ⟨d, hd⟩ : ∃ d, i - A.length = d + 1 := ⟨i - A.length - 1, by omega⟩
    rw [hd, List.getElem?_cons_succ] at this
    exact List.mem_of_getElem? this
  unfold findLowest
  obtain ⟨h1, h2, h3, h4, h5, h6⟩ := lowestInv_all hP (pts.length - 1) (by omega)
  set st := (List.range' 1 (pts.length - 1)).foldl (findLowestStep Cmp.direct) (pts, 0) with hst
  have hj : st.2 = A.length := by
    rcases lt_trichotomy st.2 A.length with c | c | c
    · exact absurd (by rw [hPl]; exact hA _ (hPA _ c)) (h5 A.length c (by omega))
    · exact c
    · exact absurd (by rw [← hPl]; exact h4 _ c) (hB _ (hPB _ c (by omega)))
  rw [hj] at h6
  obtain ⟨g, g1, g2, g3⟩ := h6 hA0
  rw [List.head?_eq_getElem?, g2]
  obtain ⟨i, hi, hif⟩ := List.mem_iff_getElem.1 hf
  have hPi : P i = f := by
    have := hP i (by omega)
    rw [hpts, List.getElem?_append_left hi, List.getElem?_eq_getElem hi, hif] at this
    exact (Option.some.inj this).symm
  rcases hfA _ (hPA g g1) with h | h
  · rw [h]
  · exact absurd (by rw [hPi]; exact h) (g3 i hi)

end Geometrix
