import Verif.Model.TupleCompare
import Verif.Spec.TupleCompare

/-!
# Lemmas about comparisons of tuples
-/

namespace Geometrix

open Spec

variable {α : Type*}

theorem lexVariadic_eq (lt : Nat → α → α → Bool) (h : ∀ i a b, lt i a b = true → lt i b a = false) (n : Nat) :
    ∀ (i : Nat) (a b : Nat → α), ∃ r, lexVariadic lt i ((List.range (n + 1)).map fun k => (a (i + k), b (i + k))) = .ok r ∧
      (r = true ↔ ∃ k, k < n + 1 ∧ (∀ j, j < k → lt (i + j) (a (i + j)) (b (i + j)) = false ∧ lt (i + j) (b (i + j)) (a (i + j)) = false) ∧
        lt (i + k) (a (i + k)) (b (i + k)) = true) := by
  induction n with
  | zero =>
    intro i a b
    refine ⟨lt i (a i) (b i), rfl, ?_⟩
    constructor
    · intro h1; exact ⟨0, by omega, fun j hj => absurd hj (by omega), h1⟩
    · rintro ⟨k, hk, -, h1⟩
      obtain rfl : k = 0 := by omega
      exact h1
  | succ n ih =>
    intro i a b
    obtain ⟨r, hr, hiff⟩ := ih (i + 1) a b
    have e : (List.range (n + 1 + 1)).map (fun k => (a (i + k), b (i + k))) =
        (a i, b i) :: (List.range (n + 1)).map (fun k => (a (i + 1 + k), b (i + 1 + k))) := by
      rw [List.range_succ_eq_map, List.map_cons, List.map_map]
      congr 1
      refine List.map_congr_left fun k _ => ?_
      simp only [Function.comp, Nat.succ_eq_add_one]
      rw [show i + (k + 1) = i + 1 + k by omega]
    have e2 : ∃ q l, (List.range (n + 1)).map (fun k => (a (i + 1 + k), b (i + 1 + k))) = q :: l := by
      rw [List.range_succ_eq_map, List.map_cons]; exact ⟨_, _, rfl⟩
    obtain ⟨q, l, hl⟩ := e2
    rw [e, hl]
    rw [hl] at hr
    unfold lexVariadic
    by_cases h1 : lt i (b i) (a i) = true
    · rw [if_pos h1]
      refine ⟨false, rfl, ?_⟩
      simp only [Bool.false_eq_true, false_iff]
      rintro ⟨k, -, hk1, hk2⟩
      rcases Nat.eq_zero_or_pos k with rfl | hk
      · have := h i _ _ hk2
        rw [show i + 0 = i from rfl] at this
        rw [this] at h1; exact absurd h1 (by simp)
      · have := (hk1 0 hk).2
        rw [show i + 0 = i from rfl] at this
        rw [this] at h1; exact absurd h1 (by simp)
    · rw [if_neg h1]
      by_cases h2 : lt i (a i) (b i) = true
      · rw [if_pos h2]
        exact ⟨true, rfl, by simp only [true_iff]; exact ⟨0, by omega, fun j hj => absurd hj (by omega), h2⟩⟩
      · rw [if_neg h2]
        refine ⟨r, hr, ?_⟩
        rw [hiff]
        constructor
        · rintro ⟨k, hk, hk1, hk2⟩
          refine ⟨k + 1, by omega, ?_, ?_⟩
          · intro j hj
            rcases Nat.eq_zero_or_pos j with rfl | hj0
            · exact ⟨by simpa using h2, by simpa using h1⟩
            · obtain ⟨m, rfl⟩ : ∃ m, j = m + 1 := ⟨j - 1, by omega⟩
              have := hk1 m (by omega)
              rwa [show i + 1 + m = i + (m + 1) by omega] at this
          · rwa [show i + 1 + k = i + (k + 1) by omega] at hk2
        · rintro ⟨k, hk, hk1, hk2⟩
          rcases Nat.eq_zero_or_pos k with rfl | hk0
          · exact absurd hk2 h2
          · obtain ⟨m, rfl⟩ : ∃ m, k = m + 1 := ⟨k - 1, by omega⟩
            refine ⟨m, by omega, ?_, ?_⟩
            · intro j hj
              have := hk1 (j + 1) (by omega)
              rwa [show i + 1 + j = i + (j + 1) by omega]
            · rwa [show i + 1 + m = i + (m + 1) by omega]

/-- Equivalent values can be replaced. -/
theorem Spec.SortOrder.congr_right {r : α → α → Prop} (h : SortOrder r) {a b c : α} (h1 : ¬ r b c) (h2 : ¬ r c b) (hab : r a b) : r a c := by
  by_contra hac
  by_cases hca : r c a
  · exact h2 (h.trans c a b hca hab)
  · exact (h.incomp a c b hac hca h2 h1).1 hab

theorem Spec.SortOrder.congr_left {r : α → α → Prop} (h : SortOrder r) {a b c : α} (h1 : ¬ r a b) (h2 : ¬ r b a) (hbc : r b c) : r a c := by
  by_contra hac
  by_cases hca : r c a
  · exact h2 (h.trans b c a hbc hca)
  · exact (h.incomp b a c h2 h1 hac hca).1 hbc

theorem lexBefore_sortOrder {lt : Nat → α → α → Prop} (h : ∀ i, SortOrder (lt i)) (n : Nat) : SortOrder (LexBefore lt n) where
  irrefl := by
    rintro a ⟨k, -, -, hk⟩
    exact (h k).irrefl _ hk
  trans := by
    rintro a b c ⟨k, hk, hk1, hk2⟩ ⟨m, hm, hm1, hm2⟩
    rcases lt_trichotomy k m with hkm | rfl | hkm
    · refine ⟨k, hk, fun j hj => ?_, (h k).congr_right (hm1 k hkm).1 (hm1 k hkm).2 hk2⟩
      exact (h j).incomp _ _ _ (hk1 j hj).1 (hk1 j hj).2 (hm1 j (by omega)).1 (hm1 j (by omega)).2
    · refine ⟨k, hk, fun j hj => ?_, (h k).trans _ _ _ hk2 hm2⟩
      exact (h j).incomp _ _ _ (hk1 j hj).1 (hk1 j hj).2 (hm1 j hj).1 (hm1 j hj).2
    · refine ⟨m, hm, fun j hj => ?_, (h m).congr_left (hk1 m hkm).1 (hk1 m hkm).2 hm2⟩
      exact (h j).incomp _ _ _ (hk1 j (by omega)).1 (hk1 j (by omega)).2 (hm1 j hj).1 (hm1 j hj).2
  incomp := by
    have key : ∀ a b : Nat → α, ¬ LexBefore lt n a b → ¬ LexBefore lt n b a →
        ∀ k, k < n → ¬ lt k (a k) (b k) ∧ ¬ lt k (b k) (a k) := by
      intro a b h1 h2 k
      induction k using Nat.strong_induction_on with
      | _ k ih =>
        intro hk
        have hb : ∀ j, j < k → ¬ lt j (a j) (b j) ∧ ¬ lt j (b j) (a j) := fun j hj => ih j hj (by omega)
        exact ⟨fun hh => h1 ⟨k, hk, hb, hh⟩, fun hh => h2 ⟨k, hk, fun j hj => (hb j hj).symm, hh⟩⟩
    intro a b c h1 h2 h3 h4
    have hab := key a b h1 h2
    have hbc := key b c h3 h4
    have hac : ∀ k, k < n → ¬ lt k (a k) (c k) ∧ ¬ lt k (c k) (a k) := fun k hk =>
      (h k).incomp _ _ _ (hab k hk).1 (hab k hk).2 (hbc k hk).1 (hbc k hk).2
    exact ⟨fun ⟨k, hk, _, hh⟩ => (hac k hk).1 hh, fun ⟨k, hk, _, hh⟩ => (hac k hk).2 hh⟩

end Geometrix
