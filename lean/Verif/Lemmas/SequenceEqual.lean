import Verif.Model.SequenceEqual
import Verif.Lemmas.Policy
import Mathlib.Data.List.Rotate
import Mathlib.Data.List.Nodup

/-!
# Lemmas about equal point sequences and polygons
-/

set_option linter.unusedSectionVars false

namespace Geometrix

variable {K : Type*} [Field K] [LinearOrder K] [IsStrictOrderedRing K]

theorem seqEquals_eq (A B : P2 K) : seqEquals Cmp.direct A B = true ↔ A = B := by
  simp only [seqEquals, direct_equals, Bool.and_eq_true, decide_eq_true_eq]
  constructor
  · rintro ⟨h1, h2⟩; ext <;> assumption
  · rintro rfl; exact ⟨rfl, rfl⟩

theorem sequencesEqualLoop_spec (p1 p2 : List (P2 K)) (h : p1.length = p2.length) (n : Nat) : ∀ i, i + n = p1.length →
    ∃ r, sequencesEqualLoop Cmp.direct p1 p2 n i = .ok r ∧
      (r = true ↔ ∀ j, i ≤ j → j < p1.length → p1[j]? = p2[j]?) := by
  induction n with
  | zero =>
    intro i hi
    exact ⟨true, rfl, by simp only [true_iff]; intro j h1 h2; omega⟩
  | succ n ih =>
    intro i hi
    have h1 : p1[i]? = some p1[i] := List.getElem?_eq_getElem (by omega)
    have h2 : p2[i]? = some p2[i] := List.getElem?_eq_getElem (by omega)
    rw [sequencesEqualLoop, h1, h2]
    by_cases he : p1[i] = p2[i]
    · obtain ⟨r, hr, hiff⟩ := ih (i + 1) (by omega)
      refine ⟨r, ?_, ?_⟩
      · simp only [(seqEquals_eq _ _).2 he, Bool.not_true, Bool.false_eq_true, if_false, hr]
      · rw [hiff]
        constructor
        · intro hj j hj1 hj2
          rcases hj1.eq_or_lt with rfl | hlt
          · rw [h1, h2, he]
          · exact hj j hlt hj2
        · exact fun hj j hj1 hj2 => hj j (by omega) hj2
    · have hf : seqEquals Cmp.direct p1[i] p2[i] = false := by
        rw [Bool.eq_false_iff, ne_eq, seqEquals_eq]; exact he
      refine ⟨false, by simp only [hf, Bool.not_false, if_true], ?_⟩
      simp only [Bool.false_eq_true, false_iff]
      intro hj
      have := hj i (le_refl _) (by omega)
      rw [h1, h2, Option.some.injEq] at this
      exact he this

theorem polygonsEqualLoop_spec (p1 p2 : List (P2 K)) (o : Nat) (h : p1.length = p2.length) (n : Nat) :
    ∀ i, i + n = p1.length →
    ∃ r, polygonsEqualLoop Cmp.direct p1 p2 o n i = .ok r ∧
      (r = true ↔ ∀ j, i ≤ j → j < p1.length → p1[j]? = p2[(j + o) % 2 ^ 64 % p2.length]?) := by
  induction n with
  | zero =>
    intro i hi
    exact ⟨true, rfl, by simp only [true_iff]; intro j h1 h2; omega⟩
  | succ n ih =>
    intro i hi
    have hm : (i + o) % 2 ^ 64 % p2.length < p2.length := Nat.mod_lt _ (by omega)
    have h1 : p1[i]? = some p1[i] := List.getElem?_eq_getElem (by omega)
    have h2 : p2[(i + o) % 2 ^ 64 % p2.length]? = some p2[(i + o) % 2 ^ 64 % p2.length] :=
      List.getElem?_eq_getElem hm
    rw [polygonsEqualLoop, h1, h2]
    by_cases he : p1[i] = p2[(i + o) % 2 ^ 64 % p2.length]
    · obtain ⟨r, hr, hiff⟩ := ih (i + 1) (by omega)
      refine ⟨r, ?_, ?_⟩
      · simp only [(seqEquals_eq _ _).2 he, Bool.not_true, Bool.false_eq_true, if_false, hr]
      · rw [hiff]
        constructor
        · intro hj j hj1 hj2
          rcases hj1.eq_or_lt with rfl | hlt
          · rw [h1, h2, he]
          · exact hj j hlt hj2
        · exact fun hj j hj1 hj2 => hj j (by omega) hj2
    · have hf : seqEquals Cmp.direct p1[i] p2[(i + o) % 2 ^ 64 % p2.length] = false := by
        rw [Bool.eq_false_iff, ne_eq, seqEquals_eq]; exact he
      refine ⟨false, by simp only [hf, Bool.not_false, if_true], ?_⟩
      simp only [Bool.false_eq_true, false_iff]
      intro hj
      have := hj i (le_refl _) (by omega)
      rw [h1, h2, Option.some.injEq] at this
      exact he this

theorem startLoop_spec (a : P2 K) (p1 p2 : List (P2 K)) (ha : p1[0]? = some a) (n : Nat) : ∀ i, i + n = p2.length →
    (∃ k, startLoop Cmp.direct p1 p2 n i = .ok k ∧ i ≤ k ∧ p2[k]? = some a ∧
      ∀ j, i ≤ j → j < k → p2[j]? ≠ some a) ∨
    (startLoop Cmp.direct p1 p2 n i = .ok (2 ^ 64 - 1) ∧ ∀ j, i ≤ j → p2[j]? ≠ some a) := by
  induction n with
  | zero =>
    intro i hi
    refine Or.inr ⟨rfl, fun j hj he => ?_⟩
    have := (List.getElem?_eq_some_iff.1 he).1
    omega
  | succ n ih =>
    intro i hi
    have h2 : p2[i]? = some p2[i] := List.getElem?_eq_getElem (by omega)
    rw [startLoop, ha, h2]
    by_cases he : a = p2[i]
    · left
      refine ⟨i, by simp only [(seqEquals_eq _ _).2 he, if_true], le_refl _, by rw [h2, he], fun j h1 h2 => by omega⟩
    · have hf : seqEquals Cmp.direct a p2[i] = false := by
        rw [Bool.eq_false_iff, ne_eq, seqEquals_eq]; exact he
      simp only [hf, Bool.false_eq_true, if_false]
      have hi' : p2[i]? ≠ some a := by rw [h2]; intro e; exact he (Option.some.inj e).symm
      rcases ih (i + 1) (by omega) with ⟨k, h3, h4, h5, h6⟩ | ⟨h3, h4⟩
      · refine Or.inl ⟨k, h3, by omega, h5, fun j hj1 hj2 => ?_⟩
        rcases hj1.eq_or_lt with rfl | hlt
        · exact hi'
        · exact h6 j hlt hj2
      · refine Or.inr ⟨h3, fun j hj1 => ?_⟩
        rcases hj1.eq_or_lt with rfl | hlt
        · exact hi'
        · exact h4 j hlt

end Geometrix
