import Verif.Model.InPlace
import Verif.Spec.InPlace
import Verif.Lemmas.ExpressionsTensor

/-!
# Lemmas on assignment in place
-/

set_option linter.unusedSectionVars false

namespace Geometrix

open Spec

variable {K : Type*} [Field K] [LinearOrder K] [IsStrictOrderedRing K]

/-- A value does not depend on a variable that does not occur. -/
theorem value_congr (sq : K → K) {env env' : Nat → Nat → Nat → K} {k : Nat} (h : ∀ l, l ≠ k → env l = env' l) :
    ∀ e : Tx, ¬ Occurs k e → value sq env e = value sq env' e
  | .var s l, ho => by
    funext i j
    simp only [value, h l ho]
  | .neg a, ho => by funext i j; simp only [value, value_congr sq h a ho]
  | .abs a, ho => by funext i j; simp only [value, value_congr sq h a ho]
  | .recip a, ho => by funext i j; simp only [value, value_congr sq h a ho]
  | .trans a, ho => by funext i j; simp only [value, value_congr sq h a ho]
  | .det a, ho => by funext i j; simp only [value, value_congr sq h a ho]
  | .inv a, ho => by funext i j; simp only [value, value_congr sq h a ho]
  | .mag a, ho => by funext i j; simp only [value, value_congr sq h a ho]
  | .norm a, ho => by funext i j; simp only [value, value_congr sq h a ho]
  | .add a b, ho => by
    have ho := not_or.mp ho
    funext i j; simp only [value, value_congr sq h a ho.1, value_congr sq h b ho.2]
  | .sub a b, ho => by
    have ho := not_or.mp ho
    funext i j; simp only [value, value_congr sq h a ho.1, value_congr sq h b ho.2]
  | .mul a b, ho => by
    have ho := not_or.mp ho
    funext i j; simp only [value, value_congr sq h a ho.1, value_congr sq h b ho.2]
  | .div a b, ho => by
    have ho := not_or.mp ho
    funext i j; simp only [value, value_congr sq h a ho.1, value_congr sq h b ho.2]
  | .cross a b, ho => by
    have ho := not_or.mp ho
    funext i j; simp only [value, value_congr sq h a ho.1, value_congr sq h b ho.2]
  | .tens a b, ho => by
    have ho := not_or.mp ho
    funext i j; simp only [value, value_congr sq h a ho.1, value_congr sq h b ho.2]

/-- The shape of a sequence. -/
def IsSeq : Shape → Prop
  | .vec _ => True
  | .point _ => True
  | _ => False

theorem shapeOf_supported {e : Tx} {s : Shape} (h : meaningShape e = some s) (hs : Supported e) : shapeOf e = some s :=
  (good_of_supported (K := ℚ) id (fun _ _ _ => 0) e s h hs).1

/-- An element of an expression in which the variable occurs elementwise depends only on the element of the variable at the same
index. -/
theorem value_local (sq : K → K) {env env' : Nat → Nat → Nat → K} {k i : Nat} (h : ∀ l, l ≠ k → env l = env' l)
    (hi : env k i 0 = env' k i 0) : ∀ (e : Tx) (s : Shape), meaningShape e = some s → IsSeq s → Supported e → Elementwise k e →
    value sq env e i 0 = value sq env' e i 0
  | .var t l, s, hm, hq, hs, he => by
    simp only [value]
    by_cases hl : l = k
    · rw [hl, hi]
    · rw [h l hl]
  | .neg a, s, hm, hq, hs, he => by
    simp only [meaningShape, Option.bind_eq_some_iff] at hm
    obtain ⟨t, h1, h2⟩ := hm
    have ht : IsSeq t := by cases t <;> simp at h2 <;> subst h2 <;> exact hq
    simp only [value, value_local sq h hi a t h1 ht hs he]
  | .abs a, s, hm, hq, hs, he => by
    simp only [meaningShape, Option.bind_eq_some_iff] at hm
    obtain ⟨t, h1, h2⟩ := hm
    have ht : IsSeq t := by cases t <;> simp at h2 <;> subst h2 <;> exact hq
    simp only [value, value_local sq h hi a t h1 ht hs he]
  | .recip a, s, hm, hq, hs, he => by
    simp only [meaningShape] at hm
    simp only [value, value_local sq h hi a s hm hq hs he]
  | .add a b, s, hm, hq, hs, he => by
    simp only [meaningShape, Option.bind_eq_some_iff] at hm
    obtain ⟨t, h1, u, h2, h3⟩ := hm
    have ht : IsSeq t ∧ IsSeq u := by
      cases t <;> cases u <;> simp [sumShape] at h3 <;> obtain ⟨-, rfl⟩ := h3 <;> first | exact ⟨hq, hq⟩ | exact ⟨trivial, trivial⟩
    simp only [value, value_local sq h hi a t h1 ht.1 hs.1 he.1, value_local sq h hi b u h2 ht.2 hs.2 he.2]
  | .sub a b, s, hm, hq, hs, he => by
    simp only [meaningShape, Option.bind_eq_some_iff] at hm
    obtain ⟨t, h1, u, h2, h3⟩ := hm
    have ht : IsSeq t ∧ IsSeq u := by
      cases t <;> cases u <;> simp [differenceShape] at h3 <;> obtain ⟨-, rfl⟩ := h3 <;> first | exact ⟨hq, hq⟩ | exact ⟨trivial, trivial⟩
    simp only [value, value_local sq h hi a t h1 ht.1 hs.1 he.1, value_local sq h hi b u h2 ht.2 hs.2 he.2]
  | .mul a b, s, hm, hq, hs, he => by
    simp only [meaningShape, Option.bind_eq_some_iff] at hm
    obtain ⟨t, h1, u, h2, h3⟩ := hm
    have e1 := shapeOf_supported h1 hs.1
    have e2 := shapeOf_supported h2 hs.2.1
    rcases he with ⟨g1, g2, g3⟩ | ⟨g1, g2, g3⟩ | ⟨g1, g2⟩
    · obtain rfl : t = .scalar := by rw [h1] at g1; simpa using g1
      cases u with
      | vec n => simp only [value, e1, e2, value_congr sq h a g2, value_local sq h hi b _ h2 trivial hs.2.1 g3]
      | scalar => simp [productShape] at h3; subst h3; exact hq.elim
      | point n => simp [productShape] at h3
      | mat r c => simp [productShape] at h3; subst h3; exact hq.elim
    · obtain rfl : u = .scalar := by rw [h2] at g1; simpa using g1
      cases t with
      | vec n => simp only [value, e1, e2, value_congr sq h b g2, value_local sq h hi a _ h1 trivial hs.1 g3]
      | scalar => simp [productShape] at h3; subst h3; exact hq.elim
      | point n => simp [productShape] at h3
      | mat r c => simp [productShape] at h3; subst h3; exact hq.elim
    · simp only [value, value_congr sq h a g1, value_congr sq h b g2]
  | .div a b, s, hm, hq, hs, he => by
    simp only [meaningShape, Option.bind_eq_some_iff] at hm
    obtain ⟨t, h1, u, h2, h3⟩ := hm
    have ht : IsSeq t := by
      cases t <;> cases u <;> simp at h3 <;> subst h3 <;> first | exact hq | exact trivial
    simp only [value, value_local sq h hi a t h1 ht hs.1 he.1, value_congr sq h b he.2]
  | .trans a, s, hm, hq, hs, he => by rw [value_congr sq h _ he]
  | .det a, s, hm, hq, hs, he => by rw [value_congr sq h _ he]
  | .inv a, s, hm, hq, hs, he => by rw [value_congr sq h _ he]
  | .mag a, s, hm, hq, hs, he => by rw [value_congr sq h _ he]
  | .norm a, s, hm, hq, hs, he => by rw [value_congr sq h _ he]
  | .cross a b, s, hm, hq, hs, he => by rw [value_congr sq h _ he]
  | .tens a b, s, hm, hq, hs, he => by rw [value_congr sq h _ he]

/-- What writing the elements does if no value depends on those already written. -/
theorem writeElements_spec (sq : K → K) (k : Nat) (e : Tx) (env : Nat → Nat → Nat → K)
    (hl : ∀ i env', (∀ l, l ≠ k → env' l = env l) → env' k i 0 = env k i 0 → value sq env' e i 0 = value sq env e i 0) :
    ∀ (n i : Nat) (env' : Nat → Nat → Nat → K), (∀ l, l ≠ k → env' l = env l) → (∀ i', i ≤ i' → env' k i' 0 = env k i' 0) →
    ((∃ f : Nat → K, ∀ i', i ≤ i' → i' < i + n → value sq env e i' 0 = .ok (f i')) →
      ∃ r, writeElements sq k e n i env' = .ok r ∧ (∀ l, l ≠ k → r l = env l) ∧ (∀ i' < i, r k i' 0 = env' k i' 0) ∧
        ∀ i', i ≤ i' → i' < i + n → value sq env e i' 0 = .ok (r k i' 0)) ∧
    ((∃ i', i ≤ i' ∧ i' < i + n ∧ ∃ err, value sq env e i' 0 = .error err) → ∃ err, writeElements sq k e n i env' = .error err)
  | 0, i, env', h1, h2 => by
    refine ⟨fun _ => ⟨env', rfl, h1, fun _ _ => rfl, fun i' a b => absurd b (by omega)⟩, ?_⟩
    rintro ⟨i', a, b, -⟩
    omega
  | n + 1, i, env', h1, h2 => by
    have hv := hl i env' h1 (h2 i le_rfl)
    cases hx : value sq env e i 0 with
    | error err =>
      have hw : writeElements sq k e (n + 1) i env' = .error err := by simp only [writeElements, hv, hx]
      refine ⟨?_, fun _ => ⟨err, hw⟩⟩
      rintro ⟨f, hf⟩
      have := hf i le_rfl (by omega)
      rw [hx] at this
      exact absurd this (by simp)
    | ok x =>
      have hw : writeElements sq k e (n + 1) i env' = writeElements sq k e n (i + 1) (setElement env' k i x) := by
        simp only [writeElements, hv, hx]
      have g1 : ∀ l, l ≠ k → setElement env' k i x l = env l := by
        intro l hlk
        funext a b
        simp only [setElement, hlk, false_and, if_false, h1 l hlk]
      have g2 : ∀ i', i + 1 ≤ i' → setElement env' k i x k i' 0 = env k i' 0 := by
        intro i' hi'
        have : i' ≠ i := by omega
        simp only [setElement, this, false_and, and_false, if_false]
        exact h2 i' (by omega)
      obtain ⟨r1, r2⟩ := writeElements_spec sq k e env hl n (i + 1) (setElement env' k i x) g1 g2
      rw [hw]
      constructor
      · rintro ⟨f, hf⟩
        obtain ⟨r, q1, q2, q3, q4⟩ := r1 ⟨f, fun i' a b => hf i' (by omega) (by omega)⟩
        refine ⟨r, q1, q2, fun i' hi' => ?_, fun i' a b => ?_⟩
        · rw [q3 i' (by omega)]
          have : i' ≠ i := by omega
          simp only [setElement, this, false_and, and_false, if_false]
        · rcases Nat.eq_or_lt_of_le a with rfl | hlt
          · rw [q3 i (by omega), hx]
            simp [setElement]
          · exact q4 i' hlt (by omega)
      · rintro ⟨i', a, b, err, he⟩
        refine r2 ⟨i', ?_, by omega, err, he⟩
        rcases Nat.eq_or_lt_of_le a with rfl | hlt
        · rw [hx] at he; exact absurd he (by simp)
        · exact hlt

end Geometrix
