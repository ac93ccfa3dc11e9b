import Verif.Model.CompoundAssign
import Verif.Lemmas.InPlace

/-!
# Lemmas on the compound assignments of vectors
-/

set_option linter.unusedSectionVars false

namespace Geometrix

open Spec

variable {K : Type*} [Field K] [LinearOrder K] [IsStrictOrderedRing K]

/-- The expression that `lhs += e` assigns. -/
def CompoundOp.expr (o : CompoundOp) (n k : Nat) (e : Tx) : Tx :=
  match o with
  | .plus => .add (.var (.vec n) k) e
  | .minus => .sub (.var (.vec n) k) e

theorem compound_value (sq : K → K) (o : CompoundOp) (m k : Nat) (e : Tx) (env : Nat → Nat → Nat → K) (i : Nat) :
    value sq env (o.expr m k e) i 0 = match value sq env e i 0 with
      | .error err => .error err
      | .ok x => .ok (o.run (env k i 0) x) := by
  cases o <;> simp only [CompoundOp.expr, value] <;> cases value sq env e i 0 <;> rfl

theorem compoundElements_eq (sq : K → K) (o : CompoundOp) (m k : Nat) (e : Tx) :
    ∀ (n i : Nat) (env : Nat → Nat → Nat → K), compoundElements sq o k e n i env = writeElements sq k (o.expr m k e) n i env
  | 0, _, _ => rfl
  | n + 1, i, env => by
    simp only [compoundElements, writeElements, compound_value]
    cases value sq env e i 0 with
    | error _ => rfl
    | ok x => exact compoundElements_eq sq o m k e n (i + 1) _

/-- What the loop does if no value of the expression depends on the elements already written. -/
theorem compoundElements_spec (sq : K → K) (o : CompoundOp) (k : Nat) (e : Tx) (env : Nat → Nat → Nat → K)
    (hl : ∀ i env', (∀ l, l ≠ k → env' l = env l) → env' k i 0 = env k i 0 → value sq env' e i 0 = value sq env e i 0) (n : Nat) :
    (∀ f : Nat → K, (∀ i < n, value sq env e i 0 = .ok (f i)) → ∃ r, compoundElements sq o k e n 0 env = .ok r ∧
      (∀ l, l ≠ k → r l = env l) ∧ ∀ i < n, r k i 0 = o.run (env k i 0) (f i)) ∧
    ((∃ i < n, ∃ err, value sq env e i 0 = .error err) → ∃ err, compoundElements sq o k e n 0 env = .error err) := by
  have hl' : ∀ i env', (∀ l, l ≠ k → env' l = env l) → env' k i 0 = env k i 0 →
      value sq env' (o.expr n k e) i 0 = value sq env (o.expr n k e) i 0 := by
    intro i env' a b
    rw [compound_value, compound_value, hl i env' a b, b]
  obtain ⟨w1, w2⟩ := writeElements_spec sq k (o.expr n k e) env hl' n 0 env (fun _ _ => rfl) (fun _ _ => rfl)
  rw [compoundElements_eq sq o n k e n 0 env]
  constructor
  · intro f hf
    have hv : ∀ i, i < n → value sq env (o.expr n k e) i 0 = .ok (o.run (env k i 0) (f i)) := by
      intro i hi
      rw [compound_value, hf i hi]
    obtain ⟨r, q1, q2, -, q4⟩ := w1 ⟨fun i => o.run (env k i 0) (f i), fun i _ hi => hv i (by omega)⟩
    refine ⟨r, q1, q2, fun i hi => ?_⟩
    have := q4 i (Nat.zero_le _) (by omega)
    rw [hv i hi] at this
    exact (Except.ok.inj this).symm
  · rintro ⟨i, hi, err, h⟩
    refine w2 ⟨i, Nat.zero_le _, by omega, err, ?_⟩
    rw [compound_value, h]

/-- The loops write below their end only. -/
theorem compoundElements_after (sq : K → K) (o : CompoundOp) (k : Nat) (e : Tx) :
    ∀ (n i : Nat) (env r : Nat → Nat → Nat → K), compoundElements sq o k e n i env = .ok r → ∀ i' j', i + n ≤ i' →
      r k i' j' = env k i' j'
  | 0, _, _, _, h, _, _, _ => by rw [← Except.ok.inj h]
  | n + 1, i, env, r, h, i', j', hi => by
    simp only [compoundElements] at h
    cases hv : value sq env e i 0 with
    | error err => rw [hv] at h; exact absurd h (by simp)
    | ok x =>
      rw [hv] at h
      rw [compoundElements_after sq o k e n (i + 1) _ r h i' j' (by omega)]
      have : i' ≠ i := by omega
      simp only [setElement, this, false_and, and_false, if_false]

theorem scaleElements_spec (k : Nat) (x : K) : ∀ (n i : Nat) (env : Nat → Nat → Nat → K) (k' i' : Nat),
    scaleElements k x n i env k' i' 0 = if k' = k ∧ i ≤ i' ∧ i' < i + n then env k' i' 0 * x else env k' i' 0
  | 0, i, env, k', i' => by
    rw [if_neg (by omega)]; rfl
  | n + 1, i, env, k', i' => by
    rw [scaleElements, scaleElements_spec k x n (i + 1) _ k' i']
    by_cases hk : k' = k
    · subst hk
      by_cases hi : i' = i
      · subst hi
        rw [if_neg (by omega), if_pos (by omega)]
        simp [setElement]
      · have hs : setElement env k' i (env k' i 0 * x) k' i' 0 = env k' i' 0 := by
          simp only [setElement, hi, false_and, and_false, if_false]
        rw [hs]
        by_cases hc : i ≤ i' ∧ i' < i + (n + 1)
        · rw [if_pos (by omega), if_pos (by omega)]
        · rw [if_neg (by omega), if_neg (by omega)]
    · rw [if_neg (by tauto), if_neg (by tauto)]
      simp only [setElement, hk, false_and, if_false]

theorem divideElements_spec (k : Nat) {x : K} (hx : x ≠ 0) : ∀ (n i : Nat) (env : Nat → Nat → Nat → K),
    ∃ r, divideElements k x n i env = .ok r ∧ ∀ k' i',
      r k' i' 0 = if k' = k ∧ i ≤ i' ∧ i' < i + n then env k' i' 0 / x else env k' i' 0
  | 0, i, env => ⟨env, rfl, fun k' i' => by rw [if_neg (by omega)]⟩
  | n + 1, i, env => by
    obtain ⟨r, h1, h2⟩ := divideElements_spec k hx n (i + 1) (setElement env k i (env k i 0 / x))
    refine ⟨r, by simp only [divideElements, cdiv, if_neg hx, h1], fun k' i' => ?_⟩
    rw [h2]
    by_cases hk : k' = k
    · subst hk
      by_cases hi : i' = i
      · subst hi
        rw [if_neg (by omega), if_pos (by omega)]
        simp [setElement]
      · have hs : setElement env k' i (env k' i 0 / x) k' i' 0 = env k' i' 0 := by
          simp only [setElement, hi, false_and, and_false, if_false]
        rw [hs]
        by_cases hc : i ≤ i' ∧ i' < i + (n + 1)
        · rw [if_pos (by omega), if_pos (by omega)]
        · rw [if_neg (by omega), if_neg (by omega)]
    · rw [if_neg (by tauto), if_neg (by tauto)]
      simp only [setElement, hk, false_and, if_false]

end Geometrix
