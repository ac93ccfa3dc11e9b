import Verif.Lemmas.CompoundAssign
import Mathlib.Data.Rat.Floor

/-!
# Property theorems: `+=`, `-=`, `*=` and `/=` of vectors
-/

set_option linter.unusedSectionVars false

namespace Geometrix

open Spec

variable {K : Type*} [Field K] [LinearOrder K] [IsStrictOrderedRing K]

/-- **C142, partial.** `v += e` and `v -= e` for a vector `v` of `n` elements and an expression `e` of `n` elements: the statement
compiles; if `e` has a value, every element of `v` has grown, or shrunk, by that of `e`, and no other variable has changed; if somewhere
in `e` there is a division by zero, the inverse of a singular matrix or the direction of a null vector, it ends in an error.

The full property has neither the condition `Supported e` (see C123) nor `Elementwise k e`, and it has the statement rejected if `e` has
another number of elements. The latter two are false: see the refutations below. -/
theorem C142_value_partial (sq : K → K) (env : Nat → Nat → Nat → K) (o : CompoundOp) (e : Tx) (n k : Nat)
    (he : meaningShape e = some (.vec n) ∨ meaningShape e = some (.point n)) (hs : Supported e) (hk : Elementwise k e) :
    ∃ r, compoundAssign sq env o n k e = some r ∧
      match meaning sq env e with
      | some f => ∃ env', r = .ok env' ∧ (∀ k', k' ≠ k → env' k' = env k') ∧
          ∀ i < n, env' k i 0 = match o with
            | .plus => env k i 0 + f i 0
            | .minus => env k i 0 - f i 0
      | none => ∃ err, r = .error err := by
  obtain ⟨s, hm, hq, hr, hcol⟩ : ∃ s, meaningShape e = some s ∧ IsSeq s ∧ s.rows = n ∧ s.cols = 1 := by
    rcases he with h | h
    · exact ⟨_, h, trivial, rfl, rfl⟩
    · exact ⟨_, h, trivial, rfl, rfl⟩
  obtain ⟨h1, h2, h3, h4⟩ := good_of_supported sq env e s hm hs
  have hc : compoundCount n e = some n := by
    have h3' : ∀ i < n, ∀ j < 1, compiles e i j = true := fun i hi j hj => h3 i (by omega) j (by omega)
    rcases he with h | h <;> rw [hm] at h <;> obtain rfl := Option.some.inj h <;>
      simp only [compoundCount, h1, min_self] <;> exact if_pos ((allBelow_eq _ _ _).2 h3')
  have hl : ∀ i env', (∀ l, l ≠ k → env' l = env l) → env' k i 0 = env k i 0 → value sq env' e i 0 = value sq env e i 0 :=
    fun i env' a b => value_local sq a b e s hm hq hs hk
  obtain ⟨w1, w2⟩ := compoundElements_spec sq o k e env hl n
  unfold compoundAssign
  rw [hc]
  refine ⟨_, rfl, ?_⟩
  cases hmm : meaning sq env e with
  | some f =>
    rw [hmm] at h4
    obtain ⟨r, q1, q2, q3⟩ := w1 (fun i => f i 0) fun i hi => h4 i (by omega) 0 (by omega)
    refine ⟨r, q1, q2, fun i hi => ?_⟩
    rw [q3 i hi]
    cases o <;> rfl
  | none =>
    rw [hmm] at h4
    obtain ⟨i, hi, j, hj, err, h5⟩ := h4
    obtain rfl : j = 0 := by omega
    exact w2 ⟨i, by omega, err, h5⟩

/-- `(u * w) * v - u`, with the vectors `v`, `u` and `w` as variables 0, 1 and 2. -/
def compoundExample : Tx :=
  .sub (.mul (.mul (.var (.vec 2) 1) (.var (.vec 2) 2)) (.var (.vec 2) 0)) (.var (.vec 2) 1)

example : meaningShape compoundExample = some (.vec 2) ∧ Supported compoundExample ∧ Elementwise 0 compoundExample := by
  refine ⟨by decide, ?_, ?_⟩
  · simp [compoundExample, Supported, meaningShape, SupportedProduct, Positive, productShape]
  · simp [compoundExample, Elementwise, meaningShape, Positive, productShape, Occurs]

example : (match compoundAssign (K := ℚ) id (fun k i _ => k + 2 * i + 1) .minus 2 0 compoundExample with
    | some (.ok env) => some (env 0 0 0, env 0 1 0, env 1 1 0)
    | _ => none) = some (-23, -71, 4) := by decide +kernel

/-- **C142 for `(v += a) += b`**, partial in the same way: `v` ends with the sum of all three, where `b` is evaluated after the first
assignment. -/
theorem C142_chain_partial (sq : K → K) (env : Nat → Nat → Nat → K) (o o' : CompoundOp) (a b : Tx) (n k : Nat)
    (ha : meaningShape a = some (.vec n)) (hb : meaningShape b = some (.vec n)) (sa : Supported a) (sb : Supported b)
    (ka : Elementwise k a) (kb : Elementwise k b) {f : Nat → Nat → K} (hf : meaning sq env a = some f) :
    ∃ mid, (∀ k', k' ≠ k → mid k' = env k') ∧
      (∀ i < n, mid k i 0 = match o with
        | .plus => env k i 0 + f i 0
        | .minus => env k i 0 - f i 0) ∧
      ∃ r, compoundChain sq env o o' n k a b = some r ∧
      match meaning sq mid b with
      | some g => ∃ env', r = .ok env' ∧ (∀ k', k' ≠ k → env' k' = env k') ∧
          ∀ i < n, env' k i 0 = match o' with
            | .plus => mid k i 0 + g i 0
            | .minus => mid k i 0 - g i 0
      | none => ∃ err, r = .error err := by
  obtain ⟨r, h1, h2⟩ := C142_value_partial sq env o a n k (.inl ha) sa ka
  rw [hf] at h2
  obtain ⟨mid, rfl, h3, h4⟩ := h2
  obtain ⟨r', g1, g2⟩ := C142_value_partial sq mid o' b n k (.inl hb) sb kb
  refine ⟨mid, h3, h4, r', by simp only [compoundChain, h1, g1], ?_⟩
  cases hg : meaning sq mid b with
  | none => rw [hg] at g2; exact g2
  | some g =>
    rw [hg] at g2
    obtain ⟨env', e1, e2, e3⟩ := g2
    exact ⟨env', e1, fun k' hk' => by rw [e2 k' hk', h3 k' hk'], e3⟩

example : (match compoundChain (K := ℚ) id (fun k i _ => k + 2 * i + 1) .plus .minus 2 0 (.var (.vec 2) 1) compoundExample with
    | some (.ok env) => some (env 0 0 0, env 0 1 0, env 1 1 0)
    | _ => none) = some (-73, -171, 4) := by decide +kernel

/-- **C142 for `v *= x` and `v /= x`.** Every element of `v` is multiplied or divided by `x`, also if `x` is an element of `v`, and
nothing else changes; division by zero is an error. -/
theorem C142_scale (env : Nat → Nat → Nat → K) (n k : Nat) (x : K) :
    (∀ k' i, scaleElements k x n 0 env k' i 0 = if k' = k ∧ i < n then env k' i 0 * x else env k' i 0) ∧
    (x ≠ 0 → ∃ env', divideElements k x n 0 env = .ok env' ∧
      ∀ k' i, env' k' i 0 = if k' = k ∧ i < n then env k' i 0 / x else env k' i 0) ∧
    (x = 0 → 0 < n → divideElements k x n 0 env = .error .divByZero) := by
  refine ⟨fun k' i => ?_, fun hx => ?_, ?_⟩
  · rw [scaleElements_spec]
    simp
  · obtain ⟨r, h1, h2⟩ := divideElements_spec k hx n 0 env
    refine ⟨r, h1, fun k' i => ?_⟩
    rw [h2]
    simp
  · rintro rfl hn
    obtain ⟨m, rfl⟩ := Nat.exists_eq_add_of_lt hn
    simp [divideElements, cdiv]

/-- `v *= v[0]` for `v = (3, 5)`. -/
example : (fun env : Nat → Nat → Nat → ℚ => (env 0 0 0, env 0 1 0)) (scaleElements 0 3 2 0 fun _ i _ => 3 + 2 * i) = (9, 15) := by
  decide +kernel

/-- **C142, refuted for other numbers of elements.** `v += w` for a vector `w` of two elements and `v` of three compiles and leaves the
last element of `v` as it was; `v = w` does not compile. -/
theorem C142_size_refuted :
    (match compoundAssign (K := ℚ) id (fun k i _ => 10 * k + i + 1) .plus 3 0 (.var (.vec 2) 1) with
      | some (.ok env) => some (env 0 0 0, env 0 1 0, env 0 2 0)
      | _ => none) = some (12, 14, 3) ∧
    inPlaceCompiles (.vec 3) (.var (.vec 2) 1) = false := by
  constructor <;> decide +kernel

/-- C142: in general, `v += e` for a shorter `e` leaves all the elements behind its end as they were. -/
theorem C142_size (sq : K → K) (env env' : Nat → Nat → Nat → K) (o : CompoundOp) (e : Tx) (n m k : Nat)
    (he : shapeOf e = some (.vec m) ∨ shapeOf e = some (.point m)) (h : compoundAssign sq env o n k e = some (.ok env')) :
    ∀ i, m ≤ i → env' k i 0 = env k i 0 := by
  intro i hi
  have hc : ∃ c, c ≤ m ∧ compoundElements sq o k e c 0 env = .ok env' := by
    unfold compoundAssign at h
    rcases he with he | he <;> simp only [compoundCount, he] at h <;> split at h
    all_goals first
      | (next c hc =>
          split at hc
          · exact ⟨c, by have := Option.some.inj hc; omega, Option.some.inj h⟩
          · simp at hc)
      | simp at h
  obtain ⟨c, hc, h⟩ := hc
  exact compoundElements_after sq o k e c 0 env env' h i 0 (by omega)

example : (compoundAssign (K := ℚ) id (fun k i _ => 10 * k + i + 1) .plus 3 0 (.var (.vec 2) 1)).isSome = true := by decide +kernel

/-- **C142, refuted for the cross product with the left side.** `v += v ^ w` for `v = (1, 2, 3)` and `w = (4, 5, 6)`: `v + v ^ w` is
`(-2, 8, 0)`, but the second element is computed with the first element already written. -/
theorem C142_cross_refuted :
    (match compoundAssign (K := ℚ) id (fun k i _ => 3 * k + i + 1) .plus 3 0 (.cross (.var (.vec 3) 0) (.var (.vec 3) 1)) with
      | some (.ok env) => some (env 0 0 0, env 0 1 0, env 0 2 0)
      | _ => none) = some (-2, 26, -111) ∧
    (match assign (K := ℚ) id (fun k i _ => 3 * k + i + 1) (.vec 3) 0
        (.add (.var (.vec 3) 0) (.cross (.var (.vec 3) 0) (.var (.vec 3) 1))) with
      | some (.ok env) => some (env 0 0 0, env 0 1 0, env 0 2 0)
      | _ => none) = some (-2, 8, 0) := by
  constructor <;> decide +kernel

end Geometrix
