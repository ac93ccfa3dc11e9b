import Mathlib.Data.Rat.Floor
import Verif.Lemmas.Estimate

/-!
# C116: the exact operations of `predicates.hpp`
-/

set_option linter.unusedSectionVars false

namespace Geometrix

open Spec

variable {K : Type*} [Field K] [LinearOrder K] [IsStrictOrderedRing K] [FloorRing K]

/-- C116: `Fast_Two_Sum` and `Fast_Two_Diff` give the rounded result and exactly what rounding left out, if the first number is
not the smaller one. -/
theorem C116_fast {p : Nat} (hp : 1 ≤ p) {a b : K} (ha : IsFloat p a) (hb : IsFloat p b) (hab : |b| ≤ |a|) :
    ((fastTwoSum (roundBits p) a b).1 = roundBits p (a + b) ∧
      (fastTwoSum (roundBits p) a b).1 + (fastTwoSum (roundBits p) a b).2 = a + b) ∧
    ((fastTwoDiff (roundBits p) a b).1 = roundBits p (a - b) ∧
      (fastTwoDiff (roundBits p) a b).1 + (fastTwoDiff (roundBits p) a b).2 = a - b) := by
  rw [fastTwoSum_eq hp ha hb hab, fastTwoDiff_eq hp ha hb hab]
  refine ⟨⟨rfl, ?_⟩, rfl, ?_⟩ <;> ring

/-- C116: `Two_Sum` and `Two_Diff` do so for all numbers. -/
theorem C116_two {p : Nat} (hp : 3 ≤ p) {a b : K} (ha : IsFloat p a) (hb : IsFloat p b) :
    ((twoSum (roundBits p) a b).1 = roundBits p (a + b) ∧
      (twoSum (roundBits p) a b).1 + (twoSum (roundBits p) a b).2 = a + b) ∧
    ((twoDiff (roundBits p) a b).1 = roundBits p (a - b) ∧
      (twoDiff (roundBits p) a b).1 + (twoDiff (roundBits p) a b).2 = a - b) := by
  rw [twoSum_eq hp ha hb, twoDiff_eq hp ha hb]
  refine ⟨⟨rfl, ?_⟩, rfl, ?_⟩ <;> ring

/-- With the numbers in the wrong order `Fast_Two_Sum` loses something; `Two_Sum` does not. -/
example : (fastTwoSum (roundBits 4 : ℚ → ℚ) 1 15).1 + (fastTwoSum (roundBits 4 : ℚ → ℚ) 1 15).2 = 16 ∧
    (fastTwoSum (roundBits 4 : ℚ → ℚ) 3 30).1 + (fastTwoSum (roundBits 4 : ℚ → ℚ) 3 30).2 ≠ 33 ∧
    twoSum (roundBits 4 : ℚ → ℚ) 3 30 = (32, 1) := by decide +kernel

example : IsFloat 53 (2 ^ 52 + 1 : ℚ) ∧ IsFloat 53 (1 / 2 ^ 60 : ℚ) ∧ |(1 / 2 ^ 60 : ℚ)| ≤ |(2 ^ 52 + 1 : ℚ)| :=
  ⟨⟨2 ^ 52 + 1, 0, by decide +kernel, by norm_num⟩, ⟨1, -60, by decide +kernel, by norm_num⟩, by decide +kernel⟩

example : twoSum (roundBits 53 : ℚ → ℚ) (2 ^ 52 + 1) (1 / 2 ^ 60) = (2 ^ 52 + 1, 1 / 2 ^ 60) := by decide +kernel

/-- C116: `exactinit` ends, and finds half the distance from `1` to the next number and a number for `Split`. -/
theorem C116_init {p turns : Nat} (hp : 6 ≤ p) (ht : p ≤ turns) :
    ∃ c : ExactConsts K, exactInit (roundBits p) turns = .ok c ∧ c.epsilon = 1 / 2 ^ p ∧
      c.splitter = 2 ^ ((p + 1) / 2) + 1 ∧ c.resulterrbound = 3 * c.epsilon + 8 * c.epsilon ^ 2 ∧
      c.ccwerrboundA = 3 * c.epsilon + 16 * c.epsilon ^ 2 ∧ c.ccwerrboundB = 2 * c.epsilon + 12 * c.epsilon ^ 2 ∧
      c.ccwerrboundC = 9 * c.epsilon ^ 2 + 64 * c.epsilon ^ 3 ∧
      c.o3derrboundA = 7 * c.epsilon + 56 * c.epsilon ^ 2 ∧ c.o3derrboundB = 3 * c.epsilon + 28 * c.epsilon ^ 2 ∧
      c.o3derrboundC = 26 * c.epsilon ^ 2 + 288 * c.epsilon ^ 3 ∧
      c.iccerrboundA = 10 * c.epsilon + 96 * c.epsilon ^ 2 ∧ c.iccerrboundB = 4 * c.epsilon + 48 * c.epsilon ^ 2 ∧
      c.iccerrboundC = 44 * c.epsilon ^ 2 + 576 * c.epsilon ^ 3 ∧
      c.isperrboundA = 16 * c.epsilon + 224 * c.epsilon ^ 2 ∧ c.isperrboundB = 5 * c.epsilon + 72 * c.epsilon ^ 2 ∧
      (7 ≤ p → c.isperrboundC = 71 * c.epsilon ^ 2 + 1408 * c.epsilon ^ 3) := by
  refine ⟨_, exactInit_eq hp ht, rfl, rfl, ?_, ?_, ?_, ?_, ?_, ?_, ?_, ?_, ?_, ?_, ?_, ?_,
    fun h7 => (isperrboundC_eq h7).trans ?_⟩ <;> simp only [exactConsts] <;> ring

example : (exactInit (roundBits 53 : ℚ → ℚ) 53).toOption.map (fun c => (c.epsilon, c.splitter)) =
    some (1 / 2 ^ 53, 134217729) := by decide +kernel

/-- C116: `Split` cuts a number in two with half of the bits each. -/
theorem C116_split {p turns : Nat} (hp : 6 ≤ p) (ht : p ≤ turns) {c : ExactConsts K}
    (hc : exactInit (roundBits p) turns = .ok c) {a : K} (ha : IsFloat p a) :
    (splitFloat (roundBits p) c.splitter a).1 + (splitFloat (roundBits p) c.splitter a).2 = a ∧
      IsFloat (p / 2) (splitFloat (roundBits p) c.splitter a).1 ∧
      IsFloat ((p - 1) / 2) (splitFloat (roundBits p) c.splitter a).2 := by
  rw [exactInit_eq hp ht, Except.ok.injEq] at hc
  subst hc
  by_cases ha0 : a = 0
  · rw [ha0, splitFloat_zero]
    exact ⟨add_zero _, isFloat_zero _, isFloat_zero _⟩
  obtain ⟨e, h1, h2, h3⟩ := ha.canon ha0
  obtain ⟨hi, lo, k1, k2, k3, k4, k5, k6⟩ := splitFloat_spec (s := (p + 1) / 2) (by omega) (by omega) h1 h2 h3
  have hs : (exactConsts K p).splitter = 2 ^ ((p + 1) / 2) + 1 := rfl
  rw [hs, k1]
  exact ⟨k2, isFloat_of (by omega) k3 (k5.trans (two_zpow_le (by omega))),
    isFloat_of (by omega) k4 (k6.trans (two_zpow_le (by omega)))⟩

example : splitFloat (roundBits 53 : ℚ → ℚ) 134217729 (2 ^ 53 - 1) = (2 ^ 53, -1) := by decide +kernel

/-- C116: `Two_Product`, also with halves that are known, and `Square` give the rounded product and exactly what rounding left
out. -/
theorem C116_product {p turns : Nat} (hp : 6 ≤ p) (ht : p ≤ turns) {c : ExactConsts K}
    (hc : exactInit (roundBits p) turns = .ok c) {a b : K} (ha : IsFloat p a) (hb : IsFloat p b) :
    (∀ r ∈ [twoProduct (roundBits p) c.splitter a b,
        twoProductPresplit (roundBits p) c.splitter a b (splitFloat (roundBits p) c.splitter b).1
          (splitFloat (roundBits p) c.splitter b).2,
        twoProduct2Presplit (roundBits p) a (splitFloat (roundBits p) c.splitter a).1
          (splitFloat (roundBits p) c.splitter a).2 b (splitFloat (roundBits p) c.splitter b).1
          (splitFloat (roundBits p) c.splitter b).2],
      r.1 = roundBits p (a * b) ∧ r.1 + r.2 = a * b) ∧
    (squareTail (roundBits p) c.splitter a).1 = roundBits p (a * a) ∧
      (squareTail (roundBits p) c.splitter a).1 + (squareTail (roundBits p) c.splitter a).2 = a * a := by
  rw [exactInit_eq hp ht, Except.ok.injEq] at hc
  subst hc
  have hs : (exactConsts K p).splitter = 2 ^ ((p + 1) / 2) + 1 := rfl
  have hb' : SplitBits p ((p + 1) / 2) := ⟨by omega, by omega, by omega, by omega⟩
  have h1 := twoProduct_eq hb' ha hb
  have h2 := squareTail_eq hb' ha
  rw [← hs] at h1 h2
  have key : ∀ r : K × K, r = (roundBits p (a * b), a * b - roundBits p (a * b)) →
      r.1 = roundBits p (a * b) ∧ r.1 + r.2 = a * b := by
    rintro r rfl
    exact ⟨rfl, by ring⟩
  refine ⟨fun r hr => ?_, ?_⟩
  · simp only [List.mem_cons, List.not_mem_nil, or_false] at hr
    rcases hr with rfl | rfl | rfl <;> exact key _ h1
  · rw [h2]
    exact ⟨rfl, by ring⟩

example : twoProduct (roundBits 53 : ℚ → ℚ) 134217729 (2 ^ 53 - 1) (2 ^ 53 - 1) = (2 ^ 106 - 2 ^ 54, 1) ∧
    squareTail (roundBits 53 : ℚ → ℚ) 134217729 (2 ^ 53 - 1) = (2 ^ 106 - 2 ^ 54, 1) := by decide +kernel

end Geometrix
