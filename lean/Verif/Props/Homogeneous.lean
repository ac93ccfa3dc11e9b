import Verif.Lemmas.Homogeneous
import Mathlib.Data.Rat.Floor
import Mathlib.Algebra.BigOperators.Intervals

/-!
# Property theorems: homogeneous coordinates, traces and identity matrices
-/

set_option linter.unusedSectionVars false

namespace Geometrix

open Spec Finset

variable {K : Type*} [Field K] [LinearOrder K] [IsStrictOrderedRing K]

/-- **C125, points.** Products of matrices of affine maps, with any parentheses, applied to `as_positional_homogeneous(p)`
of a point `p` and assigned to a point compile, and the point assigned is `p` moved by the maps, the rightmost first.
Read as homogeneous coordinates the result has the last coordinate 1. `env h` are the elements of the adaptor. -/
theorem C125_point (n : Nat) (hn : 1 ≤ n) (sq : K → K) (env : Nat → Nat → Nat → K) (p : Nat → K) (h d : Nat)
    (ms : List Motion) (hh : ∀ i, env h i 0 = asPositional n p i)
    (ha : ∀ k ∈ ms.flatMap Motion.vars, IsAffine n (env k)) :
    homogeneousShape (.point n) = some (.point (n + 1)) ∧ (∀ i, homogeneousCompiles n i = true ↔ i < n + 1) ∧
    (∃ env', assign sq env (.point n) d (placed (n + 1) (.point (n + 1)) h ms) = some (.ok env') ∧
      (∀ i < n, env' d i 0 = (ms.flatMap Motion.vars).foldr (fun k => movePoint n (env k)) p i) ∧
      ∀ k, k ≠ d → env' k = env k) ∧
    ∃ env', assign sq env (.point (n + 1)) d (placed (n + 1) (.point (n + 1)) h ms) = some (.ok env') ∧
      (∀ i < n, env' d i 0 = (ms.flatMap Motion.vars).foldr (fun k => movePoint n (env k)) p i) ∧
      env' d n 0 = 1 ∧ ∀ k, k ≠ d → env' k = env k := by
  have hx : (fun i => env h i 0) n = 1 := by simp [hh, asPositional, homogeneousGet, positionalCoord]
  obtain ⟨f1, f2⟩ := foldr_affine 1 env (fun i => env h i 0) hx _ ha
  have key : ∀ ks : List Nat, ∀ i < n,
      ks.foldr (fun k y i => (∑ j ∈ range n, env k i j * y j) + env k i n * 1) (fun i => env h i 0) i
        = ks.foldr (fun k => movePoint n (env k)) p i := by
    intro ks
    induction ks with
    | nil =>
      intro i hi
      simp only [List.foldr_nil, hh, asPositional, homogeneousGet]
      rw [if_neg (by omega)]
    | cons k ks ih =>
      intro i hi
      simp only [List.foldr_cons, movePoint, mul_one] at ih ⊢
      congr 1
      exact sum_congr rfl fun j hj => by rw [ih j (mem_range.1 hj)]
  refine ⟨rfl, ?_, ?_, ?_⟩
  · intro i
    simp [homogeneousCompiles]
    omega
  · obtain ⟨env', h1, h2, h3⟩ := assign_placed hn (s := .point (n + 1)) (u := .point n) (Or.inl rfl) rfl
      (Nat.le_succ n) rfl sq env h d ms
    exact ⟨env', h1, fun i hi => by rw [h2 i hi, f2 i hi, key _ i hi], h3⟩
  · obtain ⟨env', h1, h2, h3⟩ := assign_placed hn (s := .point (n + 1)) (u := .point (n + 1)) (Or.inl rfl) rfl
      (le_refl _) rfl sq env h d ms
    exact ⟨env', h1, fun i hi => by rw [h2 i (Nat.lt_succ_of_lt hi), f2 i hi, key _ i hi],
      by rw [h2 n (Nat.lt_succ_self n), f1], h3⟩

/-- **C125, directions.** The same for `as_vectoral_homogeneous(v)` of a vector `v`: translations have no effect. -/
theorem C125_direction (n : Nat) (hn : 1 ≤ n) (sq : K → K) (env : Nat → Nat → Nat → K) (v : Nat → K) (h d : Nat)
    (ms : List Motion) (hh : ∀ i, env h i 0 = asVectoral n v i)
    (ha : ∀ k ∈ ms.flatMap Motion.vars, IsAffine n (env k)) :
    homogeneousShape (.vec n) = some (.vec (n + 1)) ∧
    (∃ env', assign sq env (.vec n) d (placed (n + 1) (.vec (n + 1)) h ms) = some (.ok env') ∧
      (∀ i < n, env' d i 0 = (ms.flatMap Motion.vars).foldr (fun k => moveDirection n (env k)) v i) ∧
      ∀ k, k ≠ d → env' k = env k) ∧
    ∃ env', assign sq env (.vec (n + 1)) d (placed (n + 1) (.vec (n + 1)) h ms) = some (.ok env') ∧
      (∀ i < n, env' d i 0 = (ms.flatMap Motion.vars).foldr (fun k => moveDirection n (env k)) v i) ∧
      env' d n 0 = 0 ∧ ∀ k, k ≠ d → env' k = env k := by
  have hx : (fun i => env h i 0) n = 0 := by simp [hh, asVectoral, homogeneousGet, vectoralCoord]
  obtain ⟨f1, f2⟩ := foldr_affine 0 env (fun i => env h i 0) hx _ ha
  have key : ∀ ks : List Nat, ∀ i < n,
      ks.foldr (fun k y i => (∑ j ∈ range n, env k i j * y j) + env k i n * 0) (fun i => env h i 0) i
        = ks.foldr (fun k => moveDirection n (env k)) v i := by
    intro ks
    induction ks with
    | nil =>
      intro i hi
      simp only [List.foldr_nil, hh, asVectoral, homogeneousGet]
      rw [if_neg (by omega)]
    | cons k ks ih =>
      intro i hi
      simp only [List.foldr_cons, moveDirection, mul_zero, add_zero] at ih ⊢
      exact sum_congr rfl fun j hj => by rw [ih j (mem_range.1 hj)]
  refine ⟨rfl, ?_, ?_⟩
  · obtain ⟨env', h1, h2, h3⟩ := assign_placed hn (s := .vec (n + 1)) (u := .vec n) (Or.inr rfl) rfl
      (Nat.le_succ n) rfl sq env h d ms
    exact ⟨env', h1, fun i hi => by rw [h2 i hi, f2 i hi, key _ i hi], h3⟩
  · obtain ⟨env', h1, h2, h3⟩ := assign_placed hn (s := .vec (n + 1)) (u := .vec (n + 1)) (Or.inr rfl) rfl
      (le_refl _) rfl sq env h d ms
    exact ⟨env', h1, fun i hi => by rw [h2 i (Nat.lt_succ_of_lt hi), f2 i hi, key _ i hi],
      by rw [h2 n (Nat.lt_succ_self n), f1], h3⟩

/-- A translation by `(1, 0)` as variable 0, a quarter turn as variable 1, and the homogeneous coordinates of the point
`(2, 3)` as variable 2 and of that vector as variable 3. -/
def exampleMotions : Nat → Nat → Nat → ℚ
  | 0, 0, 0 => 1
  | 0, 1, 1 => 1
  | 0, 0, 2 => 1
  | 0, 2, 2 => 1
  | 1, 0, 1 => -1
  | 1, 1, 0 => 1
  | 1, 2, 2 => 1
  | 2, i, _ => asPositional 2 (fun i => if i = 0 then 2 else 3) i
  | 3, i, _ => asVectoral 2 (fun i => if i = 0 then 2 else 3) i
  | _, _, _ => 0

example : IsAffine 2 (exampleMotions 0) ∧ IsAffine 2 (exampleMotions 1) := by
  unfold IsAffine; decide +kernel

/-- `(t * r) * hp`: the point is turned and then moved. -/
example : (match assign id exampleMotions (.point 2) 4
      (placed 3 (.point 3) 2 [.after (.single 0) (.single 1)]) with
    | some (.ok env) => some (env 4 0 0, env 4 1 0)
    | _ => none) = some (-2, 2) := by decide +kernel

/-- `t * (r * hv)`: the vector is only turned. -/
example : (match assign id exampleMotions (.vec 2) 4 (placed 3 (.vec 3) 3 [.single 0, .single 1]) with
    | some (.ok env) => some (env 4 0 0, env 4 1 0)
    | _ => none) = some (-3, 2) := by decide +kernel

/-- **C125, identity.** The elements of `identity_matrix` and those that `GEOMETRIX_ENUM_IDENTITY_MATRIX_SEQUENCE( n, n )`
writes are those of the identity matrix: a matrix of size `n ≥ 2` multiplied with it on either side is the same
matrix. -/
theorem C125_identity (n : Nat) (hn : 2 ≤ n) (sq : K → K) (env : Nat → Nat → Nat → K) (a b d : Nat)
    (hb : (∀ i < n, ∀ j < n, env b i j = identityGet i j) ∨
      ∀ i < n, ∀ j < n, (identityElements n n)[i]?.bind (fun row => row[j]?) = some (env b i j)) :
    (∃ env', assign sq env (.mat n n) d (.mul (.var (.mat n n) a) (.var (.mat n n) b)) = some (.ok env') ∧
      ∀ i < n, ∀ j < n, env' d i j = env a i j) ∧
    ∃ env', assign sq env (.mat n n) d (.mul (.var (.mat n n) b) (.var (.mat n n) a)) = some (.ok env') ∧
      ∀ i < n, ∀ j < n, env' d i j = env a i j := by
  have hI : ∀ i < n, ∀ j < n, env b i j = if i = j then 1 else 0 := by
    rcases hb with hb | hb
    · intro i hi j hj
      rw [hb i hi j hj, identityGet]
      by_cases hij : i = j <;> simp [hij]
    · intro i hi j hj
      have := hb i hi j hj
      simp [identityElements, hi, hj] at this
      rw [← this]
  have hgen : ∀ x y, ∃ env', assign sq env (.mat n n) d (.mul (.var (.mat n n) x) (.var (.mat n n) y))
      = some (.ok env') ∧ ∀ i < n, ∀ j < n, env' d i j = ∑ k ∈ range n, env x i k * env y k j := by
    intro x y
    have hm : meaningShape (.mul (.var (.mat n n) x) (.var (.mat n n) y)) = some (.mat n n) :=
      motion_shape (n := n) (by omega) (.after (.single x) (.single y))
    obtain ⟨h1, h2, h3, h4⟩ := good_of_supported sq env _ _ hm
      (motion_supported hn (.after (.single x) (.single y)))
    have hmean : meaning sq env (.mul (.var (.mat n n) x) (.var (.mat n n) y))
        = some fun i j => ∑ k ∈ range n, env x i k * env y k j := by
      have hp : 1 ≤ n := by omega
      simp [meaning, meaningShape, Positive, hp, Shape.cols]
    rw [hmean] at h4
    obtain ⟨w, hw, hw'⟩ := readAll_ok h4
    have hcomp : assignCompiles (.mat n n) (.mul (.var (.mat n n) x) (.var (.mat n n) y)) = true := by
      simp only [assignCompiles, h1, sameKind_self, Bool.true_and]
      exact (allBelow_eq _ _ _).2 h3
    refine ⟨Function.update env d w, ?_, ?_⟩
    · unfold assign
      rw [if_pos hcomp, hw]
    · intro i hi j hj
      rw [Function.update_self]
      exact hw' i hi j hj
  constructor
  · obtain ⟨env', h1, h2⟩ := hgen a b
    refine ⟨env', h1, fun i hi j hj => ?_⟩
    rw [h2 i hi j hj, sum_eq_single j]
    · rw [hI j hj j hj, if_pos rfl, mul_one]
    · intro k hk hkj
      rw [hI k (mem_range.1 hk) j hj, if_neg hkj, mul_zero]
    · intro hh; exact absurd (mem_range.2 hj) hh
  · obtain ⟨env', h1, h2⟩ := hgen b a
    refine ⟨env', h1, fun i hi j hj => ?_⟩
    rw [h2 i hi j hj, sum_eq_single i]
    · rw [hI i hi i hi, if_pos rfl, one_mul]
    · intro k hk hki
      rw [hI i hi k (mem_range.1 hk), if_neg (Ne.symm hki), zero_mul]
    · intro hh; exact absurd (mem_range.2 hi) hh

example : (identityElements 2 3 : List (List ℚ)) = [[1, 0, 0], [0, 1, 0]] := by decide +kernel

/-- **C125, partial for the trace.** The trace of a square matrix of size at least 2 is the sum of its diagonal. That of
a product does not depend on the order of the factors. The full property also has size 1, for which the call
does not compile. -/
theorem C125_trace_partial (n : Nat) (hn : 2 ≤ n) (a b : Nat → Nat → K) :
    trace n n a = some (∑ k ∈ range n, a k k) ∧
    trace n n (fun i j => ∑ k ∈ range n, a i k * b k j) = trace n n (fun i j => ∑ k ∈ range n, b i k * a k j) := by
  have h : ∀ m : Nat → Nat → K, trace n n m = some (∑ k ∈ range n, m k k) := by
    intro m
    obtain ⟨k, rfl⟩ : ∃ k, n = k + 1 := ⟨n - 1, by omega⟩
    unfold trace
    rw [if_pos ⟨hn, le_refl _⟩]
    simp only [Nat.add_sub_cancel]
    rw [traceSum_eq, sum_range_succ, add_comm]
  refine ⟨h a, ?_⟩
  rw [h, h, sum_comm]
  congr 1
  exact sum_congr rfl fun i _ => sum_congr rfl fun j _ => mul_comm _ _

example : trace 2 2 (exampleMotions 0) = some 2 := by decide +kernel

/-- **C125, refuted.** The trace of a matrix of size 1 does not compile, and that of a matrix with more columns than rows,
which has none, does. -/
theorem C125_trace_refuted (m : Nat → Nat → K) :
    trace 1 1 m = none ∧ trace 2 3 m = some (m 1 1 + m 0 0) := by
  constructor <;> simp [trace, traceSum]

end Geometrix
