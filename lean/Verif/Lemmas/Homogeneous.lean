import Verif.Model.Homogeneous
import Verif.Spec.Homogeneous
import Verif.Lemmas.ExpressionsTensor

/-!
# Lemmas on homogeneous coordinates
-/

set_option linter.unusedSectionVars false

namespace Geometrix

open Spec Finset

variable {K : Type*} [Field K] [LinearOrder K] [IsStrictOrderedRing K]

/-- A matrix applied to coordinates. -/
def applyMat (n : Nat) (m : Nat → Nat → K) (x : Nat → K) (i : Nat) : K := ∑ k ∈ range n, m i k * x k

theorem applyMat_congr {n : Nat} {m : Nat → Nat → K} {x y : Nat → K} (h : ∀ i < n, x i = y i) (i : Nat) :
    applyMat n m x i = applyMat n m y i :=
  sum_congr rfl fun k hk => by rw [h k (mem_range.1 hk)]

theorem applyMat_mul {n : Nat} (a b : Nat → Nat → K) (x : Nat → K) (i : Nat) :
    applyMat n (fun i j => ∑ k ∈ range n, a i k * b k j) x i = applyMat n a (applyMat n b x) i := by
  unfold applyMat
  simp only [sum_mul, mul_sum]
  rw [sum_comm]
  exact sum_congr rfl fun k _ => sum_congr rfl fun j _ => by ring

theorem motion_shape {n : Nat} (hn : 1 ≤ n) : ∀ c : Motion, meaningShape (c.term n) = some (.mat n n)
  | .single k => by simp [Motion.term, meaningShape, Positive, hn]
  | .after a b => by simp [Motion.term, meaningShape, motion_shape hn a, motion_shape hn b, productShape]

theorem motion_supported {n : Nat} (hn : 2 ≤ n) : ∀ c : Motion, Supported (c.term n)
  | .single k => trivial
  | .after a b => by
    refine ⟨motion_supported hn a, motion_supported hn b, ?_⟩
    intro s t hs ht
    rw [motion_shape (by omega) a] at hs
    rw [motion_shape (by omega) b] at ht
    cases hs; cases ht
    exact hn

theorem motion_meaning {n : Nat} (hn : 1 ≤ n) (sq : K → K) (env : Nat → Nat → Nat → K) :
    ∀ c : Motion, ∃ f, meaning sq env (c.term n) = some f ∧
      ∀ x i, applyMat n f x i = c.vars.foldr (fun k => applyMat n (env k)) x i
  | .single k => ⟨env k, rfl, fun x i => rfl⟩
  | .after a b => by
    obtain ⟨f, hf, hf'⟩ := motion_meaning hn sq env a
    obtain ⟨g, hg, hg'⟩ := motion_meaning hn sq env b
    refine ⟨fun i j => ∑ k ∈ range n, f i k * g k j, ?_, ?_⟩
    · simp [Motion.term, meaning, hf, hg, motion_shape hn a, motion_shape hn b, Shape.cols]
    · intro x i
      rw [applyMat_mul, applyMat_congr (fun i _ => hg' x i), hf']
      simp [Motion.vars, List.foldr_append]

/-- A point or a vector of dimension `n`. -/
def IsColumn (n : Nat) (s : Shape) : Prop := s = .point n ∨ s = .vec n

theorem placed_shape {n : Nat} (hn : 1 ≤ n) {s : Shape} (hs : IsColumn n s) (h : Nat) :
    ∀ ms : List Motion, meaningShape (placed n s h ms) = some s
  | [] => by rcases hs with rfl | rfl <;> simp [placed, meaningShape, Positive, hn]
  | m :: ms => by
    rcases hs with rfl | rfl <;>
      simp [placed, meaningShape, motion_shape hn m, placed_shape hn (Or.inl rfl) h ms,
        placed_shape hn (Or.inr rfl) h ms, productShape]

theorem placed_supported {n : Nat} (hn : 2 ≤ n) {s : Shape} (hs : IsColumn n s) (h : Nat) :
    ∀ ms : List Motion, Supported (placed n s h ms)
  | [] => trivial
  | m :: ms => by
    refine ⟨motion_supported hn m, placed_supported hn hs h ms, ?_⟩
    intro t u ht hu
    rw [motion_shape (by omega) m] at ht
    rw [placed_shape (by omega) hs h ms] at hu
    cases ht; cases hu
    rcases hs with rfl | rfl <;> exact ⟨rfl, hn⟩

theorem placed_meaning {n : Nat} (hn : 1 ≤ n) {s : Shape} (hs : IsColumn n s) (sq : K → K)
    (env : Nat → Nat → Nat → K) (h : Nat) :
    ∀ ms : List Motion, ∃ f, meaning sq env (placed n s h ms) = some f ∧
      ∀ i, f i 0 = (ms.flatMap Motion.vars).foldr (fun k => applyMat n (env k)) (fun i => env h i 0) i
  | [] => ⟨env h, rfl, fun _ => rfl⟩
  | m :: ms => by
    obtain ⟨f, hf, hf'⟩ := motion_meaning hn sq env m
    obtain ⟨g, hg, hg'⟩ := placed_meaning hn hs sq env h ms
    refine ⟨fun i j => ∑ k ∈ range n, f i k * g k j, ?_, ?_⟩
    · rcases hs with rfl | rfl <;>
        simp [placed, meaning, hf, hg, motion_shape hn m, placed_shape hn (Or.inl rfl) h ms,
          placed_shape hn (Or.inr rfl) h ms, Shape.cols]
    · intro i
      have h1 : (∑ k ∈ range n, f i k * g k 0) = applyMat n f (fun k => g k 0) i := rfl
      have h2 : (fun k => g k 0) =
          (ms.flatMap Motion.vars).foldr (fun k => applyMat n (env k)) (fun i => env h i 0) := funext hg'
      simp only [h1, h2, List.flatMap_cons, List.foldr_append]
      rw [hf']

/-- A matrix of size `n + 1` with last row `0 … 0 1` applied to homogeneous coordinates. -/
theorem applyMat_affine {n : Nat} {m : Nat → Nat → K} (hm : IsAffine n m) (w : K) (x : Nat → K) (hx : x n = w) :
    applyMat (n + 1) m x n = w ∧
    ∀ i, applyMat (n + 1) m x i = (∑ k ∈ range n, m i k * x k) + m i n * w := by
  constructor
  · unfold applyMat
    rw [sum_range_succ, hm.2, hx, sum_eq_zero]
    · ring
    · intro k hk
      rw [hm.1 k (mem_range.1 hk), zero_mul]
  · intro i
    unfold applyMat
    rw [sum_range_succ, hx]

theorem foldr_affine {n : Nat} (w : K) (env : Nat → Nat → Nat → K) (x : Nat → K) (hx : x n = w) :
    ∀ ks : List Nat, (∀ k ∈ ks, IsAffine n (env k)) →
      ks.foldr (fun k => applyMat (n + 1) (env k)) x n = w ∧
      ∀ i < n, ks.foldr (fun k => applyMat (n + 1) (env k)) x i
        = ks.foldr (fun k y i => (∑ j ∈ range n, env k i j * y j) + env k i n * w) x i
  | [], _ => ⟨hx, fun _ _ => rfl⟩
  | k :: ks, h => by
    obtain ⟨h1, h2⟩ := foldr_affine w env x hx ks fun j hj => h j (List.mem_cons_of_mem _ hj)
    obtain ⟨h3, h4⟩ := applyMat_affine (h k List.mem_cons_self) w _ h1
    refine ⟨h3, fun i hi => ?_⟩
    simp only [List.foldr_cons]
    rw [h4]
    congr 1
    exact sum_congr rfl fun j hj => by rw [h2 j (mem_range.1 hj)]

/-- Reading the elements of the left side that has no more of them than the expression. -/
theorem assign_placed {n : Nat} (hn : 1 ≤ n) {s u : Shape} (hs : IsColumn (n + 1) s)
    (hu : sameKind u s = true) (hr : u.rows ≤ n + 1) (hc : u.cols = 1)
    (sq : K → K) (env : Nat → Nat → Nat → K) (h d : Nat) (ms : List Motion) :
    ∃ env', assign sq env u d (placed (n + 1) s h ms) = some (.ok env') ∧
      (∀ i < u.rows, env' d i 0 =
        (ms.flatMap Motion.vars).foldr (fun k => applyMat (n + 1) (env k)) (fun i => env h i 0) i) ∧
      ∀ k, k ≠ d → env' k = env k := by
  obtain ⟨f, hf, hf'⟩ := placed_meaning (n := n + 1) (by omega) hs sq env h ms
  obtain ⟨h1, h2, h3, h4⟩ := good_of_supported sq env _ s (placed_shape (by omega) hs h ms)
    (placed_supported (by omega) hs h ms)
  have hsr : s.rows = n + 1 := by rcases hs with rfl | rfl <;> rfl
  have hsc : s.cols = 1 := by rcases hs with rfl | rfl <;> rfl
  have hcomp : assignCompiles u (placed (n + 1) s h ms) = true := by
    simp only [assignCompiles, h1, hu, Bool.true_and]
    exact (allBelow_eq _ _ _).2 fun i hi j hj => h3 i (by omega) j (by omega)
  rw [hf] at h4
  have h5 : ∀ i < u.rows, ∀ j < u.cols, value sq env (placed (n + 1) s h ms) i j = .ok (f i j) :=
    fun i hi j hj => h4 i (by omega) j (by omega)
  obtain ⟨v, hv, hv'⟩ := readAll_ok h5
  refine ⟨Function.update env d v, ?_, ?_, ?_⟩
  · unfold assign
    rw [if_pos hcomp, hv]
  · intro i hi
    rw [Function.update_self, hv' i hi 0 (by omega), hf']
  · intro k hk
    exact Function.update_of_ne hk _ _

theorem traceSum_eq (m : Nat → Nat → K) : ∀ (i : Nat) (s : K), traceSum m i s = s + ∑ k ∈ range i, m k k
  | 0, s => by simp [traceSum]
  | i + 1, s => by rw [traceSum, traceSum_eq m i, sum_range_succ]; ring

end Geometrix
