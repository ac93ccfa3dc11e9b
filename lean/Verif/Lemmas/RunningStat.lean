import Verif.Model.RunningStat
import Verif.Spec.RunningStat
import Verif.Lemmas.FloatGrid
import Mathlib.Tactic.FieldSimp
import Mathlib.Tactic.LinearCombination
import Mathlib.Tactic.Positivity

/-!
# Lemmas on running statistics and scope timers
-/

set_option linter.unusedSectionVars false

namespace Geometrix

open Spec

variable {K : Type*} [Field K] [LinearOrder K] [IsStrictOrderedRing K]

theorem length_ne {l : List Nat} (h : l ≠ []) : (l.length : K) ≠ 0 := by
  rw [Ne, Nat.cast_eq_zero, List.length_eq_zero_iff]; exact h

theorem length_mul_mean {l : List Nat} (h : l ≠ []) : (l.length : K) * meanOf l = (l.sum : K) := by
  unfold meanOf
  rw [mul_div_cancel₀ _ (length_ne h)]

theorem mean_append {l : List Nat} (h : l ≠ []) (x : Nat) :
    (meanOf (l ++ [x]) : K) = meanOf l + ((x : K) - meanOf l) / ((l.length + 1 : Nat) : K) := by
  have h1 := length_mul_mean (K := K) h
  have h2 := length_mul_mean (K := K) (l := l ++ [x]) (by simp)
  have h3 := length_ne (K := K) (l := l ++ [x]) (by simp)
  simp only [List.length_append, List.length_singleton, List.sum_append, List.sum_singleton] at h2 h3
  push_cast at h2 h3 ⊢
  field_simp
  linear_combination h2 - h1

theorem sum_sq_shift (l : List Nat) (m : K) : (l.map fun x : Nat => ((x : K) - m) ^ 2).sum =
    (l.map fun x : Nat => (x : K) ^ 2).sum - 2 * m * (l.sum : K) + l.length * m ^ 2 := by
  induction l with
  | nil => simp
  | cons a l ih =>
    simp only [List.map_cons, List.sum_cons, List.length_cons]
    rw [ih]
    push_cast
    ring

theorem squares_append {l : List Nat} (h : l ≠ []) (x : Nat) :
    (squaresOf (l ++ [x]) : K) = squaresOf l + ((x : K) - meanOf l) * ((x : K) - meanOf (l ++ [x])) := by
  unfold squaresOf
  rw [sum_sq_shift, sum_sq_shift]
  have h1 := length_mul_mean (K := K) h
  have h2 := length_mul_mean (K := K) (l := l ++ [x]) (by simp)
  simp only [List.length_append, List.length_singleton, List.sum_append, List.sum_singleton, List.map_append, List.map_cons,
    List.map_nil] at h2 ⊢
  push_cast at h2 ⊢
  set m : K := meanOf l
  set m' : K := meanOf (l ++ [x])
  rw [← h1] at h2 ⊢
  linear_combination (m' - m) * h2

/-- The state after some numbers are pushed, with exact arithmetic. -/
theorem pushAll_exact {l : List Nat} (hl : l ≠ []) (h64 : ∀ x ∈ l, x < 2 ^ 64) (s : RunningStat K) (hs : s.n = 0) :
    ∃ newS, l.foldl (fun s x => s.push id x) s =
      ⟨l.length, some (meanOf l), some (meanOf l), some (squaresOf l), newS, some (l.sum % 2 ^ 64)⟩ ∧
      (1 < l.length → newS = some (squaresOf l)) := by
  induction l using List.reverseRecOn with
  | nil => exact absurd rfl hl
  | append_singleton l x ih =>
    rw [List.foldl_append, List.foldl_cons, List.foldl_nil]
    by_cases h0 : l = []
    · subst h0
      refine ⟨s.newS, ?_, by simp⟩
      have hx := h64 x (by simp)
      simp [RunningStat.push, hs, meanOf, squaresOf]
      omega
    · obtain ⟨newS, e, -⟩ := ih h0 fun y hy => h64 y (by simp [hy])
      rw [e]
      have hlen : l.length + 1 ≠ 1 := by
        have := List.length_pos_iff.2 h0
        omega
      refine ⟨some (squaresOf (l ++ [x])), ?_, fun _ => rfl⟩
      simp only [RunningStat.push, hlen, ne_eq, not_false_eq_true, if_true, id_eq, Option.map_some, List.length_append,
        List.length_singleton, List.sum_append, List.sum_singleton, Nat.mod_add_mod]
      rw [squares_append h0, mean_append h0]

section rounded

variable [FloorRing K]

theorem round_pos_le {p : Nat} (hp : 2 ≤ p) {x : K} (hx : 0 ≤ x) : roundBits p x ≤ 5 / 4 * x := by
  have h := roundBits_near p x
  rw [abs_of_nonneg hx] at h
  have h2 : (1 / 2 ^ p : K) ≤ 1 / 4 := by
    have : (4 : K) ≤ 2 ^ p := by
      calc (4 : K) = 2 ^ 2 := by norm_num
        _ ≤ 2 ^ p := pow_le_pow_right₀ (by norm_num) hp
    exact one_div_le_one_div_of_le (by norm_num) this
  have := le_trans (le_abs_self _) h
  have h3 := mul_le_mul_of_nonneg_right h2 hx
  linarith

theorem two_float {p : Nat} (hp : 2 ≤ p) : roundBits p (2 : K) = 2 := by
  have : |(2 : ℤ)| ≤ 2 ^ p := by
    rw [abs_of_pos (by norm_num)]
    calc (2 : ℤ) = 2 ^ 1 := by norm_num
      _ ≤ 2 ^ p := pow_le_pow_right₀ (by norm_num) (by omega)
  exact_mod_cast roundBits_int (K := K) (by omega) this

/-- The new mean is between the old one and the number, from below. -/
theorem step_up {p : Nat} (hp : 2 ≤ p) {X M N : K} (hX : IsFloat p X) (hM : IsFloat p M) (hN : 2 ≤ N) (h : M ≤ X) :
    M ≤ roundBits p (M + roundBits p (roundBits p (X - M) / N)) ∧
      roundBits p (M + roundBits p (roundBits p (X - M) / N)) ≤ X := by
  have hp1 : 1 ≤ p := by omega
  have d0 : 0 ≤ X - M := sub_nonneg.2 h
  have d1 := round_pos_le hp d0
  have d2 := roundBits_nonneg p d0
  have q0 : 0 ≤ roundBits p (X - M) / N := div_nonneg d2 (by linarith)
  have q1 : roundBits p (X - M) / N ≤ roundBits p (X - M) / 2 := div_le_div_of_nonneg_left d2 (by norm_num) hN
  have q2 := round_pos_le hp q0
  have q3 := roundBits_nonneg p q0
  constructor
  · have := roundBits_mono (K := K) hp1 (show M ≤ M + roundBits p (roundBits p (X - M) / N) by linarith)
    rwa [hM.round hp1] at this
  · have := roundBits_mono (K := K) hp1 (show M + roundBits p (roundBits p (X - M) / N) ≤ X by linarith)
    rwa [hX.round hp1] at this

theorem step_down {p : Nat} (hp : 2 ≤ p) {X M N : K} (hX : IsFloat p X) (hM : IsFloat p M) (hN : 2 ≤ N) (h : X ≤ M) :
    X ≤ roundBits p (M + roundBits p (roundBits p (X - M) / N)) ∧
      roundBits p (M + roundBits p (roundBits p (X - M) / N)) ≤ M := by
  have hp1 : 1 ≤ p := by omega
  have neg : ∀ {y : K}, IsFloat p y → IsFloat p (-y) := by
    intro y hy
    have := roundBits_isFloat hp1 (-y)
    rwa [roundBits_neg, hy.round hp1] at this
  have := step_up hp (neg hX) (neg hM) hN (neg_le_neg h)
  have e : -M + roundBits p (roundBits p (-X - -M) / N) = -(M + roundBits p (roundBits p (X - M) / N)) := by
    rw [show -X - -M = -(X - M) by ring, roundBits_neg, neg_div, roundBits_neg]; ring
  rw [e, roundBits_neg] at this
  exact ⟨neg_le_neg_iff.1 this.2, neg_le_neg_iff.1 this.1⟩

theorem mul_same_sign {p : Nat} {X M M' : K} (h : (M ≤ M' ∧ M' ≤ X) ∨ (X ≤ M' ∧ M' ≤ M)) :
    0 ≤ roundBits p (X - M) * roundBits p (X - M') := by
  rcases h with ⟨h1, h2⟩ | ⟨h1, h2⟩
  · exact mul_nonneg (roundBits_nonneg p (by linarith)) (roundBits_nonneg p (by linarith))
  · have e1 : roundBits p (X - M) = - roundBits p (M - X) := by rw [← roundBits_neg]; congr 1; ring
    have e2 : roundBits p (X - M') = - roundBits p (M' - X) := by rw [← roundBits_neg]; congr 1; ring
    rw [e1, e2, neg_mul_neg]
    exact mul_nonneg (roundBits_nonneg p (by linarith)) (roundBits_nonneg p (by linarith))

theorem count_ge {p : Nat} (hp : 2 ≤ p) {n : Nat} (hn : 2 ≤ n) : (2 : K) ≤ roundBits p (n : K) := by
  have : (2 : K) ≤ (n : K) := by exact_mod_cast hn
  have := roundBits_mono (K := K) (p := p) (by omega) this
  rwa [two_float hp] at this

/-- The state after some numbers are pushed, with rounding. -/
structure RoundedState (p : Nat) (a b : K) (n : Nat) (s : RunningStat K) : Prop where
  count : s.n = n
  mean : ∃ M, s.oldM = some M ∧ s.newM = some M ∧ IsFloat p M ∧ a ≤ M ∧ M ≤ b
  squares : ∃ S, s.oldS = some S ∧ 0 ≤ S ∧ (1 < n → s.newS = some S)

theorem pushAll_rounded {p : Nat} (hp : 2 ≤ p) {l : List Nat} (hl : l ≠ []) {a b : K}
    (hab : ∀ x ∈ l, a ≤ roundBits p (x : K) ∧ roundBits p (x : K) ≤ b) (s : RunningStat K) (hs : s.n = 0) :
    RoundedState p a b l.length (l.foldl (fun s x => s.push (roundBits p) x) s) := by
  have hp1 : 1 ≤ p := by omega
  induction l using List.reverseRecOn with
  | nil => exact absurd rfl hl
  | append_singleton l x ih =>
    rw [List.foldl_append, List.foldl_cons, List.foldl_nil]
    obtain ⟨xa, xb⟩ := hab x (by simp)
    by_cases h0 : l = []
    · subst h0
      simp only [List.foldl_nil, RunningStat.push, hs, List.nil_append]
      exact ⟨rfl, ⟨_, rfl, rfl, roundBits_isFloat hp1 _, xa, xb⟩, ⟨0, rfl, le_rfl, by simp⟩⟩
    · obtain ⟨c, ⟨M, m1, m2, m3, m4, m5⟩, ⟨S, s1, s2, s3⟩⟩ := ih h0 fun y hy => hab y (by simp [hy])
      have hlen := List.length_pos_iff.2 h0
      generalize l.foldl (fun s x => s.push (roundBits p) x) s = t at c m1 m2 s1 s3
      have hn : t.n + 1 ≠ 1 := by omega
      simp only [RunningStat.push, hn, ne_eq, not_false_eq_true, if_true, m1, s1]
      have hN := count_ge (K := K) hp (n := t.n + 1) (by omega)
      have fX := roundBits_isFloat (K := K) hp1 (x : K)
      have hbt : (M ≤ roundBits p (M + roundBits p (roundBits p (roundBits p (x : K) - M) / roundBits p ((t.n + 1 : Nat) : K))) ∧
            roundBits p (M + roundBits p (roundBits p (roundBits p (x : K) - M) / roundBits p ((t.n + 1 : Nat) : K))) ≤ roundBits p (x : K)) ∨
          (roundBits p (x : K) ≤ roundBits p (M + roundBits p (roundBits p (roundBits p (x : K) - M) / roundBits p ((t.n + 1 : Nat) : K))) ∧
            roundBits p (M + roundBits p (roundBits p (roundBits p (x : K) - M) / roundBits p ((t.n + 1 : Nat) : K))) ≤ M) := by
        rcases le_total M (roundBits p (x : K)) with h | h
        · exact Or.inl (step_up hp fX m3 hN h)
        · exact Or.inr (step_down hp fX m3 hN h)
      refine ⟨by simp [c], ⟨_, rfl, rfl, roundBits_isFloat hp1 _, ?_, ?_⟩, ⟨_, rfl, ?_, fun _ => rfl⟩⟩
      · rcases hbt with h | h <;> linarith [h.1]
      · rcases hbt with h | h <;> linarith [h.2]
      · exact roundBits_nonneg p (add_nonneg s2 (roundBits_nonneg p (mul_same_sign hbt)))

theorem pushAll_constant {p : Nat} (c : Nat) (k : Nat) (s : RunningStat K) (hs : s.n = 0) (hp : 1 ≤ p) :
    ∃ newS sum, (List.replicate (k + 1) c).foldl (fun s x => s.push (roundBits p) x) s =
      ⟨k + 1, some (roundBits p (c : K)), some (roundBits p (c : K)), some 0, newS, sum⟩ ∧ (1 < k + 1 → newS = some 0) := by
  induction k with
  | zero => exact ⟨s.newS, some c, by simp [RunningStat.push, hs], by simp⟩
  | succ k ih =>
    obtain ⟨newS, sum, e, -⟩ := ih
    rw [List.replicate_succ', List.foldl_append, e, List.foldl_cons, List.foldl_nil]
    have hn : k + 1 + 1 ≠ 1 := by omega
    have hf := (roundBits_isFloat (K := K) hp (c : K)).round hp
    refine ⟨some 0, sum.map fun y => (y + c) % 2 ^ 64, ?_, fun _ => rfl⟩
    simp only [RunningStat.push, hn, ne_eq, not_false_eq_true, if_true, sub_self, roundBits_zero, zero_div, add_zero, mul_zero, hf]

/-- The error of one step of the mean. -/
theorem step_error {p : Nat} (hp : 2 ≤ p) {B M x n : K} (hn : 2 ≤ n) (hM0 : 0 ≤ M) (hM : M ≤ B) (hx0 : 0 ≤ x) (hx : x ≤ B)
    (hX : roundBits p x ≤ B) (hM' : |roundBits p (M + roundBits p (roundBits p (roundBits p x - M) / n))| ≤ B) :
    n * |roundBits p (M + roundBits p (roundBits p (roundBits p x - M) / n)) - (M + (x - M) / n)| ≤ (1 / 2 ^ p) * B * (n + 4) := by
  have hp1 : 1 ≤ p := by omega
  have hu : (0 : K) < 1 / 2 ^ p := by positivity
  have hu4 : (1 / 2 ^ p : K) ≤ 1 / 4 := by
    have : (4 : K) ≤ 2 ^ p := by
      calc (4 : K) = 2 ^ 2 := by norm_num
        _ ≤ 2 ^ p := pow_le_pow_right₀ (by norm_num) hp
    exact one_div_le_one_div_of_le (by norm_num) this
  set u : K := 1 / 2 ^ p
  have hB : 0 ≤ B := hx0.trans hx
  have hn0 : 0 < n := by linarith
  set X := roundBits p x
  have X0 : 0 ≤ X := roundBits_nonneg p hx0
  set d := roundBits p (X - M)
  set q := roundBits p (d / n)
  have e1 : |X - x| ≤ u * B := by
    have := roundBits_near p x
    rw [abs_of_nonneg hx0] at this
    exact this.trans (mul_le_mul_of_nonneg_left hx hu.le)
  have hXM : |X - M| ≤ B := abs_le.2 ⟨by linarith, by linarith⟩
  have e2 : |d - (X - M)| ≤ u * B := (roundBits_near p _).trans (mul_le_mul_of_nonneg_left hXM hu.le)
  have hd : |d| ≤ 5 / 4 * B := by
    have h1 : |d| ≤ |d - (X - M)| + |X - M| := by
      have := abs_add_le (d - (X - M)) (X - M); simpa using this
    have : u * B ≤ 1 / 4 * B := mul_le_mul_of_nonneg_right hu4 hB
    linarith
  have e3 : |q - d / n| ≤ u * (|d| / n) := by
    have := roundBits_near p (d / n)
    rwa [abs_div, abs_of_pos hn0] at this
  have e4 : |roundBits p (M + q) - (M + q)| ≤ u * B := by
    have := roundBits_rel hp1 (M + q)
    rw [abs_sub_comm] at this
    exact this.trans (mul_le_mul_of_nonneg_left hM' hu.le)
  have e5 : n * |q - d / n| ≤ u * (5 / 4 * B) := by
    calc n * |q - d / n| ≤ n * (u * (|d| / n)) := mul_le_mul_of_nonneg_left e3 hn0.le
      _ = u * |d| := by field_simp
      _ ≤ _ := mul_le_mul_of_nonneg_left hd hu.le
  have split : roundBits p (M + q) - (M + (x - M) / n) =
      (roundBits p (M + q) - (M + q)) + ((q - d / n) + ((d - (X - M)) + (X - x)) / n) := by
    field_simp; ring
  have t : n * |roundBits p (M + q) - (M + (x - M) / n)| ≤
      n * |roundBits p (M + q) - (M + q)| + (n * |q - d / n| + (|d - (X - M)| + |X - x|)) := by
    rw [split]
    have h1 := abs_add_le (roundBits p (M + q) - (M + q)) ((q - d / n) + ((d - (X - M)) + (X - x)) / n)
    have h2 := abs_add_le (q - d / n) (((d - (X - M)) + (X - x)) / n)
    have h3 : |((d - (X - M)) + (X - x)) / n| ≤ (|d - (X - M)| + |X - x|) / n := by
      rw [abs_div, abs_of_pos hn0]
      exact div_le_div_of_nonneg_right (abs_add_le _ _) hn0.le
    calc n * |(roundBits p (M + q) - (M + q)) + ((q - d / n) + ((d - (X - M)) + (X - x)) / n)|
        ≤ n * (|roundBits p (M + q) - (M + q)| + (|q - d / n| + (|d - (X - M)| + |X - x|) / n)) :=
          mul_le_mul_of_nonneg_left (by linarith) hn0.le
      _ = _ := by field_simp
  have e6 := mul_le_mul_of_nonneg_left e4 hn0.le
  have huB := mul_nonneg hu.le hB
  nlinarith

/-- The distance of the mean from the exact one. -/
theorem mean_error {p : Nat} (hp : 2 ≤ p) {B : K} (hB : IsFloat p B) {l : List Nat} (hl : l ≠ []) (hlen : l.length ≤ 2 ^ p)
    (hx : ∀ x ∈ l, (x : K) ≤ B) (s : RunningStat K) (hs : s.n = 0) :
    ∃ M, (l.foldl (fun s x => s.push (roundBits p) x) s).oldM = some M ∧
      l.length * |M - meanOf l| ≤ 2 * (1 / 2 ^ p) * B * (l.length : K) ^ 2 := by
  have hp1 : 1 ≤ p := by omega
  have hr : ∀ x ∈ l, (0 : K) ≤ roundBits p (x : K) ∧ roundBits p (x : K) ≤ B := by
    intro x hxm
    refine ⟨roundBits_nonneg p (Nat.cast_nonneg x), ?_⟩
    have := roundBits_mono (K := K) hp1 (hx x hxm)
    rwa [hB.round hp1] at this
  have hu : (0 : K) < 1 / 2 ^ p := by positivity
  induction l using List.reverseRecOn with
  | nil => exact absurd rfl hl
  | append_singleton l x ih =>
    rw [List.foldl_append, List.foldl_cons, List.foldl_nil]
    have hxB := hx x (by simp)
    have hx0 : (0 : K) ≤ x := Nat.cast_nonneg x
    have hB0 : 0 ≤ B := hx0.trans hxB
    by_cases h0 : l = []
    · subst h0
      refine ⟨roundBits p (x : K), by simp [RunningStat.push, hs], ?_⟩
      have := roundBits_near p (x : K)
      rw [abs_of_nonneg hx0] at this
      have h2 := mul_le_mul_of_nonneg_left hxB hu.le
      have h3 := mul_nonneg hu.le hB0
      simp only [List.nil_append, List.length_singleton, Nat.cast_one, one_mul, one_pow, mul_one, meanOf, List.sum_singleton, div_one]
      linarith
    · have hl' : l.length + 1 ≤ 2 ^ p := by simpa using hlen
      obtain ⟨M, hM, err⟩ := ih h0 (by omega) (fun y hy => hx y (by simp [hy])) (fun y hy => hr y (by simp [hy]))
      obtain ⟨c, ⟨M₁, m1, -, m3, m4, m5⟩, ⟨S, s1, -, -⟩⟩ :=
        pushAll_rounded hp h0 (fun y hy => hr y (by simp [hy])) s hs
      obtain ⟨-, ⟨M₂, k1, -, -, k4, k5⟩, -⟩ := pushAll_rounded hp (l := l ++ [x]) (by simp) hr s hs
      rw [List.foldl_append, List.foldl_cons, List.foldl_nil] at k1
      have hlp := List.length_pos_iff.2 h0
      generalize l.foldl (fun s x => s.push (roundBits p) x) s = t at c m1 s1 hM k1
      obtain rfl : M₁ = M := Option.some.inj (m1.symm.trans hM)
      have hn : t.n + 1 ≠ 1 := by omega
      simp only [RunningStat.push, hn, ne_eq, not_false_eq_true, if_true, m1, s1, Option.some.injEq] at k1 ⊢
      refine ⟨_, rfl, ?_⟩
      have hcount : roundBits p ((t.n + 1 : Nat) : K) = ((l.length + 1 : Nat) : K) := by
        rw [c]
        have : |((l.length + 1 : Nat) : ℤ)| ≤ 2 ^ p := by
          rw [abs_of_nonneg (by positivity)]; exact_mod_cast hl'
        exact_mod_cast roundBits_int (K := K) hp1 this
      rw [hcount] at k1 ⊢
      have hn2 : (2 : K) ≤ ((l.length + 1 : Nat) : K) := by exact_mod_cast (by omega : 2 ≤ l.length + 1)
      have step := step_error hp hn2 m4 m5 hx0 hxB (hr x (by simp)).2 (by rw [k1]; exact abs_le.2 ⟨by linarith, k5⟩)
      rw [k1] at step ⊢
      rw [mean_append h0]
      simp only [List.length_append, List.length_singleton]
      set n : K := ((l.length + 1 : Nat) : K) with hnd
      have hln : (l.length : K) = n - 1 := by rw [hnd]; push_cast; ring
      rw [hln] at err
      have hn0 : 0 < n := by linarith
      have e : n * |M₂ - (meanOf l + ((x : K) - meanOf l) / n)| ≤
          n * |M₂ - (M₁ + ((x : K) - M₁) / n)| + (n - 1) * |M₁ - meanOf l| := by
        have id : M₂ - (meanOf l + ((x : K) - meanOf l) / n) =
            (M₂ - (M₁ + ((x : K) - M₁) / n)) + ((n - 1) / n) * (M₁ - meanOf l) := by
          field_simp; ring
        rw [id]
        have := abs_add_le (M₂ - (M₁ + ((x : K) - M₁) / n)) (((n - 1) / n) * (M₁ - meanOf l))
        rw [abs_mul, abs_of_nonneg (div_nonneg (by linarith) hn0.le : 0 ≤ (n - 1) / n)] at this
        calc n * _ ≤ n * (|M₂ - (M₁ + ((x : K) - M₁) / n)| + (n - 1) / n * |M₁ - meanOf l|) :=
              mul_le_mul_of_nonneg_left this hn0.le
          _ = _ := by field_simp
      have huB := mul_nonneg hu.le hB0
      have huBn := mul_nonneg huB (by linarith : 0 ≤ n - 2)
      nlinarith

end rounded

section map

variable {S : Type*} [LinearOrder S]

/-- The statistics of the numbers for a name. -/
def statsFor (fl : K → K) (l : List Nat) : RunningStat K := l.foldl (fun s x => s.push fl x) RunningStat.fresh

theorem callMapPush_keys (fl : K → K) (name : S) (x : Nat) (m : List (S × RunningStat K)) (k : S)
    (h : k ∈ (callMapPush fl name x m).map Prod.fst) : k = name ∨ k ∈ m.map Prod.fst := by
  induction m with
  | nil => left; simpa [callMapPush] using h
  | cons e t ih =>
    obtain ⟨k', s⟩ := e
    rw [callMapPush] at h
    split at h
    · simp only [List.map_cons, List.mem_cons] at h ⊢
      tauto
    · split at h
      · simp only [List.map_cons, List.mem_cons] at h ⊢
        rcases h with h | h
        · exact Or.inr (Or.inl h)
        · rcases ih h with h | h
          · exact Or.inl h
          · exact Or.inr (Or.inr h)
      · simp only [List.map_cons, List.mem_cons] at h ⊢
        tauto

theorem callMapPush_sorted (fl : K → K) (name : S) (x : Nat) (m : List (S × RunningStat K))
    (h : (m.map Prod.fst).Pairwise (· < ·)) : ((callMapPush fl name x m).map Prod.fst).Pairwise (· < ·) := by
  induction m with
  | nil => simp [callMapPush]
  | cons e t ih =>
    obtain ⟨k, s⟩ := e
    obtain ⟨h1, h2⟩ := List.pairwise_cons.1 h
    rw [callMapPush]
    split
    · rename_i hlt
      refine List.pairwise_cons.2 ⟨fun a ha => ?_, h⟩
      rcases List.mem_cons.1 ha with rfl | ha
      · exact hlt
      · exact hlt.trans (h1 a ha)
    · split
      · rename_i hlt
        refine List.pairwise_cons.2 ⟨fun a ha => ?_, ih h2⟩
        rcases callMapPush_keys fl name x t a ha with rfl | ha
        · exact hlt
        · exact h1 a ha
      · exact h

theorem callMapPush_mem (fl : K → K) (name : S) (x : Nat) (m : List (S × RunningStat K))
    (h : (m.map Prod.fst).Pairwise (· < ·)) (k : S) (s : RunningStat K) :
    (k, s) ∈ callMapPush fl name x m ↔ (k ≠ name ∧ (k, s) ∈ m) ∨
      (k = name ∧ ((∃ s', (k, s') ∈ m ∧ s = s'.push fl x) ∨ (k ∉ m.map Prod.fst ∧ s = RunningStat.fresh.push fl x))) := by
  induction m with
  | nil => simp [callMapPush]
  | cons e t ih =>
    obtain ⟨k', s'⟩ := e
    obtain ⟨h1, h2⟩ := List.pairwise_cons.1 h
    have ih := ih h2
    have hout : ∀ {c : S}, c ≤ k' → ∀ r, (c, r) ∉ t := by
      intro c hc r hr
      exact absurd (h1 c (List.mem_map.2 ⟨_, hr, rfl⟩)) (not_lt.2 hc)
    rw [callMapPush]
    split
    · rename_i hlt
      have hno : ∀ r, (name, r) ∉ (k', s') :: t := by
        intro r hr
        rcases List.mem_cons.1 hr with hr | hr
        · exact hlt.ne (Prod.mk.inj hr).1
        · exact hout hlt.le r hr
      have hno' : name ∉ ((k', s') :: t).map Prod.fst := by
        intro hr
        obtain ⟨⟨c, r⟩, hm, rfl⟩ := List.mem_map.1 hr
        exact hno r hm
      rw [List.mem_cons]
      constructor
      · rintro (hr | hr)
        · obtain ⟨rfl, rfl⟩ := Prod.mk.inj hr
          exact Or.inr ⟨rfl, Or.inr ⟨hno', rfl⟩⟩
        · refine Or.inl ⟨?_, hr⟩
          rintro rfl
          exact hno _ hr
      · rintro (⟨_, hr⟩ | ⟨rfl, ⟨r, hr, _⟩ | ⟨_, rfl⟩⟩)
        · exact Or.inr hr
        · exact absurd hr (hno r)
        · exact Or.inl rfl
    · rename_i hnl
      split
      · rename_i hlt
        rw [List.mem_cons, ih]
        have hne : k' ≠ name := hlt.ne
        simp only [List.mem_cons, Prod.mk.injEq, List.map_cons]
        constructor
        · rintro (⟨rfl, rfl⟩ | ⟨hk, hr⟩ | ⟨rfl, ⟨r, hr, rfl⟩ | ⟨hr, rfl⟩⟩)
          · exact Or.inl ⟨hne, Or.inl ⟨rfl, rfl⟩⟩
          · exact Or.inl ⟨hk, Or.inr hr⟩
          · exact Or.inr ⟨rfl, Or.inl ⟨r, Or.inr hr, rfl⟩⟩
          · refine Or.inr ⟨rfl, Or.inr ⟨?_, rfl⟩⟩
            rintro (h | h)
            · exact hne h.symm
            · exact hr h
        · rintro (⟨hk, ⟨rfl, rfl⟩ | hr⟩ | ⟨rfl, ⟨r, ⟨h, _⟩ | hr, rfl⟩ | ⟨hr, rfl⟩⟩)
          · exact Or.inl ⟨rfl, rfl⟩
          · exact Or.inr (Or.inl ⟨hk, hr⟩)
          · exact absurd h.symm hne
          · exact Or.inr (Or.inr ⟨rfl, Or.inl ⟨r, hr, rfl⟩⟩)
          · exact Or.inr (Or.inr ⟨rfl, Or.inr ⟨fun h => hr (Or.inr h), rfl⟩⟩)
      · rename_i hnl2
        obtain rfl : k' = name := le_antisymm (not_lt.1 hnl) (not_lt.1 hnl2)
        simp only [List.mem_cons, Prod.mk.injEq, List.map_cons]
        constructor
        · rintro (⟨rfl, rfl⟩ | hr)
          · exact Or.inr ⟨rfl, Or.inl ⟨s', Or.inl ⟨rfl, rfl⟩, rfl⟩⟩
          · refine Or.inl ⟨?_, Or.inr hr⟩
            rintro rfl
            exact hout le_rfl _ hr
        · rintro (⟨hk, ⟨rfl, _⟩ | hr⟩ | ⟨rfl, ⟨r, ⟨_, rfl⟩ | hr, rfl⟩ | ⟨hr, rfl⟩⟩)
          · exact absurd rfl hk
          · exact Or.inr hr
          · exact Or.inl ⟨rfl, rfl⟩
          · exact absurd hr (hout le_rfl r)
          · exact absurd (Or.inl rfl) hr

theorem durationsOf_append (name : S) (l : List (S × Int × Int)) (e : S × Int × Int) :
    durationsOf name (l ++ [e]) = if e.1 = name then durationsOf name l ++ [(e.2.2 - e.2.1).toNat] else durationsOf name l := by
  unfold durationsOf
  rw [List.filter_append, List.map_append]
  split
  · rename_i h; simp [h]
  · rename_i h; simp [h]

/-- What the map holds after some scopes have ended. -/
theorem endScope_all (fl : K → K) (l : List (S × Int × Int)) (hl : ∀ e ∈ l, e.2.1 ≤ e.2.2 ∧ e.2.2 - e.2.1 < 2 ^ 64) :
    ((l.foldl (endScope fl) []).map Prod.fst).Pairwise (· < ·) ∧
    ∀ (k : S) (s : RunningStat K), (k, s) ∈ l.foldl (endScope fl) [] ↔
      durationsOf k l ≠ [] ∧ s = statsFor fl (durationsOf k l) := by
  induction l using List.reverseRecOn with
  | nil => simp [durationsOf]
  | append_singleton l e ih =>
    obtain ⟨h1, h2⟩ := ih fun e he => hl e (by simp [he])
    rw [List.foldl_append, List.foldl_cons, List.foldl_nil]
    refine ⟨callMapPush_sorted _ _ _ _ h1, fun k s => ?_⟩
    obtain ⟨t1, t2⟩ := hl e (by simp)
    have hd : (e.2.2 - e.2.1) % 2 ^ 64 = e.2.2 - e.2.1 := Int.emod_eq_of_lt (by linarith) t2
    rw [endScope, callMapPush_mem _ _ _ _ h1, hd, durationsOf_append]
    have hkey : k ∉ (l.foldl (endScope fl) []).map Prod.fst ↔ durationsOf k l = [] := by
      constructor
      · intro h
        by_contra hne
        exact h (List.mem_map.2 ⟨(k, statsFor fl (durationsOf k l)), (h2 _ _).2 ⟨hne, rfl⟩, rfl⟩)
      · intro h hm
        obtain ⟨⟨k', s'⟩, hm', rfl⟩ := List.mem_map.1 hm
        exact ((h2 _ _).1 hm').1 h
    by_cases hk : e.1 = k
    · subst hk
      simp only [ne_eq, not_true_eq_false, false_and, true_and, false_or, if_true, List.append_eq_nil_iff, List.cons_ne_self, and_false,
        not_false_eq_true, reduceCtorEq]
      rw [hkey]
      have hstep : statsFor fl (durationsOf e.1 l ++ [(e.2.2 - e.2.1).toNat]) =
          (statsFor fl (durationsOf e.1 l)).push fl (e.2.2 - e.2.1).toNat := by
        unfold statsFor
        rw [List.foldl_append, List.foldl_cons, List.foldl_nil]
      rw [hstep]
      constructor
      · rintro (⟨s', hm, rfl⟩ | ⟨h0, rfl⟩)
        · rw [((h2 _ _).1 hm).2]
        · rw [h0]; rfl
      · rintro rfl
        by_cases h0 : durationsOf e.1 l = []
        · exact Or.inr ⟨h0, by rw [h0]; rfl⟩
        · exact Or.inl ⟨_, (h2 _ _).2 ⟨h0, rfl⟩, rfl⟩
    · rw [if_neg hk, ← h2]
      have : k ≠ e.1 := fun h => hk h.symm
      simp [this]

end map

end Geometrix
