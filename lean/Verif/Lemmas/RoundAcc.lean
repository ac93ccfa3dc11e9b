import Mathlib.Tactic.GCongr
import Mathlib.Tactic.Linarith
import Mathlib.Tactic.Ring
import Verif.Spec.Rounding

/-!
How rounding errors add up in sums and products.
-/

set_option linter.unusedSectionVars false

namespace Geometrix

open Spec

variable {K : Type*} [Field K] [LinearOrder K] [IsStrictOrderedRing K]

/-- `x'` was computed for `x` with at most `n` roundings on top of each other, in a sum of products whose absolute values add
up to `X`. -/
structure Acc (u : K) (n : Nat) (x' x X : K) : Prop where
  le : |x| ≤ X
  near : |x' - x| ≤ ((1 + u) ^ n - 1) * X

theorem Acc.nonneg {u : K} {n : Nat} {x' x X : K} (h : Acc u n x' x X) : 0 ≤ X := (abs_nonneg x).trans h.le

theorem Acc.mono {u : K} (hu : 0 ≤ u) {n m : Nat} {x' x X : K} (h : Acc u n x' x X) (hm : n ≤ m) : Acc u m x' x X := by
  refine ⟨h.le, h.near.trans ?_⟩
  have h0 := h.nonneg
  have : (1 + u) ^ n ≤ (1 + u) ^ m := pow_le_pow_right₀ (by linarith) hm
  gcongr

theorem Acc.abs_le {u : K} {n : Nat} {x' x X : K} (h : Acc u n x' x X) : |x'| ≤ (1 + u) ^ n * X := by
  have h1 := abs_add_le (x' - x) x
  rw [sub_add_cancel] at h1
  have := h.le
  have := h.near
  linarith

theorem Acc.exact {u : K} (x : K) : Acc u 0 x x |x| := ⟨le_rfl, by simp⟩

theorem Acc.round {u : K} (hu : 0 ≤ u) {fl : K → K} (hfl : RoundsWithin u fl) {n : Nat} {x' x X : K} (h : Acc u n x' x X) :
    Acc u (n + 1) (fl x') x X := by
  refine ⟨h.le, ?_⟩
  have h1 := hfl.near x'
  have h2 := abs_add_le (fl x' - x') (x' - x)
  rw [sub_add_sub_cancel] at h2
  have h3 := mul_le_mul_of_nonneg_left h.abs_le hu
  have h4 := h.near
  rw [pow_succ]
  linarith

theorem Acc.mulE {u : K} (hu : 0 ≤ u) {m n : Nat} {x' x X y' y Y : K} (hx : Acc u m x' x X) (hy : Acc u n y' y Y) :
    Acc u (m + n) (x' * y') (x * y) (X * Y) := by
  refine ⟨by rw [abs_mul]; exact mul_le_mul hx.le hy.le (abs_nonneg _) hx.nonneg, ?_⟩
  have e : x' * y' - x * y = (x' - x) * y' + x * (y' - y) := by ring
  rw [e]
  have a1 := abs_add_le ((x' - x) * y') (x * (y' - y))
  rw [abs_mul, abs_mul] at a1
  have p1 : 1 ≤ (1 + u) ^ m := one_le_pow₀ (by linarith)
  have p2 : 1 ≤ (1 + u) ^ n := one_le_pow₀ (by linarith)
  have hX := hx.nonneg
  have hY := hy.nonneg
  have a2 : |x' - x| * |y'| ≤ (((1 + u) ^ m - 1) * X) * ((1 + u) ^ n * Y) :=
    mul_le_mul hx.near hy.abs_le (abs_nonneg _) (mul_nonneg (by linarith) hX)
  have a3 : |x| * |y' - y| ≤ X * (((1 + u) ^ n - 1) * Y) := mul_le_mul hx.le hy.near (abs_nonneg _) hX
  rw [pow_add]
  linarith

theorem Acc.mul {u : K} (hu : 0 ≤ u) {fl : K → K} (hfl : RoundsWithin u fl) {m n k : Nat} {x' x X y' y Y : K}
    (hx : Acc u m x' x X) (hy : Acc u n y' y Y) (hk : m + n + 1 ≤ k) : Acc u k (fl (x' * y')) (x * y) (X * Y) :=
  ((hx.mulE hu hy).round hu hfl).mono hu hk

theorem Acc.add {u : K} (hu : 0 ≤ u) {fl : K → K} (hfl : RoundsWithin u fl) {n k : Nat} {x' x X y' y Y : K}
    (hx : Acc u n x' x X) (hy : Acc u n y' y Y) (hk : n + 1 ≤ k) : Acc u k (fl (x' + y')) (x + y) (X + Y) := by
  refine Acc.mono hu (Acc.round hu hfl ⟨?_, ?_⟩) hk
  · have := hx.le
    have := hy.le
    have := abs_add_le x y
    linarith
  · have h1 := hx.near
    have h2 := hy.near
    have := abs_add_le (x' - x) (y' - y)
    rw [show x' + y' - (x + y) = x' - x + (y' - y) by ring]
    linarith

theorem Acc.neg {u : K} {n : Nat} {x' x X : K} (h : Acc u n x' x X) : Acc u n (-x') (-x) X :=
  ⟨by rw [abs_neg]; exact h.le, by rw [show -x' - -x = -(x' - x) by ring, abs_neg]; exact h.near⟩

theorem Acc.sub {u : K} (hu : 0 ≤ u) {fl : K → K} (hfl : RoundsWithin u fl) {n k : Nat} {x' x X y' y Y : K}
    (hx : Acc u n x' x X) (hy : Acc u n y' y Y) (hk : n + 1 ≤ k) : Acc u k (fl (x' - y')) (x - y) (X + Y) := by
  have := hx.add hu hfl hy.neg hk
  rwa [← sub_eq_add_neg, ← sub_eq_add_neg] at this

theorem Acc.base {u : K} (hu : 0 ≤ u) {fl : K → K} (hfl : RoundsWithin u fl) (x : K) : Acc u 1 (fl x) x |x| :=
  (Acc.exact x).round hu hfl

end Geometrix
