import Verif.Model.MixedTypes
import Verif.Spec.MixedTypes
import Verif.Lemmas.FixedPoint
import Verif.Lemmas.FloatGrid
import Verif.Lemmas.Rounding
import Mathlib.Data.Nat.Log
import Mathlib.Data.Prod.Lex

/-!
# Lemmas about types of numbers
-/

namespace Geometrix

open Spec

theorem log_lt_iff_exists {a b : ℕ} (ha : a ≠ 0) (hb : b ≠ 0) :
    Nat.log 10 a < Nat.log 10 b ↔ ∃ k : ℕ, 10 ^ k ≤ b ∧ ¬ 10 ^ k ≤ a := by
  constructor
  · intro h
    refine ⟨Nat.log 10 b, Nat.pow_log_le_self 10 hb, ?_⟩
    intro h2
    have := (Nat.le_log_iff_pow_le (b := 10) (by norm_num) ha).2 h2
    omega
  · rintro ⟨k, h1, h2⟩
    have h3 := (Nat.le_log_iff_pow_le (b := 10) (by norm_num) hb).2 h1
    have h4 := (Nat.log_lt_iff_lt_pow (b := 10) (by norm_num) ha).2 (not_le.1 h2)
    omega

theorem widthLess_iff (a b : ArithTy) : a.widthLess b = true ↔ Narrower a b := by
  cases a with
  | integral s =>
    cases b with
    | integral t =>
      have e : ∀ u : IntTy, ((u.hi.toNat + 1 : ℕ) : ℤ) = u.hi + 1 := fun u => by cases u <;> rfl
      simp only [ArithTy.widthLess, decide_eq_true_eq]
      change Nat.log 10 _ < Nat.log 10 _ ↔ ∃ k : ℕ, (10 : ℤ) ^ k ≤ t.hi + 1 ∧ ¬ (10 : ℤ) ^ k ≤ s.hi + 1
      rw [log_lt_iff_exists (by omega) (by omega)]
      refine exists_congr fun k => ?_
      rw [← e s, ← e t]
      norm_cast
    | floating p => simp [ArithTy.widthLess, Narrower]
  | floating p =>
    cases b with
    | integral t => simp [ArithTy.widthLess, Narrower]
    | floating q =>
      simp only [ArithTy.widthLess, decide_eq_true_eq]
      exact log_lt_iff_exists (Nat.two_pow_pos _).ne' (Nat.two_pow_pos _).ne'

/-- A rank that gives the order of the types by width. -/
def widthRank : ArithTy → ℕ ×ₗ ℕ
  | .integral t => toLex (0, (ArithTy.integral t).digits)
  | .floating p => toLex (1, (ArithTy.floating p).digits)

theorem widthLess_rank (a b : ArithTy) : a.widthLess b = true ↔ widthRank a < widthRank b := by
  cases a <;> cases b <;> simp [ArithTy.widthLess, widthRank, Prod.Lex.lt_iff]

theorem narrower_rank (a b : ArithTy) : Narrower a b ↔ widthRank a < widthRank b := by
  rw [← widthLess_iff, widthLess_rank]

theorem selectSequence_spec (a : ArithTy) (l : List ArithTy) :
    ArithTy.selectSequence a l ∈ a :: l ∧ ∀ u ∈ a :: l, widthRank u ≤ widthRank (ArithTy.selectSequence a l) := by
  induction l generalizing a with
  | nil => simp [ArithTy.selectSequence]
  | cons b l ih =>
    have e : ArithTy.selectSequence a (b :: l) = ArithTy.selectSequence (if a.widthLess b then b else a) l := rfl
    rw [e]
    obtain ⟨h1, h2⟩ := ih (if a.widthLess b then b else a)
    have h3 := h2 _ List.mem_cons_self
    constructor
    · rcases List.mem_cons.1 h1 with h | h
      · rw [h]; split <;> simp
      · simp [h]
    · intro u hu
      rcases List.mem_cons.1 hu with rfl | hu
      · by_cases hw : u.widthLess b = true
        · rw [if_pos hw] at h3 ⊢; exact ((widthLess_rank _ _).1 hw).le.trans h3
        · rw [if_neg hw] at h3 ⊢; exact h3
      · rcases List.mem_cons.1 hu with rfl | hu
        · by_cases hw : a.widthLess u = true
          · rw [if_pos hw] at h3 ⊢; exact h3
          · rw [if_neg hw] at h3 ⊢
            rw [widthLess_rank, not_lt] at hw; exact hw.trans h3
        · exact h2 u (List.mem_cons_of_mem _ hu)

theorem selectSequence_replicate (s : ArithTy) (n : ℕ) : ArithTy.selectSequence s (List.replicate n s) = s := by
  have h := (selectSequence_spec s (List.replicate n s)).1
  rcases List.mem_cons.1 h with h | h
  · exact h
  · exact List.eq_of_mem_replicate h

section
variable {K : Type*} [Field K] [LinearOrder K] [IsStrictOrderedRing K] [FloorRing K]

theorem towardZero_int (n : ℤ) : towardZero (n : K) = n := by
  unfold towardZero; split <;> simp

theorem towardZero_isTrunc (x : K) : IsTrunc x (towardZero x) := by
  unfold towardZero
  constructor
  · intro h; rw [if_pos h]; exact ⟨Int.floor_le x, Int.lt_floor_add_one x⟩
  · intro h
    by_cases h0 : 0 ≤ x
    · have : x = 0 := le_antisymm h h0
      subst this
      simp [IsCeil]
    · rw [if_neg h0]
      exact ⟨by have := Int.ceil_lt_add_one x; linarith, Int.le_ceil x⟩

/-- A number that the target type has is not changed. -/
theorem convertNum_same {s t : ArithTy} {x : K} (hp : ∀ p, t = .floating p → 1 ≤ p) (h : HasNum t x) : convertNum s t x = .ok x := by
  cases t with
  | floating p => simp only [convertNum]; rw [Spec.IsFloat.round (hp p rfl) h]
  | integral t =>
    obtain ⟨n, h1, h2, rfl⟩ := h
    have hn : t.Has n := ⟨h1, h2⟩
    cases s with
    | integral u => simp only [convertNum, Int.floor_intCast]; rw [intConv_has hn]
    | floating p => simp only [convertNum]; rw [towardZero_int, if_pos hn]

theorem intTy_bounds (t : IntTy) : t.lo ≤ 0 ∧ 0 ≤ t.hi := by cases t <;> decide

theorem intTy_small {t : IntTy} (h : t.bits ≤ 32) : |t.lo| ≤ 2 ^ 52 ∧ |t.hi| ≤ 2 ^ 52 := by
  revert h; cases t <;> decide

theorem roundBits53_int {n : ℤ} (h : |n| ≤ 2 ^ 53) : roundBits 53 (n : K) = n := roundBits_int (by norm_num) h

theorem roundBits53_succ {n : ℤ} (h : |n| ≤ 2 ^ 52) : roundBits 53 (roundBits 53 (n : K) + 1) = ((n + 1 : ℤ) : K) := by
  rw [roundBits53_int (h.trans (by norm_num)), show (n : K) + 1 = ((n + 1 : ℤ) : K) by push_cast; rfl]
  refine roundBits53_int ?_
  rw [abs_le] at h ⊢
  omega

theorem roundBits53_pred {n : ℤ} (h : |n| ≤ 2 ^ 52) : roundBits 53 (roundBits 53 (n : K) - 1) = ((n - 1 : ℤ) : K) := by
  rw [roundBits53_int (h.trans (by norm_num)), show (n : K) - 1 = ((n - 1 : ℤ) : K) by push_cast; rfl]
  refine roundBits53_int ?_
  rw [abs_le] at h ⊢
  omega

theorem towardZero_lt_lo {x : K} {l : ℤ} (hl : l ≤ 0) : x ≤ ((l - 1 : ℤ) : K) ↔ towardZero x < l := by
  unfold towardZero
  by_cases h : 0 ≤ x
  · rw [if_pos h]
    have h1 : 0 ≤ ⌊x⌋ := Int.floor_nonneg.2 h
    constructor
    · intro h2
      have h3 : ((l - 1 : ℤ) : K) < 0 := by exact_mod_cast (by omega : l - 1 < 0)
      linarith
    · intro h2; omega
  · rw [if_neg h, ← Int.ceil_le]
    omega

theorem towardZero_gt_hi {x : K} {u : ℤ} (hu : 0 ≤ u) : ((u + 1 : ℤ) : K) ≤ x ↔ u < towardZero x := by
  unfold towardZero
  by_cases h : 0 ≤ x
  · rw [if_pos h, ← Int.le_floor]
    omega
  · rw [if_neg h]
    push Not at h
    have h1 : ⌈x⌉ ≤ 0 := by rw [Int.ceil_le]; exact_mod_cast h.le
    constructor
    · intro h2
      have h3 : (0 : K) < ((u + 1 : ℤ) : K) := by exact_mod_cast (by omega : 0 < u + 1)
      linarith
    · intro h2; omega

theorem demoteInt_small {t : IntTy} (h : t.bits ≤ 32) (x : K) :
    demoteInt t x = if t.Has (towardZero x) then .ok (towardZero x) else .error .thrown := by
  obtain ⟨h1, h2⟩ := intTy_small h
  obtain ⟨h3, h4⟩ := intTy_bounds t
  unfold demoteInt
  rw [roundBits53_succ h2, roundBits53_pred h1]
  simp only [towardZero_lt_lo h3, towardZero_gt_hi h4]
  by_cases ha : towardZero x < t.lo
  · rw [if_pos ha, if_neg fun hh => by have := hh.1; omega]
  · rw [if_neg ha]
    by_cases hb : t.hi < towardZero x
    · rw [if_pos hb, if_neg fun hh => by have := hh.2; omega]
    · rw [if_neg hb, if_pos ⟨by omega, by omega⟩]

/-- The bounds that `demote` compares with lie outside `2 ^ 53`. -/
theorem demoteInt_of_le {t : IntTy} {n : ℤ} (hn : t.Has n) (h : |n| ≤ 2 ^ 53) : demoteInt t (n : K) = .ok n := by
  by_cases ht : t.bits ≤ 32
  · rw [demoteInt_small ht, towardZero_int, if_pos hn]
  · have hlo : roundBits 53 (roundBits 53 (t.lo : K) - 1) < (n : K) := by
      rcases lt_or_ge t.lo 0 with h0 | h0
      · have e : t.lo = -2 ^ 63 := by revert ht h0; cases t <;> decide
        have h2 : roundBits 53 (roundBits 53 (t.lo : K) - 1) ≤ roundBits 53 (roundBits 53 (t.lo : K)) :=
          roundBits_mono (by norm_num) (by linarith)
        have h3 : roundBits 53 (roundBits 53 (t.lo : K)) ≤ roundBits 53 ((-2 ^ 54 : ℤ) : K) := by
          refine roundBits_mono (by norm_num) ?_
          have h5 := roundBits_near (K := K) 53 (t.lo : K)
          rw [e] at h5 ⊢
          rw [abs_le] at h5
          have h6 : |((-2 ^ 63 : ℤ) : K)| = 2 ^ 63 := by rw [← Int.cast_abs]; norm_num
          rw [h6] at h5
          have := h5.2
          push_cast at this ⊢
          norm_num at this ⊢
          linarith
        have h4 : roundBits 53 ((-2 ^ 54 : ℤ) : K) ≤ ((-2 ^ 53 - 1 : ℤ) : K) := by
          have h5 := roundBits_near (K := K) 53 ((-2 ^ 54 : ℤ) : K)
          have h6 : |((-2 ^ 54 : ℤ) : K)| = 2 ^ 54 := by rw [← Int.cast_abs]; norm_num
          rw [abs_le, h6] at h5
          have := h5.2
          push_cast at this ⊢
          norm_num at this ⊢
          linarith
        have h7 : ((-2 ^ 53 - 1 : ℤ) : K) < (n : K) := by
          rw [abs_le] at h
          exact_mod_cast (by omega : (-2 ^ 53 - 1 : ℤ) < n)
        linarith
      · have e : t.lo = 0 := le_antisymm (intTy_bounds t).1 h0
        have h8 : 0 ≤ n := by rw [← e]; exact hn.1
        rw [roundBits53_pred (by rw [e]; norm_num), e]
        exact_mod_cast (by omega : (0 - 1 : ℤ) < n)
    have hhi : (n : K) < roundBits 53 (roundBits 53 (t.hi : K) + 1) := by
      have e : 2 ^ 63 - 1 ≤ t.hi := by revert ht; cases t <;> decide
      have h4 : ((2 ^ 53 + 2 : ℤ) : K) ≤ roundBits 53 ((2 ^ 54 : ℤ) : K) := by
        have h5 := roundBits_near (K := K) 53 ((2 ^ 54 : ℤ) : K)
        have h6 : |((2 ^ 54 : ℤ) : K)| = 2 ^ 54 := by rw [← Int.cast_abs]; norm_num
        rw [abs_le, h6] at h5
        have := h5.1
        push_cast at this ⊢
        norm_num at this ⊢
        linarith
      have h2 : roundBits 53 ((2 ^ 54 : ℤ) : K) ≤ roundBits 53 (roundBits 53 (t.hi : K) + 1) := by
        have h9 : ((2 ^ 54 : ℤ) : K) ≤ (t.hi : K) := by exact_mod_cast (by omega : (2 ^ 54 : ℤ) ≤ t.hi)
        refine roundBits_mono (by norm_num) ?_
        have h5 := roundBits_near (K := K) 53 (t.hi : K)
        have h10 : (0 : K) ≤ (t.hi : K) := by exact_mod_cast (by omega : (0 : ℤ) ≤ t.hi)
        have h11 : ((2 ^ 62 : ℤ) : K) ≤ (t.hi : K) := by exact_mod_cast (by omega : (2 ^ 62 : ℤ) ≤ t.hi)
        rw [abs_le, abs_of_nonneg h10] at h5
        have := h5.1
        push_cast at this h11 ⊢
        norm_num at this h11 ⊢
        linarith
      have h7 : (n : K) < ((2 ^ 53 + 2 : ℤ) : K) := by
        rw [abs_le] at h
        exact_mod_cast (by omega : n < (2 ^ 53 + 2 : ℤ))
      linarith
    unfold demoteInt
    rw [if_neg (not_le.2 hlo), if_neg (not_le.2 hhi), towardZero_int]

end

end Geometrix
