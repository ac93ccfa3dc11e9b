import Verif.Model.FixedPoint
import Verif.Spec.FixedPoint
import Mathlib.Algebra.Order.Floor.Defs
import Mathlib.Data.Rat.Floor
import Mathlib.Tactic.Linarith
import Mathlib.Tactic.Push
import Mathlib.Tactic.Positivity

/-!
# Lemmas about fixed point numbers
-/

namespace Geometrix

open Spec

theorem numericCast_ok {t : IntTy} {n m : Int} : numericCast t n = .ok m ↔ t.Has n ∧ m = n := by
  unfold numericCast
  split
  · constructor
    · intro h; exact ⟨‹_›, (Except.ok.inj h).symm⟩
    · rintro ⟨-, rfl⟩; rfl
  · constructor
    · intro h; simp at h
    · rintro ⟨h, -⟩; exact absurd h ‹_›

theorem numericCast_has {t : IntTy} {n : Int} (h : t.Has n) : numericCast t n = .ok n := if_pos h

theorem intArith_has {t : IntTy} {n : Int} (h : t.Has n) : intArith t n = .ok n := if_pos h

theorem has_widen {t : IntTy} {n : Int} (h : t.Has n) : t.widen.Has n := by
  unfold IntTy.Has at *
  cases t <;> simp only [IntTy.widen, IntTy.lo, IntTy.hi] at * <;> omega

theorem has_promote {t : IntTy} {n : Int} (h : t.Has n) : t.promote.Has n := by
  unfold IntTy.Has at *
  cases t <;> simp only [IntTy.promote, IntTy.lo, IntTy.hi] at * <;> omega

theorem has_with64 {t : IntTy} {n : Int} (h : t.Has n) : t.widen.with64.Has n := by
  unfold IntTy.Has at *
  cases t <;> simp only [IntTy.widen, IntTy.with64, IntTy.lo, IntTy.hi] at * <;> omega

/-- The values of a type are less than half of the width apart. -/
theorem has_mod {t : IntTy} {n m : Int} (hn : t.Has n) (hm : n = m % 2 ^ t.bits) (hs : t.signed = false) :
    0 ≤ n := by
  unfold IntTy.Has at hn
  cases t <;> simp only [IntTy.signed, IntTy.lo, IntTy.hi] at * <;> first | omega | simp at hs

theorem intConv_has {t : IntTy} {n : Int} (h : t.Has n) : intConv t n = n := if_pos h

theorem fixAdd_ok {F : IntTy} {a b : Int} (h : F.Has (a + b)) : fixAdd F a b = .ok (a + b) := by
  unfold fixAdd
  rw [intArith_has (has_promote h)]
  simp only [intConv_has h]

theorem fixSub_ok {F : IntTy} {a b : Int} (h : F.Has (a - b)) : fixSub F a b = .ok (a - b) := by
  unfold fixSub
  rw [intArith_has (has_promote h)]
  simp only [intConv_has h]

theorem fixNeg_ok {F : IntTy} {a : Int} (h : F.Has (-a)) : fixNeg F a = .ok (-a) := by
  unfold fixNeg
  rw [intArith_has (has_promote h)]
  simp only [intConv_has h]

theorem denom_pos {s : Scale} {F : IntTy} (h : ScaleFits s F) : 0 < s.denom := by
  cases s <;> simp only [ScaleFits, Scale.denom] at * <;> first | exact Nat.pow_pos h.1 | positivity

theorem bits_widen (t : IntTy) : t.promote.bits ≤ t.widen.bits := by
  cases t <;> decide

theorem scaleUp_ok {s : Scale} {T B F : IntTy} {v : Int} (hs : ScaleFits s F)
    (hF : F.promote.bits ≤ T.widen.bits) (hT : T.widen.Has (v * s.denom)) :
    scaleUp s B T v = numericCast B (v * s.denom) := by
  cases s with
  | generic r e =>
    simp only [ScaleFits, Scale.denom, scaleUp] at *
    rw [if_pos hs.2]
    have h : T.widen.with64.Has (v * ((r ^ e : Nat) : Int)) := by
      have := has_with64 hT
      unfold IntTy.Has at *
      cases T <;> simp only [IntTy.widen, IntTy.with64, IntTy.lo, IntTy.hi] at * <;> omega
    push_cast at h ⊢
    rw [intArith_has h]
  | genericRun r e =>
    simp only [ScaleFits, Scale.denom, scaleUp] at *
    rw [if_pos hs.2]
    push_cast at hT ⊢
    rw [intArith_has hT]
  | binary e =>
    simp only [ScaleFits, Scale.denom, scaleUp, shl] at *
    rw [if_pos (by omega)]
    push_cast at hT ⊢
    rw [intArith_has hT]
  | binaryRun e =>
    simp only [ScaleFits, Scale.denom, scaleUp, shl] at *
    rw [if_pos (by omega)]
    push_cast at hT ⊢
    rw [intArith_has hT]

/-! ## Rounding -/

section
variable {K : Type*} [Field K] [LinearOrder K] [IsStrictOrderedRing K] [FloorRing K]

theorem roundHalfToEven_spec (v : K) : IsNearestEven v (roundHalfToEven v) := by
  have h1 := Int.floor_le v
  have h2 := Int.lt_floor_add_one v
  -- the distance to the other integers
  have hfar : ∀ m : Int, (m : K) ≤ ⌊v⌋ ∨ (⌊v⌋ : K) + 1 ≤ m := by
    intro m
    rcases lt_or_ge ⌊v⌋ m with h | h
    · right; exact_mod_cast h
    · left; exact_mod_cast h
  unfold roundHalfToEven
  simp only
  by_cases hint : (⌊v⌋ : K) = v
  · have hc : ⌈v⌉ = ⌊v⌋ := by
      rw [← hint]; simp
    rw [hc, hint]
    simp only [ite_self, sub_self, lt_irrefl, gt_iff_lt, if_false]
    constructor
    · intro m; rw [hint]; simp
    · intro m hm h
      exfalso; apply hm
      rw [hint, sub_self, abs_zero, abs_eq_zero] at h
      have : (m : K) = ⌊v⌋ := by rw [hint]; linarith
      exact_mod_cast this
  · have hlt : (⌊v⌋ : K) < v := lt_of_le_of_ne h1 hint
    have hc : ⌈v⌉ = ⌊v⌋ + 1 := by
      rw [Int.ceil_eq_iff]; push_cast; constructor <;> linarith
    have hprev : |v - ⌊v⌋| = v - ⌊v⌋ := abs_of_pos (by linarith)
    have hnext : |v - ((⌊v⌋ + 1 : Int) : K)| = ⌊v⌋ + 1 - v := by
      rw [abs_sub_comm]; push_cast; exact abs_of_pos (by linarith)
    have hm1 : ∀ m : Int, (m : K) ≤ ⌊v⌋ → v - ⌊v⌋ ≤ |v - m| := fun m h =>
      le_trans (by linarith) (le_abs_self _)
    have hm2 : ∀ m : Int, (⌊v⌋ : K) + 1 ≤ m → ⌊v⌋ + 1 - v ≤ |v - m| := fun m h => by
      rw [abs_sub_comm]; exact le_trans (by linarith) (le_abs_self _)
    rw [hc]
    by_cases hr1 : (v - (⌊v⌋ : K)) - (((⌊v⌋ + 1 : Int) : K) - v) < 0
    · rw [if_pos hr1]
      push_cast at hr1
      constructor
      · intro m; rw [hprev]
        rcases hfar m with h | h
        · exact hm1 m h
        · linarith [hm2 m h]
      · intro m hne h; exfalso
        rw [hprev] at h
        rcases hfar m with h' | h'
        · have : (m : K) ≠ ⌊v⌋ := by exact_mod_cast hne
          have := lt_of_le_of_ne h' this
          rw [abs_of_pos (by linarith)] at h
          linarith
        · linarith [hm2 m h']
    · rw [if_neg hr1]
      by_cases hr2 : (v - (⌊v⌋ : K)) - (((⌊v⌋ + 1 : Int) : K) - v) > 0
      · rw [if_pos hr2]
        push_cast at hr2
        constructor
        · intro m; rw [hnext]
          rcases hfar m with h | h
          · linarith [hm1 m h]
          · exact hm2 m h
        · intro m hne h; exfalso
          rw [hnext] at h
          rcases hfar m with h' | h'
          · linarith [hm1 m h']
          · have : ((⌊v⌋ + 1 : Int) : K) ≠ m := by exact_mod_cast hne.symm
            push_cast at this
            have := lt_of_le_of_ne h' this
            rw [abs_sub_comm, abs_of_pos (by linarith)] at h
            linarith
      · rw [if_neg hr2]
        push_cast at hr1 hr2
        have heq : v - ⌊v⌋ = ⌊v⌋ + 1 - v := by linarith
        have hall : ∀ m : Int, v - ⌊v⌋ ≤ |v - m| := by
          intro m
          rcases hfar m with h | h
          · exact hm1 m h
          · rw [heq]; exact hm2 m h
        have hev : 2 * ⌊((⌊v⌋ : Int) : K) / 2⌋ = ⌊v⌋ ↔ Even ⌊v⌋ := by
          constructor
          · intro h; rw [← h]; exact even_two_mul _
          · rintro ⟨k, hk⟩
            rw [hk]
            have : (((k + k : Int) : K) / 2) = (k : K) := by push_cast; ring
            rw [this, Int.floor_intCast]; ring
        by_cases he : Even ⌊v⌋
        · rw [if_pos (hev.2 he)]
          exact ⟨fun m => by rw [hprev]; exact hall m, fun _ _ _ => he⟩
        · rw [if_neg (mt hev.1 he)]
          refine ⟨fun m => by rw [hnext, ← heq]; exact hall m, fun _ _ _ => ?_⟩
          rw [Int.not_even_iff_odd] at he
          exact he.add_one

theorem roundTowardZero_spec (v : K) : IsTrunc v (roundTowardZero v) := by
  have h1 := Int.floor_le v
  have h2 := Int.lt_floor_add_one v
  have h3 := Int.le_ceil v
  have h4 := Int.ceil_lt_add_one v
  unfold roundTowardZero
  constructor
  · intro h
    rw [if_pos h]
    exact ⟨h1, h2⟩
  · intro h
    split
    · have : v = 0 := le_antisymm h ‹_›
      subst this
      simp [IsCeil]
    · exact ⟨by linarith, h3⟩

theorem isTrunc_neg {x : K} {n : Int} (h : IsTrunc x n) : IsTrunc (-x) (-n) := by
  constructor
  · intro hx
    obtain ⟨h1, h2⟩ := h.2 (by linarith)
    constructor <;> push_cast <;> linarith
  · intro hx
    obtain ⟨h1, h2⟩ := h.1 (by linarith)
    constructor <;> push_cast <;> linarith

end

/-! ## Division of integers -/

theorem isFloor_ediv (n : Int) {b : Int} (hb : 0 < b) : IsFloor ((n : ℚ) / b) (n / b) := by
  have hb' : (0 : ℚ) < b := by exact_mod_cast hb
  constructor
  · rw [le_div_iff₀ hb']
    exact_mod_cast Int.ediv_mul_le n hb.ne'
  · rw [div_lt_iff₀ hb']
    exact_mod_cast Int.lt_ediv_add_one_mul_self n hb

theorem isTrunc_tdiv_pos (n : Int) {b : Int} (hb : 0 < b) : IsTrunc ((n : ℚ) / b) (n.tdiv b) := by
  have hb' : (0 : ℚ) < b := by exact_mod_cast hb
  have key : ∀ m : Int, 0 ≤ m → IsTrunc ((m : ℚ) / b) (m.tdiv b) := by
    intro m hm
    rw [Int.tdiv_eq_ediv_of_nonneg hm]
    refine ⟨fun _ => isFloor_ediv m hb, fun h => ?_⟩
    have h0 : (m : ℚ) ≤ 0 := by
      by_contra hc
      push Not at hc
      have := div_pos hc hb'
      linarith
    have : m = 0 := le_antisymm (by exact_mod_cast h0) hm
    subst this
    simp [IsCeil]
  rcases le_total 0 n with h | h
  · exact key n h
  · have := isTrunc_neg (key (-n) (by omega))
    rw [Int.neg_tdiv, neg_neg] at this
    have e : -(((-n : Int) : ℚ) / b) = (n : ℚ) / b := by push_cast; ring
    rwa [e] at this

theorem isTrunc_tdiv (n : Int) {b : Int} (hb : b ≠ 0) : IsTrunc ((n : ℚ) / b) (n.tdiv b) := by
  rcases lt_or_gt_of_ne hb with h | h
  · have := isTrunc_neg (isTrunc_tdiv_pos n (b := -b) (by omega))
    rw [Int.tdiv_neg, neg_neg] at this
    have e : -((n : ℚ) / ((-b : Int) : ℚ)) = (n : ℚ) / b := by push_cast; rw [div_neg, neg_neg]
    rwa [e] at this
  · exact isTrunc_tdiv_pos n h

theorem isFloor_unique {x : ℚ} {n m : Int} (hn : IsFloor x n) (hm : IsFloor x m) : n = m := by
  have h1 : (n : ℚ) < m + 1 := lt_of_le_of_lt hn.1 hm.2
  have h2 : (m : ℚ) < n + 1 := lt_of_le_of_lt hm.1 hn.2
  have h1' : n < m + 1 := by exact_mod_cast h1
  have h2' : m < n + 1 := by exact_mod_cast h2
  omega

theorem fixVal_mul (d : Nat) (hd : 0 < d) (a b : Int) :
    fixVal d a * fixVal d b * d = ((a * b : Int) : ℚ) / ((d : Int) : ℚ) := by
  have : (d : ℚ) ≠ 0 := by exact_mod_cast hd.ne'
  unfold fixVal; push_cast; field_simp

theorem fixVal_div (d : Nat) (hd : 0 < d) (a b : Int) :
    fixVal d a / fixVal d b * d = ((a * d : Int) : ℚ) / ((b : Int) : ℚ) := by
  have hd' : (d : ℚ) ≠ 0 := by exact_mod_cast hd.ne'
  unfold fixVal
  by_cases hb : (b : ℚ) = 0
  · rw [hb]; simp
  · push_cast; field_simp

theorem fixVal_lt {d : Nat} (hd : 0 < d) {a b : Int} : fixVal d a < fixVal d b ↔ a < b := by
  have hd' : (0 : ℚ) < d := by exact_mod_cast hd
  unfold fixVal
  rw [div_lt_div_iff_of_pos_right hd']
  exact Int.cast_lt

theorem fixVal_inj {d : Nat} (hd : 0 < d) {a b : Int} : fixVal d a = fixVal d b ↔ a = b := by
  have hd' : (d : ℚ) ≠ 0 := by exact_mod_cast hd.ne'
  unfold fixVal
  rw [div_left_inj' hd']
  exact Int.cast_inj

theorem fixVal_add (d : Nat) (a b : Int) : fixVal d (a + b) = fixVal d a + fixVal d b := by
  unfold fixVal; push_cast; ring

theorem fixVal_sub (d : Nat) (a b : Int) : fixVal d (a - b) = fixVal d a - fixVal d b := by
  unfold fixVal; push_cast; ring

theorem fixVal_neg (d : Nat) (a : Int) : fixVal d (-a) = -fixVal d a := by
  unfold fixVal; push_cast; ring

theorem fixVal_scaled {d : Nat} (hd : 0 < d) (v : Int) : fixVal d (v * d) = v := by
  have hd' : (d : ℚ) ≠ 0 := by exact_mod_cast hd.ne'
  unfold fixVal; push_cast; field_simp

/-! ## Conversions -/

theorem promote_widen (F : IntTy) : F.widen.promote = F.widen := by cases F <;> rfl

theorem scaleDown_binary {e : Nat} {T B : IntTy} {v : Int} (h : e < B.promote.bits) :
    scaleDown (.binary e) T B v = numericCast T (v / 2 ^ e) ∧
    scaleDown (.binaryRun e) T B v = numericCast T (v / 2 ^ e) := by
  constructor <;> simp only [scaleDown, shr, if_pos h]

theorem scaleDown_generic {r e : Nat} {T B : IntTy} {v : Int} (hr : 0 < r) :
    (IntTy.i64.Has (r ^ e) → scaleDown (.generic r e) T B v = numericCast T (v.tdiv (r ^ e))) ∧
    (IntTy.i32.Has (r ^ e) → scaleDown (.genericRun r e) T B v = numericCast T (v.tdiv (r ^ e))) := by
  have hne : r ^ e ≠ 0 := pow_ne_zero _ hr.ne'
  constructor <;> intro h <;> simp only [scaleDown, if_pos h, if_neg hne]

/-- Scaling down a multiple of the denominator. -/
theorem scaleDown_mul {s : Scale} {F T : IntTy} (hs : ScaleFits s F) (v : Int) :
    scaleDown s T F (v * s.denom) = numericCast T v := by
  have hd := denom_pos hs
  cases s with
  | generic r e =>
    simp only [ScaleFits, Scale.denom] at *
    rw [(scaleDown_generic hs.1).1 hs.2]
    push_cast
    rw [Int.mul_tdiv_cancel _ (pow_ne_zero _ (by exact_mod_cast hs.1.ne'))]
  | genericRun r e =>
    simp only [ScaleFits, Scale.denom] at *
    rw [(scaleDown_generic hs.1).2 hs.2]
    push_cast
    rw [Int.mul_tdiv_cancel _ (pow_ne_zero _ (by exact_mod_cast hs.1.ne'))]
  | binary e =>
    simp only [ScaleFits, Scale.denom] at *
    rw [(scaleDown_binary hs).1]
    push_cast
    rw [Int.mul_ediv_cancel _ (by positivity)]
  | binaryRun e =>
    simp only [ScaleFits, Scale.denom] at *
    rw [(scaleDown_binary hs).2]
    push_cast
    rw [Int.mul_ediv_cancel _ (by positivity)]

/-- The integral part kept by a scale: rounded down by the binary policies, toward zero by the others. -/
theorem scaleDown_round {s : Scale} {F T : IntTy} (hs : ScaleFits s F) (v : Int) :
    ∃ n, scaleDown s T F v = numericCast T n ∧
      (∀ e, s = .binary e ∨ s = .binaryRun e → IsFloor ((v : ℚ) / ((s.denom : Int) : ℚ)) n) ∧
      (∀ r e, s = .generic r e ∨ s = .genericRun r e → IsTrunc ((v : ℚ) / ((s.denom : Int) : ℚ)) n) := by
  cases s with
  | generic r e =>
    simp only [ScaleFits] at hs
    refine ⟨_, (scaleDown_generic hs.1).1 hs.2, ?_, ?_⟩
    · rintro e' (h | h) <;> cases h
    · intro r' e' _
      have := isTrunc_tdiv v (b := (r : Int) ^ e) (pow_ne_zero _ (by exact_mod_cast hs.1.ne'))
      simpa [Scale.denom] using this
  | genericRun r e =>
    simp only [ScaleFits] at hs
    refine ⟨_, (scaleDown_generic hs.1).2 hs.2, ?_, ?_⟩
    · rintro e' (h | h) <;> cases h
    · intro r' e' _
      have := isTrunc_tdiv v (b := (r : Int) ^ e) (pow_ne_zero _ (by exact_mod_cast hs.1.ne'))
      simpa [Scale.denom] using this
  | binary e =>
    simp only [ScaleFits] at hs
    refine ⟨_, (scaleDown_binary hs).1, ?_, ?_⟩
    · intro e' _
      have := isFloor_ediv v (b := (2 : Int) ^ e) (by positivity)
      simpa [Scale.denom] using this
    · rintro r' e' (h | h) <;> cases h
  | binaryRun e =>
    simp only [ScaleFits] at hs
    refine ⟨_, (scaleDown_binary hs).2, ?_, ?_⟩
    · intro e' _
      have := isFloor_ediv v (b := (2 : Int) ^ e) (by positivity)
      simpa [Scale.denom] using this
    · rintro r' e' (h | h) <;> cases h

theorem scaleFits_widen {s : Scale} {F : IntTy} (h : ScaleFits s F) : ScaleFits s F.widen := by
  have := bits_widen F
  cases s <;> simp only [ScaleFits, promote_widen] at * <;> first | exact h | omega

end Geometrix
