import Verif.Spec.FixedPointMixed
import Verif.Props.FixedPointFunctions

/-!
# Lemmas about fixed point numbers mixed with plain numbers
-/

namespace Geometrix

open Spec

/-- One of the four rounding policies. -/
def IsPolicy (round : ℚ → Int) : Prop :=
  round = roundHalfToEven ∨ round = roundTowardZero ∨ round = roundTowardInfinity ∨ round = roundTowardNegInfinity

/-- The power of the scale fits the type in which it is computed. -/
def PowerFits (s : Scale) : Prop :=
  match s with
  | .generic _ _ | .binary _ => IntTy.i64.Has s.denom
  | .genericRun _ _ | .binaryRun _ => IntTy.i32.Has s.denom

theorem IsPolicy.int {round : ℚ → Int} (h : IsPolicy round) (k : Int) : round (k : ℚ) = k := by
  obtain ⟨h1, h2, h3, h4⟩ := C138_rounding_integers (K := ℚ) k
  rcases h with rfl | rfl | rfl | rfl <;> assumption

theorem IsPolicy.between {round : ℚ → Int} (h : IsPolicy round) (x : ℚ) : ⌊x⌋ ≤ round x ∧ round x ≤ ⌈x⌉ := by
  have hfc : ⌊x⌋ ≤ ⌈x⌉ := Int.floor_le_ceil x
  rcases h with rfl | rfl | rfl | rfl
  · unfold roundHalfToEven
    simp only
    split_ifs <;> constructor <;> omega
  · unfold roundTowardZero
    split_ifs <;> constructor <;> omega
  · exact ⟨hfc, le_rfl⟩
  · exact ⟨le_rfl, hfc⟩

theorem fixFromReal_exact {s : Scale} {F : IntTy} {round : ℚ → Int} {v : ℚ} {b : Int} (hp : IsPolicy round)
    (h : PowerFits s) (hv : v * s.denom = b) (hF : F.Has b) : fixFromReal s F round v = .ok b := by
  rw [C39_from_real s F round v (by unfold PowerFits at h; cases s <;> exact h), hv, hp.int, numericCast_has hF]

theorem fixFromReal_round {s : Scale} {F : IntTy} {round : ℚ → Int} {v : ℚ} {b : Int}
    (h : PowerFits s) (hc : fixFromReal s F round v = .ok b) : b = round (v * s.denom) := by
  rw [C39_from_real s F round v (by unfold PowerFits at h; cases s <;> exact h)] at hc
  exact (numericCast_ok.1 hc).2

theorem fixFromInt_exact {s : Scale} {F T : IntTy} {v : Int} (hs : ScaleFits s F)
    (hT : F.promote.bits ≤ T.widen.bits) (h1 : T.Has (v * s.denom)) (h2 : F.Has (v * s.denom)) :
    fixFromInt s F T v = .ok (v * s.denom) := by
  unfold fixFromInt
  rw [scaleUp_ok hs hT (has_widen h1), numericCast_has h1]
  exact numericCast_has h2

theorem fixVal_of {d : Nat} (hd : 0 < d) {v : ℚ} {b : Int} (hv : v * d = b) : fixVal d b = v := by
  have : (d : ℚ) ≠ 0 := by exact_mod_cast hd.ne'
  rw [fixVal, ← hv, mul_div_cancel_right₀ _ this]

theorem comparesAs {d : Nat} (hd : 0 < d) (a b : Int) : ComparesAs a (.ok b) (fixVal d a) (fixVal d b) := by
  have h1 := fixVal_lt hd (a := a) (b := b)
  have h2 := fixVal_lt hd (a := b) (b := a)
  have h3 := fixVal_inj hd (a := a) (b := b)
  have h3' := fixVal_inj hd (a := b) (b := a)
  have h4 : fixVal d a ≤ fixVal d b ↔ a ≤ b := by rw [← not_lt, h2, not_lt]
  have h5 : fixVal d b ≤ fixVal d a ↔ b ≤ a := by rw [← not_lt, h1, not_lt]
  unfold ComparesAs
  simp only [mixLess, mixGreater, mixEq, mixLe, mixGe, mixNe, numLess, numGreater, numEq, numLe, numGe, numNe,
    notRes, gt_iff_lt, ge_iff_le, h1, h2, h3, h3', h4, h5, ne_eq]
  have g1 : (!decide (b < a)) = decide (a ≤ b) := by rw [← decide_not]; simp
  have g2 : (!decide (a < b)) = decide (b ≤ a) := by rw [← decide_not]; simp
  have g3 : (!decide (a = b)) = decide (¬ a = b) := by rw [← decide_not]
  have g4 : decide (b = a) = decide (a = b) := by simp [eq_comm]
  have g5 : decide (¬ b = a) = decide (¬ a = b) := by simp [eq_comm]
  simp only [g1, g2, g3, g4, g5, and_self]

theorem scaleFits_default {s : Scale} (h : (∃ e, s = .binary e) ∨ (∃ r e, s = .generic r e)) : s.default = s := by
  rcases h with ⟨e, rfl⟩ | ⟨r, e, rfl⟩ <;> rfl

end Geometrix
