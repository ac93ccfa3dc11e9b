import Verif.Model.IntegerSequence
import Mathlib.Tactic.IntervalCases
import Mathlib.Tactic.Ring

namespace Geometrix

theorem shiftedPack_range {m k : Nat} (h : (k + 1) * m ≤ 2 ^ 64) :
    shiftedPack (List.range m) k = (List.range m).map (k * m + ·) := by
  rw [shiftedPack, List.length_range]
  refine List.map_congr_left fun x hx => Nat.mod_eq_of_lt ?_
  rw [List.mem_range] at hx
  rw [Nat.succ_mul] at h
  omega

theorem range_grow (m k : Nat) : List.range (k * m) ++ (List.range m).map (k * m + ·) = List.range ((k + 1) * m) := by
  rw [Nat.succ_mul, List.range_add]

theorem repeatPack_range {m : Nat} (h : 8 * m ≤ 2 ^ 64) (extra : List Nat) :
    repeatPack (List.range m) extra = List.range (8 * m) ++ extra := by
  rw [repeatPack, shiftedPack_range (by omega), shiftedPack_range (by omega), shiftedPack_range (by omega),
    shiftedPack_range (by omega), shiftedPack_range (by omega), shiftedPack_range (by omega), shiftedPack_range (by omega)]
  have h1 := range_grow m 1
  rw [one_mul] at h1
  rw [one_mul, h1, range_grow, range_grow, range_grow, range_grow, range_grow, range_grow]

theorem parityExtra_range {n r : Nat} (hr : r < 8) (h : n % 8 = r) :
    List.range (8 * (n / 8)) ++ parityExtra r n = List.range n := by
  obtain ⟨q, rfl⟩ : ∃ q, n = 8 * q + r := ⟨n / 8, by omega⟩
  have hq : (8 * q + r) / 8 = q := by omega
  rw [hq, List.range_add]
  congr 1
  interval_cases r <;> simp [parityExtra, List.range_succ] <;> omega

theorem makePack_range : ∀ {n : Nat}, n < 2 ^ 64 → makePack n = List.range n := by
  intro n
  induction n using Nat.strong_induction_on with
  | _ n ih =>
    intro h
    rw [makePack]
    by_cases h8 : n < 8
    · interval_cases n <;> rfl
    · rw [if_neg (by omega), if_neg (by omega), if_neg (by omega), if_neg (by omega), if_neg (by omega), if_neg (by omega),
        if_neg (by omega), if_neg (by omega), ih (n / 8) (by omega) (by omega), repeatPack_range (by omega),
        parityExtra_range (Nat.mod_lt _ (by norm_num)) rfl]

theorem makeDepth_log (n : Nat) : makeDepth n = Nat.log 8 n + 1 := by
  induction n using Nat.strong_induction_on with
  | _ n ih =>
    rw [makeDepth]
    split_ifs with h
    · rw [Nat.log_of_lt h]
    · rw [ih (n / 8) (by omega), Nat.log_of_one_lt_of_le (b := 8) (n := n) (by norm_num) (by omega)]

end Geometrix
