import Verif.Model.RandomIndex
import Mathlib.Tactic.Ring
import Mathlib.Tactic.Linarith
import Mathlib.Data.Finset.Card
import Mathlib.Order.Interval.Finset.Nat

namespace Geometrix

theorem bucketSize_pos {r : Nat} (h : r < 2 ^ 32 - 1) : 0 < bucketSize r := by
  rw [bucketSize]
  split_ifs
  · exact Nat.succ_pos _
  · exact Nat.div_pos (by omega) (by omega)

/-- The buckets do not need more numbers than the engine has. -/
theorem bucketSize_fits (r : Nat) : bucketSize r * (r + 1) ≤ 2 ^ 32 := by
  have h := Nat.div_add_mod (2 ^ 32 - 1) (r + 1)
  rw [bucketSize]
  split_ifs with h1
  · rw [h1] at h
    rw [Nat.succ_mul, Nat.mul_comm]
    omega
  · rw [Nat.mul_comm]
    omega

theorem drawLoop_le {r : Nat} {s : Nat → Nat} : ∀ {fuel i k j : Nat}, drawLoop r s fuel i = .ok (k, j) → k ≤ r
  | 0, _, _, _, h => by simp [drawLoop] at h
  | fuel + 1, i, k, j, h => by
    rw [drawLoop] at h
    split_ifs at h with h1
    · obtain ⟨rfl, -⟩ : _ ∧ _ := by simpa using h
      exact h1
    · exact drawLoop_le h

theorem randomIndex_le {m : Nat} {s : Nat → Nat} (hs : ∀ i, s i < 2 ^ 32) {fuel i k j : Nat}
    (h : randomIndex m s fuel i = .ok (k, j)) : k ≤ m := by
  rw [randomIndex] at h
  split_ifs at h with h1 h2
  · simp at h; omega
  · obtain ⟨rfl, -⟩ : _ ∧ _ := by simpa using h
    have := hs i
    omega
  · exact drawLoop_le h

/-- An engine that repeats the first number of the bucket of `k`. -/
theorem randomIndex_reaches {m k : Nat} (hm : m < 2 ^ 32) (hk : k ≤ m) :
    ∃ s : Nat → Nat, (∀ i, s i < 2 ^ 32) ∧ ∀ fuel i, 0 < fuel → ∃ j, randomIndex m s fuel i = .ok (k, j) := by
  rcases Nat.lt_or_ge m (2 ^ 32 - 1) with h | h
  · rcases Nat.eq_zero_or_pos m with rfl | h0
    · obtain rfl : k = 0 := by omega
      exact ⟨fun _ => 0, fun _ => by norm_num, fun fuel i _ => ⟨i, rfl⟩⟩
    · have hb := bucketSize_pos h
      refine ⟨fun _ => bucketSize m * k, fun _ => ?_, fun fuel i hf => ⟨i + 1, ?_⟩⟩
      · have h1 := bucketSize_fits m
        have h2 : bucketSize m * k < bucketSize m * (m + 1) := Nat.mul_lt_mul_of_pos_left (by omega) hb
        exact lt_of_lt_of_le h2 h1
      · obtain ⟨fuel, rfl⟩ : ∃ f, fuel = f + 1 := ⟨fuel - 1, by omega⟩
        rw [randomIndex, if_neg (by omega), if_neg (by omega), drawLoop, Nat.mul_div_cancel_left _ hb, if_pos hk]
  · obtain rfl : m = 2 ^ 32 - 1 := by omega
    exact ⟨fun _ => k, fun _ => lt_of_le_of_lt hk hm, fun fuel i _ => ⟨i + 1, by rw [randomIndex, if_neg (by norm_num), if_pos rfl]⟩⟩

theorem bucket_card {r k : Nat} (h : r < 2 ^ 32 - 1) (hk : k ≤ r) :
    ((Finset.range (2 ^ 32)).filter fun w => w / bucketSize r = k).card = bucketSize r := by
  have hb := bucketSize_pos h
  have hf := bucketSize_fits r
  have : ((Finset.range (2 ^ 32)).filter fun w => w / bucketSize r = k) = Finset.Ico (bucketSize r * k) (bucketSize r * (k + 1)) := by
    ext w
    rw [Finset.mem_filter, Finset.mem_range, Finset.mem_Ico]
    constructor
    · rintro ⟨_, h2⟩
      exact ⟨h2 ▸ Nat.mul_div_le _ _, h2 ▸ Nat.lt_mul_div_succ _ hb⟩
    · rintro ⟨h1, h2⟩
      have h3 : bucketSize r * (k + 1) ≤ bucketSize r * (r + 1) := Nat.mul_le_mul_left _ (by omega)
      refine ⟨by omega, ?_⟩
      rw [Nat.div_eq_iff hb]
      constructor
      · rw [Nat.mul_comm]; exact h1
      · rw [Nat.mul_comm] at h2 ; rw [Nat.succ_mul] at h2; omega
  rw [this, Nat.card_Ico, Nat.mul_succ]
  omega

theorem sequenceGenerator_eq : ∀ (n : Nat) (v : Int), sequenceGenerator n v = (List.range n).map fun (i : Nat) => v + i
  | 0, _ => rfl
  | n + 1, v => by
    rw [sequenceGenerator, sequenceGenerator_eq n, List.range_succ_eq_map, List.map_cons, List.map_map]
    congr 1
    · simp
    · refine List.map_congr_left fun i _ => ?_
      simp; ring

end Geometrix
