import Verif.Lemmas.RunningStat
import Mathlib.Data.Rat.Floor
import Mathlib.Tactic.NormNum

/-!
# C147: running statistics and scope timers
-/

set_option linter.unusedSectionVars false

namespace Geometrix

open Spec

variable {K : Type*} [Field K] [LinearOrder K] [IsStrictOrderedRing K]

/-- After some numbers are pushed to a new or a cleared object, it has their count, mean, sample variance and sum modulo 2^64,
with exact arithmetic. -/
theorem C147_stats (l : List Nat) (hl : l ≠ []) (h64 : ∀ x ∈ l, x < 2 ^ 64) (s : RunningStat K) (hs : s.n = 0) :
    (l.foldl (fun s x => s.push id x) s).counts = l.length ∧
    (l.foldl (fun s x => s.push id x) s).mean = some (meanOf l) ∧
    (l.foldl (fun s x => s.push id x) s).variance id = some (varianceOf l) ∧
    (l.foldl (fun s x => s.push id x) s).total = some (l.sum % 2 ^ 64) := by
  obtain ⟨newS, e, h⟩ := pushAll_exact hl h64 s hs
  have hpos := List.length_pos_iff.2 hl
  rw [e]
  refine ⟨rfl, by simp [RunningStat.mean, hpos], ?_, rfl⟩
  unfold RunningStat.variance varianceOf
  simp only
  split
  · rename_i h1
    rw [h h1, Option.map_some, id_eq, id_eq, Nat.cast_sub hpos, Nat.cast_one]
  · rfl

example : ([2, 4, 9].foldl (fun s x => s.push id x) (RunningStat.fresh : RunningStat ℚ)).mean = some 5 ∧
    ([2, 4, 9].foldl (fun s x => s.push id x) (RunningStat.fresh : RunningStat ℚ)).variance id = some 13 := by decide +kernel

/-- `clear` and the constructor give such an object, and without numbers the mean and the variance are zero. -/
theorem C147_empty (fl : K → K) (t : RunningStat K) : (RunningStat.fresh : RunningStat K).n = 0 ∧ t.clear.n = 0 ∧
    ∀ s : RunningStat K, s.n = 0 → s.counts = 0 ∧ s.mean = some 0 ∧ s.variance fl = some 0 := by
  refine ⟨rfl, rfl, fun s hs => ?_⟩
  simp [RunningStat.counts, RunningStat.mean, RunningStat.variance, hs]

/-- `clear` does not reset the sum. -/
theorem C147_clear_refuted : ∃ s : RunningStat ℚ, s = (RunningStat.fresh.push id 5).clear ∧ s.counts = 0 ∧ s.total = some 5 :=
  ⟨_, rfl, rfl, rfl⟩

/-- The sum of an object to which nothing was pushed is indeterminate. -/
theorem C147_sum_refuted : (RunningStat.fresh : RunningStat ℚ).counts = 0 ∧ (RunningStat.fresh : RunningStat ℚ).total = none :=
  ⟨rfl, rfl⟩

section rounded

variable [FloorRing K]

/-- With rounding, whatever the number of bits, the mean is between the least and the greatest number (each rounded), the variance
is not negative, and the standard deviation is not a NaN. -/
theorem C147_rounded (p : Nat) (hp : 2 ≤ p) (sqrt : K → K) (l : List Nat) (hl : l ≠ []) (a b : K)
    (hab : ∀ x ∈ l, a ≤ (x : K) ∧ (x : K) ≤ b) (s : RunningStat K) (hs : s.n = 0) :
    (∃ M, (l.foldl (fun s x => s.push (roundBits p) x) s).mean = some M ∧ roundBits p a ≤ M ∧ M ≤ roundBits p b) ∧
    ∃ v, (l.foldl (fun s x => s.push (roundBits p) x) s).variance (roundBits p) = some v ∧ 0 ≤ v ∧
      (l.foldl (fun s x => s.push (roundBits p) x) s).standardDeviation (roundBits p) sqrt = some (.ok (sqrt v)) := by
  have hp1 : 1 ≤ p := by omega
  obtain ⟨c, ⟨M, -, m2, -, m4, m5⟩, ⟨S, -, s2, s3⟩⟩ := pushAll_rounded hp hl
    (fun x hx => ⟨roundBits_mono (K := K) hp1 (hab x hx).1, roundBits_mono (K := K) hp1 (hab x hx).2⟩) s hs
  have hpos := List.length_pos_iff.2 hl
  generalize l.foldl (fun s x => s.push (roundBits p) x) s = t at *
  refine ⟨⟨M, by simp [RunningStat.mean, c, hpos, m2], m4, m5⟩, ?_⟩
  have key : ∃ v, t.variance (roundBits p) = some v ∧ 0 ≤ v := by
    unfold RunningStat.variance
    split
    · rename_i h1
      rw [c] at h1
      rw [s3 h1, Option.map_some]
      exact ⟨_, rfl, roundBits_nonneg p (div_nonneg s2 (roundBits_nonneg p (Nat.cast_nonneg _)))⟩
    · exact ⟨0, rfl, le_rfl⟩
  obtain ⟨v, h1, h2⟩ := key
  refine ⟨v, h1, h2, ?_⟩
  unfold RunningStat.standardDeviation
  rw [h1, Option.map_some, if_neg (not_lt.2 h2)]

/-- Numbers whose exact mean is not a number of three bits. -/
example : ([2, 4, 9].foldl (fun s x => s.push (roundBits 3) x) (RunningStat.fresh : RunningStat ℚ)).mean = some 5 ∧
    ([1, 2, 2].foldl (fun s x => s.push (roundBits 3) x) (RunningStat.fresh : RunningStat ℚ)).mean = some (7 / 4) := by
  decide +kernel

/-- Equal numbers have their value, rounded, as the mean and no variance, with rounding too. -/
theorem C147_constant (p : Nat) (hp : 1 ≤ p) (c k : Nat) (s : RunningStat K) (hs : s.n = 0) :
    ((List.replicate (k + 1) c).foldl (fun s x => s.push (roundBits p) x) s).mean = some (roundBits p (c : K)) ∧
    ((List.replicate (k + 1) c).foldl (fun s x => s.push (roundBits p) x) s).variance (roundBits p) = some 0 := by
  obtain ⟨newS, sum, e, h⟩ := pushAll_constant (K := K) (p := p) c k s hs hp
  rw [e]
  refine ⟨by simp [RunningStat.mean], ?_⟩
  unfold RunningStat.variance
  simp only
  split
  · rename_i h1
    rw [h h1, Option.map_some, zero_div, roundBits_zero]
  · rfl

example : (List.replicate 3 7).foldl (fun s x => s.push (roundBits 2) x) (RunningStat.fresh : RunningStat ℚ) =
    ⟨3, some 8, some 8, some 0, some 0, some 21⟩ := by decide +kernel

/-- The mean of at most 2^p numbers up to `B` differs from the exact mean by at most `2 n B / 2^p`. -/
theorem C147_accuracy (p : Nat) (hp : 2 ≤ p) (B : K) (hB : IsFloat p B) (l : List Nat) (hl : l ≠ []) (hlen : l.length ≤ 2 ^ p)
    (hx : ∀ x ∈ l, (x : K) ≤ B) (s : RunningStat K) (hs : s.n = 0) :
    ∃ M, (l.foldl (fun s x => s.push (roundBits p) x) s).mean = some M ∧
      |M - meanOf l| ≤ 2 * l.length * B / 2 ^ p := by
  obtain ⟨M, hM, err⟩ := mean_error hp hB hl hlen hx s hs
  have hp1 : 1 ≤ p := by omega
  obtain ⟨c, ⟨M₁, m1, m2, -, -, -⟩, -⟩ := pushAll_rounded (K := K) hp hl (a := 0) (b := roundBits p B)
    (fun x hxm => ⟨roundBits_nonneg p (Nat.cast_nonneg x), roundBits_mono (K := K) hp1 (hx x hxm)⟩) s hs
  obtain rfl : M₁ = M := Option.some.inj (m1.symm.trans hM)
  have hpos := List.length_pos_iff.2 hl
  refine ⟨M₁, by simp [RunningStat.mean, c, hpos, m2], ?_⟩
  have hn : (0 : K) < l.length := by exact_mod_cast hpos
  have e : 2 * (1 / 2 ^ p) * B * (l.length : K) ^ 2 = l.length * (2 * l.length * B / 2 ^ p) := by ring
  rw [e] at err
  exact le_of_mul_le_mul_left err hn

example : IsFloat 3 (2 : ℚ) ∧ [1, 2, 2].length ≤ 2 ^ 3 ∧ (meanOf [1, 2, 2] : ℚ) ≠ 7 / 4 := by
  refine ⟨?_, by norm_num, by norm_num [meanOf]⟩
  have := roundBits_isFloat (K := ℚ) (p := 3) (by norm_num) 2
  rwa [two_float (by norm_num)] at this

end rounded

section timers

variable {S : Type*} [LinearOrder S]

/-- If the clock does not go back, the file has one line for each name, in ascending order, with the count, the total, the mean
and the standard deviation of the durations of the scopes with the name, with exact arithmetic. -/
theorem C147_report_partial (sqrt : K → K) (conv : K) (l : List (S × Int × Int)) (hl : l ≠ [])
    (hc : ∀ e ∈ l, e.2.1 ≤ e.2.2) (h64 : ∀ name : S, (durationsOf name l).sum < 2 ^ 64) :
    ∃ rows, timerFile id sqrt conv (l.foldl (endScope (K := K) id) []) = some rows ∧
      (rows.map Prod.fst).Pairwise (· < ·) ∧
      ∀ row, row ∈ rows ↔ ∃ name, durationsOf name l ≠ [] ∧
        row = (name, (durationsOf name l).length, some (((durationsOf name l).sum : K) * conv),
          some (meanOf (durationsOf name l) * conv), some (.ok (sqrt (varianceOf (durationsOf name l)) * conv))) := by
  have hsmall : ∀ (name : S), ∀ x ∈ durationsOf name l, x < 2 ^ 64 := fun name x hx =>
    lt_of_le_of_lt (List.single_le_sum (fun _ _ => Nat.zero_le _) x hx) (h64 name)
  have hd : ∀ e ∈ l, e.2.1 ≤ e.2.2 ∧ e.2.2 - e.2.1 < 2 ^ 64 := by
    intro e he
    refine ⟨hc e he, ?_⟩
    have := hsmall e.1 (e.2.2 - e.2.1).toNat (List.mem_map.2 ⟨e, List.mem_filter.2 ⟨he, by simp⟩, rfl⟩)
    omega
  obtain ⟨h1, h2⟩ := endScope_all (K := K) id l hd
  have hne : l.foldl (endScope (K := K) id) [] ≠ [] := by
    intro h0
    obtain ⟨e, he⟩ := List.exists_mem_of_ne_nil l hl
    have := (h2 e.1 (statsFor id (durationsOf e.1 l))).2 ⟨?_, rfl⟩
    · rw [h0] at this; simp at this
    · exact List.ne_nil_of_mem (List.mem_map.2 ⟨e, List.mem_filter.2 ⟨he, by simp⟩, rfl⟩)
  refine ⟨_, by rw [timerFile, if_neg (by simpa using hne)], ?_, ?_⟩
  · rw [List.map_map]
    exact h1
  · have hrow : ∀ name : S, durationsOf name l ≠ [] → timerRow id sqrt conv (name, statsFor (K := K) id (durationsOf name l)) =
        (name, (durationsOf name l).length, some (((durationsOf name l).sum : K) * conv),
          some (meanOf (durationsOf name l) * conv), some (.ok (sqrt (varianceOf (durationsOf name l)) * conv))) := by
      intro name hn
      obtain ⟨c1, c2, c3, c4⟩ := C147_stats (K := K) _ hn (hsmall name) RunningStat.fresh rfl
      have hv : ¬ (varianceOf (durationsOf name l) : K) < 0 := by
        rw [not_lt]
        unfold varianceOf
        split
        · rename_i h1
          refine div_nonneg (List.sum_nonneg ?_) ?_
          · intro y hy
            obtain ⟨x, -, rfl⟩ := List.mem_map.1 hy
            exact sq_nonneg _
          · have : (1 : K) ≤ (durationsOf name l).length := by exact_mod_cast h1.le
            linarith
        · exact le_rfl
      unfold timerRow RunningStat.standardDeviation statsFor
      simp only [c1, c2, c3, c4, Nat.mod_eq_of_lt (h64 name), Option.map_some, id_eq, if_neg hv, Except.map]
    intro row
    rw [List.mem_map]
    constructor
    · rintro ⟨⟨name, s⟩, hm, rfl⟩
      obtain ⟨hn, rfl⟩ := (h2 _ _).1 hm
      exact ⟨name, hn, hrow name hn⟩
    · rintro ⟨name, hn, rfl⟩
      exact ⟨_, (h2 _ _).2 ⟨hn, rfl⟩, hrow name hn⟩

/-- Two scopes `1` around a scope `0`. -/
example : ∀ e ∈ [((0 : Nat), (10 : Int), (13 : Int)), (1, 5, 20), (1, 30, 35)], e.2.1 ≤ e.2.2 := by decide

example : (durationsOf 1 [((0 : Nat), (10 : Int), (13 : Int)), (1, 5, 20), (1, 30, 35)]) = [15, 5] := by decide

/-- Without scopes no file is written. -/
theorem C147_no_file (fl sqrt : K → K) (conv : K) :
    timerFile fl sqrt conv (([] : List (S × Int × Int)).foldl (endScope (K := K) fl) []) = none := rfl

/-- `high_resolution_clock` may be a clock that is set back. Then a scope has a duration of nearly 2^64 nanoseconds. -/
theorem C147_clock_refuted : [((), (10 : Int), (7 : Int))].foldl (endScope (K := ℚ) id) [] =
    [((), ⟨1, some (2 ^ 64 - 3), some (2 ^ 64 - 3), some 0, none, some (2 ^ 64 - 3)⟩)] := by decide +kernel

end timers

end Geometrix
