import Verif.Lemmas.IntegerSequence

/-!
# C129: integer sequences
-/

namespace Geometrix

/-- C129: `make_integer_sequence<T, N>` is the sequence `0, 1, ..., N - 1`, for every `N` that is a number of the type `T`. -/
theorem C129_sequence {maxT n : Nat} (hT : maxT < 2 ^ 64) (hn : n ≤ maxT) :
    makeIntegerSequence maxT n = some (List.range n) := by
  have h : makePack n = List.range n := makePack_range (by omega)
  rw [makeIntegerSequence, if_neg (by omega), Int.toNat_natCast, h, if_pos]
  intro x hx
  rw [List.mem_range] at hx
  omega

/-- The type `unsigned char` and 200 numbers. -/
example : 255 < 2 ^ 64 ∧ 200 ≤ 255 := by norm_num

example : makeIntegerSequence 255 20 = some [0, 1, 2, 3, 4, 5, 6, 7, 8, 9, 10, 11, 12, 13, 14, 15, 16, 17, 18, 19] := by
  rw [show (20 : Int) = ((20 : Nat) : Int) from rfl, C129_sequence (by norm_num) (by norm_num)]
  rfl

/-- C129: a negative number does not compile. -/
theorem C129_negative (maxT : Nat) {n : Int} (h : n < 0) : makeIntegerSequence maxT n = none := if_pos h

/-- C129: `index_sequence_for` has the numbers of as many positions as there are types. -/
theorem C129_types {n : Nat} (h : n < 2 ^ 64) : indexSequenceFor n = some (List.range n) :=
  C129_sequence (maxT := 2 ^ 64 - 1) (by norm_num) (by omega)

/-- Three types. -/
example : indexSequenceFor 3 = some [0, 1, 2] := by
  rw [C129_types (by norm_num)]
  rfl

/-- C129: the templates are nested at most 22 deep, whatever the number is. -/
theorem C129_depth {n : Nat} (h : n < 2 ^ 64) : makeDepth n ≤ 22 := by
  rw [makeDepth_log]
  have := Nat.log_lt_of_lt_pow (b := 8) (x := 22) (y := n)
  by_cases h0 : n = 0
  · simp [h0]
  · have := this h0 (lt_trans h (by norm_num))
    omega

example : makeDepth 1000 = 4 := by
  rw [makeDepth_log]
  decide +kernel

end Geometrix
