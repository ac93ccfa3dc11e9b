import Verif.Lemmas.RandomIndex

/-!
# C130: random indices and elements
-/

namespace Geometrix

/-- C130: the numbers that `random_index_generator(maxIndex)` yields are between 0 and `maxIndex`, both included. The full statement
is that they are less than `maxIndex`. -/
theorem C130_index_partial {maxIndex : Nat} {s : Nat → Nat} (hs : ∀ i, s i < 2 ^ 32) {fuel i k j : Nat}
    (h : randomIndex maxIndex s fuel i = .ok (k, j)) : k ≤ maxIndex :=
  randomIndex_le hs h

/-- The numbers of the engine are 0, 1, 2, ...; of the indices up to 9 the first is 0. -/
example : randomIndex 9 (fun i => i % 2 ^ 32) 5 0 = .ok (0, 1) := by decide +kernel

/-- The code violates C130: for every `maxIndex` there is an engine for which the number is `maxIndex`. -/
theorem C130_index_refuted {maxIndex : Nat} (h : maxIndex < 2 ^ 32) :
    ∃ s : Nat → Nat, (∀ i, s i < 2 ^ 32) ∧ ∀ fuel i, 0 < fuel → ∃ j, randomIndex maxIndex s fuel i = .ok (maxIndex, j) :=
  randomIndex_reaches h le_rfl

example : 10 < 2 ^ 32 := by norm_num

/-- The code violates C130: `random_partition_selector_policy` may return the end of the range, however many elements it has. -/
theorem C130_selector_refuted {α : Type*} (l : List α) (h : l.length < 2 ^ 32) :
    ∃ s : Nat → Nat, (∀ i, s i < 2 ^ 32) ∧ ∀ fuel, 0 < fuel → ∃ k, randomSelector l.length s fuel = .ok k ∧
      derefAt l k = .error .outOfRange := by
  obtain ⟨s, h1, h2⟩ := randomIndex_reaches h le_rfl
  refine ⟨s, h1, fun fuel hf => ⟨l.length, ?_, ?_⟩⟩
  · obtain ⟨j, h3⟩ := h2 fuel 0 hf
    rw [randomSelector, randomElement, h3]
  · rw [derefAt, List.getElem?_eq_none le_rfl]

example : [1, 2, 3].length < 2 ^ 32 := by norm_num

/-- C130: what `random_partition_selector_policy` returns is an element or the end of the range. Missing from the full statement: that
it is not the end. -/
theorem C130_selector_partial {α : Type*} {l : List α} {s : Nat → Nat} (hs : ∀ i, s i < 2 ^ 32) {fuel k : Nat}
    (h : randomSelector l.length s fuel = .ok k) : k ≤ l.length ∧ (k ≠ l.length → ∃ a ∈ l, derefAt l k = .ok a) := by
  have hk : k ≤ l.length := by
    rw [randomSelector] at h
    split at h
    · cases h
    · cases h
      exact randomIndex_le hs ‹_›
  refine ⟨hk, fun hne => ?_⟩
  have hlt : k < l.length := by omega
  exact ⟨l[k], List.getElem_mem hlt, by rw [derefAt, List.getElem?_eq_getElem hlt]⟩

/-- An engine for which the second of three elements is selected. -/
example : randomSelector [1, 2, 3].length (fun _ => 2000000000) 5 = .ok 1 := by decide +kernel

/-- C130: every index up to `maxIndex` is the result for equally many numbers of the engine. -/
theorem C130_uniform {maxIndex : Nat} (h0 : 0 < maxIndex) (h : maxIndex < 2 ^ 32 - 1) : ∃ c, 0 < c ∧ ∀ k ≤ maxIndex,
    ((Finset.range (2 ^ 32)).filter fun w => randomIndex maxIndex (fun _ => w) 1 0 = .ok (k, 1)).card = c := by
  refine ⟨bucketSize maxIndex, bucketSize_pos h, fun k hk => ?_⟩
  rw [← bucket_card h hk]
  refine congrArg Finset.card (Finset.filter_congr fun w _ => ?_)
  rw [randomIndex, if_neg (by omega), if_neg (by omega), drawLoop, drawLoop]
  constructor
  · intro h1
    split_ifs at h1 with h2
    · simpa using h1
  · intro h1
    rw [if_pos (by omega), h1]

example : 0 < 9 ∧ 9 < 2 ^ 32 - 1 := by norm_num

/-- C130: `random_integer_generator` yields a number less than `N`. -/
theorem C130_integer (x : Nat) {n : Nat} (h : 0 < n) : ∃ k < n, randomInteger x n = .ok k :=
  ⟨x % n, Nat.mod_lt _ h, if_neg (by omega)⟩

example : randomInteger 17 5 = .ok 2 := rfl

/-- C130: `sequence_generator` yields consecutive numbers. -/
theorem C130_consecutive (n : Nat) (v : Int) : sequenceGenerator n v = (List.range n).map fun (i : Nat) => v + i :=
  sequenceGenerator_eq n v

/-- The code violates C130: a copy of a generator does not have an engine of its own. It cannot be called after the original has been
destroyed. -/
theorem C130_copy_refuted (maxIndex : Nat) (s : Nat → Nat) (fuel : Nat) (h : Engines) {a b : Nat} (hab : a ≠ b) :
    let g := makeGenerator a h
    let c := copyGenerator g.1 b g.2
    callGenerator maxIndex s fuel c.1 (destroyGenerator g.1 c.2) = .error .outOfRange := by
  simp [makeGenerator, copyGenerator, destroyGenerator, callGenerator]

example : (3 : Nat) ≠ 4 := by decide

/-- The code violates C130: calling a copy changes what the original yields. -/
theorem C130_shared_refuted : ∃ s : Nat → Nat, (∀ i, s i < 2 ^ 32) ∧
    let g := makeGenerator 0 fun _ => none
    let c := copyGenerator g.1 1 g.2
    ((callGenerator 9 s 5 g.1 c.2).map Prod.fst ≠
      match callGenerator 9 s 5 c.1 c.2 with
      | .error e => .error e
      | .ok (_, h) => (callGenerator 9 s 5 g.1 h).map Prod.fst) := by
  refine ⟨fun i => if i = 0 then 0 else 2000000000, fun i => by
    show (if i = 0 then 0 else 2000000000) < 2 ^ 32
    split_ifs <;> norm_num, ?_⟩
  decide +kernel

end Geometrix
