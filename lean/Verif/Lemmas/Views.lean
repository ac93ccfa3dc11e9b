import Verif.Lemmas.Composite
import Verif.Spec.Views

/-!
# Lemmas about views of matrices
-/

namespace Geometrix

open Spec

/-- Blocks of given sizes have one layout in reading order. -/
theorem layout_unique {rows columns : Nat} {sizes : List (Nat × Nat)} {ps qs : List Placed}
    (hP : IsLayout rows columns sizes ps) (hQ : IsLayout rows columns sizes qs) : ps = qs := by
  have hlp : ps.length = sizes.length := by simpa using congrArg List.length hP.sized
  have hlq : qs.length = sizes.length := by simpa using congrArg List.length hQ.sized
  have key : ∀ {ps qs : List Placed} (_ : IsLayout rows columns sizes ps) (_ : IsLayout rows columns sizes qs)
      (hl : ps.length = qs.length) (k : Nat) (hk : k < ps.length) (hkq : k < qs.length)
      (_ : ∀ m (hm : m < k), ps[m]'(by omega) = qs[m]'(by omega)), ¬ Before ps[k] qs[k] := by
    intro ps qs hP hQ hl k hk hkq hm hb
    have hp := hP.positive ps[k] (List.getElem_mem hk)
    have hi := hP.inside ps[k] (List.getElem_mem hk)
    obtain ⟨q, hq, hc⟩ := hQ.covered ps[k].row (by omega) ps[k].col (by omega)
    obtain ⟨m, hml, rfl⟩ := List.getElem_of_mem hq
    rcases Nat.lt_or_ge m k with h | h
    · rw [← hm m h] at hc
      have := hP.once _ (List.getElem_mem (by omega : m < ps.length)) _ (List.getElem_mem hk) _ _ hc
        ⟨⟨le_refl _, by omega⟩, le_refl _, by omega⟩
      have ho := List.pairwise_iff_getElem.1 hP.order m k (by omega) hk h
      rw [this] at ho
      unfold Before at ho; omega
    · obtain ⟨⟨h1, -⟩, h2, -⟩ := hc
      rcases Nat.eq_or_lt_of_le h with rfl | h
      · unfold Before at hb; omega
      · have ho := List.pairwise_iff_getElem.1 hQ.order k m hkq hml h
        unfold Before at hb ho; omega
  have hall : ∀ k (hk : k < ps.length) (hkq : k < qs.length), ps[k] = qs[k] := by
    intro k
    induction k using Nat.strong_induction_on with
    | _ k ih =>
      intro hk hkq
      have n1 := key hP hQ (by omega) k hk hkq (fun m hm => ih m hm (by omega) (by omega))
      have n2 := key hQ hP (by omega) k hkq hk (fun m hm => (ih m hm (by omega) (by omega)).symm)
      have s1 : (ps.map fun p => (p.height, p.width))[k]'(by simpa using hk) = (qs.map fun p => (p.height, p.width))[k]'(by simpa using hkq) := by
        simp only [hP.sized, hQ.sized]
      have s2 : (ps.map fun p => p.index)[k]'(by simpa using hk) = (qs.map fun p => p.index)[k]'(by simpa using hkq) := by
        simp only [hP.indices, hQ.indices]
      simp only [List.getElem_map, Prod.mk.injEq] at s1 s2
      unfold Before at n1 n2
      cases hpk : ps[k]; cases hqk : qs[k]
      simp only [hpk, hqk] at s1 s2 n1 n2
      simp only [Placed.mk.injEq]
      omega
  exact List.ext_getElem (by omega) (fun k hk hkq => hall k hk hkq)

theorem layout_index {rows columns : Nat} {sizes : List (Nat × Nat)} {ps : List Placed}
    (hP : IsLayout rows columns sizes ps) {p : Placed} (hp : p ∈ ps) : p.index < sizes.length := by
  have : p.index ∈ ps.map (fun p => p.index) := List.mem_map_of_mem hp
  rw [hP.indices] at this
  simpa using this

theorem layout_size {rows columns n : Nat} {blocks : Fin n → View} {ps : List Placed}
    (hP : IsLayout rows columns (blockSizes blocks) ps) {p : Placed} (hp : p ∈ ps) (h : p.index < n) :
    p.height = (blocks ⟨p.index, h⟩).rows ∧ p.width = (blocks ⟨p.index, h⟩).cols := by
  obtain ⟨k, hk, rfl⟩ := List.getElem_of_mem hp
  have hl : ps.length = n := by simpa [blockSizes] using congrArg List.length hP.sized
  have s2 : (ps.map fun p => p.index)[k]'(by simpa using hk) = (List.range (blockSizes blocks).length)[k]'(by simp [blockSizes]; omega) := by
    simp only [hP.indices]
  have s1 : (ps.map fun p => (p.height, p.width))[k]'(by simpa using hk) = (blockSizes blocks)[k]'(by simp [blockSizes]; omega) := by
    simp only [hP.sized]
  simp only [List.getElem_map, List.getElem_range] at s2
  simp only [List.getElem_map, blockSizes, List.getElem_ofFn, Prod.mk.injEq] at s1
  rw [show (⟨ps[k].index, h⟩ : Fin n) = ⟨k, by omega⟩ from Fin.ext s2]
  exact s1

theorem sizeToInt_small {i : Nat} (h : i < 2 ^ 31) : sizeToInt i = i := by
  unfold sizeToInt
  have : i % 4294967296 = i := Nat.mod_eq_of_lt (by omega)
  simp only [this]
  split <;> omega

theorem vectorIndex_ok {n i : Nat} (hn : n < 2 ^ 31) {a : Nat} : vectorIndex n i = .ok a ↔ i < n ∧ a = i := by
  unfold vectorIndex
  constructor
  · intro h
    split_ifs at h with h1 h2
    exact ⟨h2, (Except.ok.inj h).symm⟩
  · rintro ⟨h, rfl⟩
    rw [sizeToInt_small (by omega), if_pos (by exact_mod_cast h), if_pos h]

theorem without_offset {e a i : Nat} : Without e a i ↔ a = offsetIndex i e := by
  unfold Without offsetIndex
  split_ifs <;> omega

theorem map_ok {α β : Type*} {r : Res α} {f : α → β} {y : β} : r.map f = .ok y ↔ ∃ x, r = .ok x ∧ f x = y := by
  cases r <;> simp [Except.map]

/-- A view reads the element that it shows. -/
theorem viewAt_iff {depth : Nat} {v : View} (hS : SoundView depth v) {i j : Nat} {x : Nat × Nat × Nat} :
    viewAt depth v i j = some (.ok x) ↔ StandsFor v i j x := by
  induction v generalizing i j with
  | mat r c k =>
    simp only [viewAt, StandsFor]
    split_ifs with h
    · simp [h, eq_comm]
    · simp; intro h1 h2; exact absurd ⟨h1, h2⟩ h
  | colVec n k =>
    simp only [viewAt, StandsFor]
    split_ifs with h
    · simp only [Option.some.injEq, map_ok, vectorIndex_ok hS, h, true_and]
      constructor
      · rintro ⟨a, ⟨h1, rfl⟩, rfl⟩; exact ⟨h1, rfl⟩
      · rintro ⟨h1, rfl⟩; exact ⟨_, ⟨h1, rfl⟩, rfl⟩
    · simp [h]
  | rowVec n k =>
    simp only [viewAt, StandsFor]
    split_ifs with h
    · simp only [Option.some.injEq, map_ok, vectorIndex_ok hS, h, true_and]
      constructor
      · rintro ⟨a, ⟨h1, rfl⟩, rfl⟩; exact ⟨h1, rfl⟩
      · rintro ⟨h1, rfl⟩; exact ⟨_, ⟨h1, rfl⟩, rfl⟩
    · simp [h]
  | minor er ec v ih =>
    simp only [viewAt, StandsFor, ih hS.2.2, without_offset]
    constructor
    · exact fun h => ⟨_, _, rfl, rfl, h⟩
    · rintro ⟨a, b, rfl, rfl, h⟩; exact h
  | composite r c n blocks ih =>
    obtain ⟨hc, hd, ⟨ps, hL, hF⟩, hB⟩ := hS
    simp only [viewAt, StandsFor, compose_layout hL hF hc hd]
    constructor
    · intro h
      split_ifs at h with h1
      obtain ⟨p, hp, hpc⟩ := hL.covered i h1.1 j h1.2
      simp only [find_block hL hp hpc] at h
      split_ifs at h with h2
      exact ⟨ps, hL, p, hp, hpc, h2, (ih _ (hB _)).1 h⟩
    · rintro ⟨qs, hQ, p, hp, hpc, h2, h⟩
      obtain rfl := layout_unique hL hQ
      have hi := hL.inside p hp
      have hpc' := hpc
      obtain ⟨⟨c1, c2⟩, c3, c4⟩ := hpc'
      rw [if_pos ⟨by omega, by omega⟩]
      simp only [find_block hL hp hpc, dif_pos h2]
      exact (ih _ (hB _)).2 h

/-- A view shows an element at the places inside it, and nowhere else. -/
theorem standsFor_iff {depth : Nat} {v : View} (hS : SoundView depth v) {i j : Nat} :
    (∃ x, StandsFor v i j x) ↔ i < v.rows ∧ j < v.cols := by
  induction v generalizing i j with
  | mat r c k => simp [StandsFor, View.rows, View.cols]
  | colVec n k => simp [StandsFor, View.rows, View.cols]
  | rowVec n k => simp [StandsFor, View.rows, View.cols]
  | minor er ec v ih =>
    simp only [StandsFor, View.rows, View.cols]
    obtain ⟨h1, h2, hS⟩ := hS
    constructor
    · rintro ⟨x, a, b, ha, hb, h⟩
      have := (ih hS).1 ⟨x, h⟩
      unfold Without at ha hb
      omega
    · rintro ⟨hi, hj⟩
      obtain ⟨x, hx⟩ := (ih hS (i := offsetIndex i er) (j := offsetIndex j ec)).2 (by
        unfold offsetIndex; split_ifs <;> omega)
      exact ⟨x, _, _, without_offset.2 rfl, without_offset.2 rfl, hx⟩
  | composite r c n blocks ih =>
    obtain ⟨hc, hd, ⟨ps, hL, hF⟩, hB⟩ := hS
    simp only [StandsFor, View.rows, View.cols]
    constructor
    · rintro ⟨x, qs, hQ, p, hp, ⟨⟨c1, c2⟩, c3, c4⟩, h2, h⟩
      have hi := hQ.inside p hp
      omega
    · rintro ⟨hi, hj⟩
      obtain ⟨p, hp, hpc⟩ := hL.covered i hi j hj
      have h2 : p.index < n := by simpa [blockSizes] using layout_index hL hp
      obtain ⟨s1, s2⟩ := layout_size hL hp h2
      obtain ⟨⟨c1, c2⟩, c3, c4⟩ := id hpc
      obtain ⟨x, hx⟩ := (ih ⟨p.index, h2⟩ (hB _) (i := i - p.row) (j := j - p.col)).2 (by rw [← s1, ← s2]; omega)
      exact ⟨x, ps, hL, p, hp, hpc, h2, hx⟩

theorem viewWritable_of_minorFree {depth : Nat} {v : View} (hS : SoundView depth v) (hM : MinorFree v) {i j : Nat}
    (hi : i < v.rows) (hj : j < v.cols) : viewWritable depth v i j = true := by
  induction v generalizing i j with
  | mat r c k => rfl
  | colVec n k => rfl
  | rowVec n k => rfl
  | minor er ec v ih => exact absurd hM (by simp [MinorFree])
  | composite r c n blocks ih =>
    obtain ⟨hc, hd, ⟨ps, hL, hF⟩, hB⟩ := hS
    obtain ⟨p, hp, hpc⟩ := hL.covered i hi j hj
    have h2 : p.index < n := by simpa [blockSizes] using layout_index hL hp
    obtain ⟨s1, s2⟩ := layout_size hL hp h2
    simp only [viewWritable, compose_layout hL hF hc hd, find_block hL hp hpc, dif_pos h2]
    obtain ⟨⟨c1, c2⟩, c3, c4⟩ := id hpc
    exact ih _ (hB _) (hM _) (by rw [← s1]; omega) (by rw [← s2]; omega)

theorem product_fold {K : Type*} [Semiring K] (f g : Nat → K) (a b : Nat → Option (Res K)) (l : List Nat)
    (h : ∀ k ∈ l, a k = some (.ok (f k)) ∧ b k = some (.ok (g k))) :
    l.foldl (fun s k => addProduct s (a k) (b k)) (some (.ok 0)) = some (.ok ((l.map fun k => f k * g k).sum)) := by
  suffices H : ∀ s : K, l.foldl (fun s k => addProduct s (a k) (b k)) (some (.ok s)) = some (.ok (s + (l.map fun k => f k * g k).sum)) by
    simpa using H 0
  induction l with
  | nil => intro s; simp
  | cons k l ih =>
    intro s
    obtain ⟨h1, h2⟩ := h k (by simp)
    rw [List.foldl_cons, h1, h2, List.map_cons, List.sum_cons, ← add_assoc]
    exact ih (fun m hm => h m (by simp [hm])) _

/-- A matrix of blocks for examples: a view, right of it a column, and below them a row; 4 rows and 4 columns. -/
def exampleView (first : View) : View :=
  .composite 4 4 3 fun k => match k with
    | 0 => first
    | 1 => .colVec 3 1
    | 2 => .rowVec 4 2

theorem exampleView_sound {first : View} (h : SoundView 30 first) (hr : first.rows = 3) (hc : first.cols = 3) :
    SoundView 30 (exampleView first) := by
  refine ⟨by decide, by decide, ⟨[⟨0, 0, 3, 3, 0⟩, ⟨0, 3, 3, 1, 1⟩, ⟨3, 0, 1, 4, 2⟩], ?_, by unfold FewEdges; decide +kernel⟩, ?_⟩
  · have hs : blockSizes (fun k : Fin 3 => match k with
        | 0 => first
        | 1 => .colVec 3 1
        | 2 => .rowVec 4 2) = [(3, 3), (3, 1), (1, 4)] := by
      simp [blockSizes, List.ofFn_succ, hr, hc, View.rows, View.cols]
    rw [hs]
    exact {
      sized := rfl
      indices := rfl
      positive := by decide
      inside := by decide
      covered := by decide +kernel
      once := once_of_bounded (rows := 4) (columns := 4) (by decide) (by decide +kernel)
      order := by unfold Before; decide }
  · intro k
    match k with
    | 0 => exact h
    | 1 => simp [SoundView]
    | 2 => simp [SoundView]

end Geometrix
