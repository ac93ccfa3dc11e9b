import Verif.Model.Bresenham
import Verif.Spec.CellPath
import Mathlib.Tactic.Linarith
import Mathlib.Tactic.Ring
import Mathlib.Tactic.Push
import Mathlib.Data.List.Range

/-!
# Helpers for the Bresenham traversal
-/

set_option linter.unusedSectionVars false

namespace Geometrix

open Spec

/-- The number of minor steps and the value of `p` after `k` passes of the loop. -/
def bresState (D d : Int) : Nat → Int × Int
  | 0 => (0, 2 * d - D)
  | k + 1 =>
    let s := bresState D d k
    if s.2 < 0 then (s.1, s.2 + 2 * d) else (s.1 + 1, s.2 + 2 * (d - D))

theorem bresState_inv (D d : Int) (hd : 0 ≤ d) (hD : d ≤ D) (k : Nat) :
    (bresState D d k).2 = 2 * d * (k + 1) - D - 2 * D * (bresState D d k).1 ∧
      2 * d - 2 * D ≤ (bresState D d k).2 ∧ (bresState D d k).2 ≤ 2 * d := by
  induction k with
  | zero => simp only [bresState]; refine ⟨by simp, by linarith, by linarith⟩
  | succ k ih =>
    obtain ⟨h1, h2, h3⟩ := ih
    simp only [bresState]
    split_ifs with h
    · refine ⟨by rw [h1]; push_cast; ring, by linarith, by linarith⟩
    · refine ⟨by rw [h1]; push_cast; ring, by linarith, by linarith⟩

theorem bresFlat_eq (xs ys x1 y1 D d : Int) (hs : xs ≠ 0) (n k : Nat) (hk : (k : Int) + n = D)
    (fuel : Nat) (hf : n < fuel) :
    bresFlat xs ys (2 * d) (2 * (d - D)) (x1 + xs * D) fuel (x1 + xs * k)
      (y1 + ys * (bresState D d k).1) (bresState D d k).2 =
      .ok ((List.range' (k + 1) n).map fun i : Nat =>
        (x1 + xs * (i : Int), y1 + ys * (bresState D d i).1)) := by
  induction n generalizing k fuel with
  | zero =>
    obtain ⟨fuel, rfl⟩ := Nat.exists_eq_succ_of_ne_zero (by omega : fuel ≠ 0)
    have : (k : Int) = D := by simpa using hk
    simp [bresFlat, this]
  | succ n ih =>
    obtain ⟨fuel, rfl⟩ := Nat.exists_eq_succ_of_ne_zero (by omega : fuel ≠ 0)
    have hne : x1 + xs * (k : Int) ≠ x1 + xs * D := by
      intro h
      have : (k : Int) = D := mul_left_cancel₀ hs (by linarith)
      push_cast at hk
      omega
    have ih' := ih (k + 1) (by push_cast at hk ⊢; omega) fuel (by omega)
    have e1 : x1 + xs * (k : Int) + xs = x1 + xs * ((k + 1 : Nat) : Int) := by push_cast; ring
    have e2 : (if (bresState D d k).2 < 0 then ((bresState D d k).2 + 2 * d,
          y1 + ys * (bresState D d k).1)
        else ((bresState D d k).2 + 2 * (d - D), y1 + ys * (bresState D d k).1 + ys)) =
        ((bresState D d (k + 1)).2, y1 + ys * (bresState D d (k + 1)).1) := by
      simp only [bresState]
      split_ifs
      · rfl
      · simp only [Prod.mk.injEq, true_and]; ring
    simp only [bresFlat, bind, Except.bind]
    rw [if_pos hne, e1, e2]
    simp only [ih']
    rw [List.range'_succ, List.map_cons]

theorem bresSteep_eq (xs ys c1 c2 y2 : Int) (fuel : Nat) (bx bY p : Int) :
    bresSteep xs ys c1 c2 y2 fuel bx bY p =
      (bresFlat ys xs c1 c2 y2 fuel bY bx p).map (List.map Prod.swap) := by
  induction fuel generalizing bx bY p with
  | zero => rfl
  | succ fuel ih =>
    simp only [bresSteep, bresFlat, bind, Except.bind]
    split_ifs with h1 h2
    · simp only [ih]
      cases bresFlat ys xs c1 c2 y2 fuel (bY + ys) bx (p + c1) <;> rfl
    · simp only [ih]
      cases bresFlat ys xs c1 c2 y2 fuel (bY + ys) (bx + xs) (p + c2) <;> rfl
    · rfl

theorem bresStraight_eq (s b : Int) (hs : s ≠ 0) (n k D : Nat) (hk : k + n = D)
    (fuel : Nat) (hf : n < fuel) :
    bresStraight fuel (b + s * k) s (b + s * D) =
      .ok ((List.range' (k + 1) n).map fun i : Nat => b + s * (i : Int)) := by
  induction n generalizing k fuel with
  | zero =>
    obtain ⟨fuel, rfl⟩ := Nat.exists_eq_succ_of_ne_zero (by omega : fuel ≠ 0)
    have : k = D := by simpa using hk
    simp [bresStraight, this]
  | succ n ih =>
    obtain ⟨fuel, rfl⟩ := Nat.exists_eq_succ_of_ne_zero (by omega : fuel ≠ 0)
    have hne : b + s * (k : Int) ≠ b + s * D := by
      intro h
      have : (k : Int) = D := mul_left_cancel₀ hs (by linarith)
      omega
    have ih' := ih (k + 1) (by omega) fuel (by omega)
    have e1 : b + s * (k : Int) + s = b + s * ((k + 1 : Nat) : Int) := by push_cast; ring
    simp only [bresStraight, bind, Except.bind]
    rw [if_pos hne, e1]
    simp only [ih']
    rw [List.range'_succ, List.map_cons]

/-- The properties of the traversal of a line. -/
def GoodPath (a b : Int × Int) (cells : List (Int × Int)) : Prop :=
  cells.head? = some a ∧ cells.getLast? = some b ∧ cells.IsChain Neighbours8 ∧ cells.Nodup ∧
    (cells.length : Int) = max |b.1 - a.1| |b.2 - a.2| + 1 ∧ ∀ c ∈ cells, HalfCellFromLine a b c

theorem GoodPath.swap {a b : Int × Int} {cells : List (Int × Int)} (h : GoodPath a b cells) :
    GoodPath a.swap b.swap (cells.map Prod.swap) := by
  obtain ⟨h1, h2, h3, h4, h5, h6⟩ := h
  refine ⟨by simp [h1], by simp [h2], ?_, ?_, ?_, ?_⟩
  · rw [List.isChain_map]
    refine h3.imp ?_
    rintro c e ⟨k1, k2, k3⟩
    exact ⟨fun h => k1 (Prod.swap_injective h), k3, k2⟩
  · exact h4.map Prod.swap_injective
  · rw [List.length_map, h5, max_comm]
    rfl
  · intro c hc
    obtain ⟨e, he, rfl⟩ := List.mem_map.mp hc
    have := h6 e he
    unfold HalfCellFromLine at *
    simp only [Prod.fst_swap, Prod.snd_swap]
    rw [max_comm, abs_sub_comm]
    exact this

theorem abs_sign_mul {s v : Int} (hs : s = 1 ∨ s = -1) : |s * v| = |v| := by
  rcases hs with rfl | rfl
  · simp
  · simp

/-- A walk with `D` major steps. -/
theorem goodPath_of {x1 y1 s t d : Int} {D : Nat} {m : Nat → Int} (hs : s = 1 ∨ s = -1)
    (ht : t = 1 ∨ t = -1) (hd : 0 ≤ d) (hdD : d ≤ D) (h0 : m 0 = 0) (hmD : m D = d)
    (hstep : ∀ k, m (k + 1) = m k ∨ m (k + 1) = m k + 1)
    (hb : ∀ k, -(D : Int) ≤ 2 * d * k - 2 * D * m k ∧ 2 * d * k - 2 * D * m k ≤ D) :
    GoodPath (x1, y1) (x1 + s * D, y1 + t * d)
      ((List.range (D + 1)).map fun k : Nat => (x1 + s * (k : Int), y1 + t * m k)) := by
  have hs0 : s ≠ 0 := by rcases hs with rfl | rfl <;> decide
  have hst : s * t = 1 ∨ s * t = -1 := by
    rcases hs with rfl | rfl <;> rcases ht with rfl | rfl <;> simp
  have e1 : |x1 + s * (D : Int) - x1| = D := by
    rw [add_sub_cancel_left, abs_sign_mul hs]; simp
  have e2 : |y1 + t * d - y1| = d := by
    rw [add_sub_cancel_left, abs_sign_mul ht, abs_of_nonneg hd]
  refine ⟨?_, ?_, ?_, ?_, ?_, ?_⟩
  · simp [List.head?_range, h0]
  · rw [List.getLast?_map, List.getLast?_range]
    simp [hmD]
  · rw [List.isChain_map]
    rw [List.isChain_iff_getElem]
    intro i hi
    simp only [List.getElem_range]
    refine ⟨?_, ?_, ?_⟩
    · intro h
      have h' := (Prod.mk.inj h).1
      have : ((i : Nat) : Int) = ((i + 1 : Nat) : Int) := mul_left_cancel₀ hs0 (by linarith)
      push_cast at this
      omega
    · have : x1 + s * (i : Int) - (x1 + s * ((i + 1 : Nat) : Int)) = s * (-1) := by
        push_cast; ring
      simp only [this, abs_sign_mul hs]; simp
    · have : y1 + t * m i - (y1 + t * m (i + 1)) = t * (m i - m (i + 1)) := by ring
      simp only [this, abs_sign_mul ht]
      rcases hstep i with h | h <;> rw [h] <;> simp
  · refine List.Nodup.map ?_ List.nodup_range
    intro i j h
    have h' := (Prod.mk.inj h).1
    have : ((i : Nat) : Int) = (j : Int) := mul_left_cancel₀ hs0 (by linarith)
    exact_mod_cast this
  · simp only [e1, e2, max_eq_left hdD]
    simp
  · intro c hc
    obtain ⟨k, hk, rfl⟩ := List.mem_map.mp hc
    unfold HalfCellFromLine
    simp only [e1, e2, max_eq_left hdD]
    have : (x1 + s * (D : Int) - x1) * (y1 + t * m k - y1) - (y1 + t * d - y1) * (x1 + s * (k : Int) - x1)
        = (s * t) * ((D : Int) * m k - d * k) := by ring
    rw [this, abs_sign_mul hst]
    obtain ⟨b1, b2⟩ := hb k
    rcases abs_cases ((D : Int) * m k - d * k) with ⟨h, _⟩ | ⟨h, _⟩ <;> rw [h] <;> linarith

theorem intAbs_eq (v : Int) : intAbs v = |v| := by
  unfold intAbs
  split_ifs with h
  · rw [abs_of_neg h]
  · rw [abs_of_nonneg (not_lt.mp h)]

/-- The sign computed by a division. -/
theorem sign_div {v : Int} (h : v ≠ 0) :
    (Int.tdiv v (intAbs v) = 1 ∨ Int.tdiv v (intAbs v) = -1) ∧
      v = Int.tdiv v (intAbs v) * |v| := by
  rw [intAbs_eq]
  rcases lt_or_gt_of_ne h with h' | h'
  · rw [abs_of_neg h']
    have : Int.tdiv v (-v) = -1 := by rw [Int.tdiv_neg, Int.tdiv_self h]
    rw [this]
    exact ⟨Or.inr rfl, by ring⟩
  · rw [abs_of_pos h', Int.tdiv_self h]
    exact ⟨Or.inl rfl, by ring⟩

theorem range_succ_eq (D : Nat) : List.range (D + 1) = 0 :: List.range' 1 D := by
  rw [List.range_eq_range', List.range'_succ]

theorem bresState_last (D : Nat) (d : Int) (hd : 0 < d) (hD : d ≤ D) :
    (bresState D d D).1 = d := by
  obtain ⟨h1, h2, h3⟩ := bresState_inv D d hd.le hD D
  have hD' : (0 : Int) < D := lt_of_lt_of_le hd hD
  rw [h1] at h2 h3
  have : |((bresState D d D).1 - d)| < 1 := by
    by_contra hc
    push Not at hc
    rcases abs_cases ((bresState D d D).1 - d) with ⟨h, _⟩ | ⟨h, _⟩ <;> rw [h] at hc <;> nlinarith
  have := Int.abs_lt_one_iff.mp this
  linarith

theorem goodPath_flat (x1 y1 s t d : Int) (D : Nat) (hs : s = 1 ∨ s = -1) (ht : t = 1 ∨ t = -1)
    (hd : 0 < d) (hdD : d ≤ D) (fuel : Nat) (hf : D < fuel) :
    ∃ rest, bresFlat s t (2 * d) (2 * (d - D)) (x1 + s * D) fuel x1 y1 (2 * d - D) = .ok rest ∧
      GoodPath (x1, y1) (x1 + s * D, y1 + t * d) ((x1, y1) :: rest) := by
  have hs0 : s ≠ 0 := by rcases hs with rfl | rfl <;> decide
  have h := bresFlat_eq s t x1 y1 D d hs0 D 0 (by simp) fuel hf
  simp only [Nat.cast_zero, mul_zero, add_zero, bresState, zero_add] at h
  refine ⟨_, h, ?_⟩
  have hg := goodPath_of (x1 := x1) (y1 := y1) (m := fun k => (bresState D d k).1) hs ht hd.le hdD
    rfl (bresState_last D d hd hdD) (by
      intro k
      simp only [bresState]
      split_ifs <;> simp) (by
      intro k
      obtain ⟨h1, h2, h3⟩ := bresState_inv D d hd.le hdD k
      constructor <;> linarith)
  rw [range_succ_eq, List.map_cons] at hg
  simpa [bresState] using hg

theorem goodPath_straight (x1 y1 s : Int) (D : Nat) (hs : s = 1 ∨ s = -1) (fuel : Nat)
    (hf : D < fuel) :
    ∃ rest, bresStraight fuel x1 s (x1 + s * D) = .ok rest ∧
      GoodPath (x1, y1) (x1 + s * D, y1) ((x1, y1) :: rest.map fun v => (v, y1)) := by
  have hs0 : s ≠ 0 := by rcases hs with rfl | rfl <;> decide
  have h := bresStraight_eq s x1 hs0 D 0 D (by simp) fuel hf
  simp only [Nat.cast_zero, mul_zero, add_zero, zero_add] at h
  refine ⟨_, h, ?_⟩
  have hg := goodPath_of (x1 := x1) (y1 := y1) (s := s) (t := 1) (d := 0) (D := D)
    (m := fun _ => 0) hs (Or.inl rfl) le_rfl (by simp) rfl rfl (by simp) (by simp)
  rw [range_succ_eq, List.map_cons] at hg
  simpa [Function.comp_def] using hg

end Geometrix
