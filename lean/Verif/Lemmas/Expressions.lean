import Verif.Spec.Expressions
import Verif.Lemmas.Determinant

/-!
# Lemmas on expressions
-/

set_option linter.unusedSectionVars false

namespace Geometrix

open Spec Finset

variable {K : Type*} [Field K] [LinearOrder K] [IsStrictOrderedRing K]

theorem allBelow_eq (r c : Nat) (p : Nat → Nat → Bool) :
    allBelow r c p = true ↔ ∀ i < r, ∀ j < c, p i j = true := by
  simp [allBelow, List.all_eq_true]

theorem readAll_ok {r c : Nat} {f : Nat → Nat → Res K} {g : Nat → Nat → K}
    (h : ∀ i < r, ∀ j < c, f i j = .ok (g i j)) :
    ∃ w, readAll r c f = .ok w ∧ ∀ i < r, ∀ j < c, w i j = g i j := by
  have hn : (List.range r).findSome? (fun i => (List.range c).findSome? fun j => errorOf (f i j)) = none := by
    rw [List.findSome?_eq_none_iff]
    intro i hi
    rw [List.findSome?_eq_none_iff]
    intro j hj
    rw [h i (List.mem_range.1 hi) j (List.mem_range.1 hj)]
    rfl
  refine ⟨fun i j => numberOf (f i j), ?_, ?_⟩
  · unfold readAll; rw [hn]
  · intro i hi j hj
    simp only [h i hi j hj, numberOf]

theorem readAll_error {r c : Nat} {f : Nat → Nat → Res K}
    (h : ∃ i < r, ∃ j < c, ∃ e, f i j = .error e) : ∃ e, readAll r c f = .error e := by
  obtain ⟨i, hi, j, hj, e, he⟩ := h
  unfold readAll
  generalize hx : (List.range r).findSome? (fun i => (List.range c).findSome? fun j => errorOf (f i j)) = x
  cases x with
  | some e => exact ⟨e, rfl⟩
  | none =>
    exfalso
    rw [List.findSome?_eq_none_iff] at hx
    have h1 := hx i (List.mem_range.2 hi)
    rw [List.findSome?_eq_none_iff] at h1
    have h2 := h1 j (List.mem_range.2 hj)
    rw [he] at h2
    simp [errorOf] at h2

/-- The values read agree with the elements meant, or one of them is an error if nothing is meant. -/
def Agrees (s : Shape) (v : Nat → Nat → Res K) : Option (Nat → Nat → K) → Prop
  | some f => ∀ i < s.rows, ∀ j < s.cols, v i j = .ok (f i j)
  | none => ∃ i < s.rows, ∃ j < s.cols, ∃ e, v i j = .error e

theorem Positive.rows {s : Shape} (h : Positive s) : 0 < s.rows := by
  cases s <;> simp_all [Positive, Shape.rows] <;> omega

theorem Positive.cols {s : Shape} (h : Positive s) : 0 < s.cols := by
  cases s <;> simp_all [Positive, Shape.cols] <;> omega

theorem agrees_readAll {s : Shape} {v : Nat → Nat → Res K} {m : Option (Nat → Nat → K)} (h : Agrees s v m) :
    (∃ f w, m = some f ∧ readAll s.rows s.cols v = .ok w ∧ ∀ i < s.rows, ∀ j < s.cols, w i j = f i j) ∨
    (m = none ∧ ∃ e, readAll s.rows s.cols v = .error e) := by
  cases m with
  | some f =>
    obtain ⟨w, h1, h2⟩ := readAll_ok h
    exact Or.inl ⟨f, w, rfl, h1, h2⟩
  | none => exact Or.inr ⟨rfl, readAll_error h⟩

theorem both_ok (op : K → K → Res K) (a b : K) : both op (.ok a) (.ok b) = op a b := rfl

theorem both_left (op : K → K → Res K) {x y : Res K} (h : ∃ e, x = .error e) : ∃ e, both op x y = .error e := by
  obtain ⟨e, rfl⟩ := h
  exact ⟨e, rfl⟩

theorem both_right (op : K → K → Res K) {x y : Res K} (h : ∃ e, y = .error e) : ∃ e, both op x y = .error e := by
  obtain ⟨e, rfl⟩ := h
  cases x with
  | error e' => exact ⟨e', rfl⟩
  | ok a => exact ⟨e, rfl⟩

theorem dotSum_eq (a b : Nat → K) : ∀ n : Nat, 2 ≤ n → dotSum a b n = ∑ k ∈ range n, a k * b k
  | 0, h => by omega
  | 1, h => by omega
  | 2, _ => by simp [dotSum, sum_range_succ]
  | n + 3, _ => by rw [dotSum, dotSum_eq a b (n + 2) (by omega), sum_range_succ _ (n + 2)]

theorem magnitudeSqrd_eq (a : Nat → K) : ∀ n : Nat, magnitudeSqrdUpTo a n = ∑ k ∈ range (n + 1), a k ^ 2
  | 0 => by simp [magnitudeSqrdUpTo]; ring
  | 1 => by simp [magnitudeSqrdUpTo, sum_range_succ]; ring
  | 2 => by simp [magnitudeSqrdUpTo, sum_range_succ]; ring
  | 3 => by simp [magnitudeSqrdUpTo, sum_range_succ]; ring
  | n + 4 => by
    rw [magnitudeSqrdUpTo, magnitudeSqrd_eq a (n + 3), sum_range_succ _ (n + 4)]; ring

theorem dotValue_ok {n : Nat} {f g : Nat → Res K} {a b : Nat → K} (hn : 2 ≤ n)
    (hf : ∀ k < n, f k = .ok (a k)) (hg : ∀ k < n, g k = .ok (b k)) :
    dotValue n f g = .ok (∑ k ∈ range n, a k * b k) := by
  obtain ⟨w, hw, hw'⟩ := readAll_ok (r := n) (c := 1) (f := fun k _ => f k) (g := fun k _ => a k)
    (fun i hi j _ => hf i hi)
  obtain ⟨u, hu, hu'⟩ := readAll_ok (r := n) (c := 1) (f := fun k _ => g k) (g := fun k _ => b k)
    (fun i hi j _ => hg i hi)
  unfold dotValue
  rw [hw, hu]
  simp only
  rw [dotSum_eq _ _ n hn]
  congr 1
  refine sum_congr rfl fun k hk => ?_
  rw [hw' k (mem_range.1 hk) 0 (by omega), hu' k (mem_range.1 hk) 0 (by omega)]

theorem dotValue_left {n : Nat} {f g : Nat → Res K} (h : ∃ k < n, ∃ e, f k = .error e) :
    ∃ e, dotValue n f g = .error e := by
  obtain ⟨k, hk, e, he⟩ := h
  obtain ⟨e', he'⟩ := readAll_error (r := n) (c := 1) (f := fun k _ => f k) ⟨k, hk, 0, by omega, e, he⟩
  unfold dotValue
  rw [he']
  exact ⟨e', rfl⟩

theorem dotValue_right {n : Nat} {f g : Nat → Res K} (h : ∃ k < n, ∃ e, g k = .error e) :
    ∃ e, dotValue n f g = .error e := by
  obtain ⟨k, hk, e, he⟩ := h
  obtain ⟨e', he'⟩ := readAll_error (r := n) (c := 1) (f := fun k _ => g k) ⟨k, hk, 0, by omega, e, he⟩
  unfold dotValue
  cases readAll n 1 (fun k _ => f k) with
  | error e'' => exact ⟨e'', rfl⟩
  | ok a => rw [he']; exact ⟨e', rfl⟩

theorem dotCompiles_eq {n : Nat} {p q : Nat → Bool} (hn : 2 ≤ n) (hp : ∀ k < n, p k = true)
    (hq : ∀ k < n, q k = true) : dotCompiles n n p q = true := by
  unfold dotCompiles
  simp only [Bool.and_eq_true, decide_eq_true_eq, allBelow_eq]
  exact ⟨⟨⟨trivial, hn⟩, fun i hi _ _ => hp i hi⟩, fun i hi _ _ => hq i hi⟩

theorem inRange_of {e : Tx} {s : Shape} (h : shapeOf e = some s) {i j : Nat} (hi : i < s.rows) (hj : j < s.cols) :
    inRange e i j = true := by
  unfold inRange
  rw [h]
  simp [hi, hj]

theorem toMat_congr {n : Nat} {f g : Nat → Nat → K} (h : ∀ i < n, ∀ j < n, f i j = g i j) : toMat n f = toMat n g := by
  ext i j
  exact h i i.2 j j.2

theorem determinant_congr {n : Nat} {f g : Nat → Nat → K} (h : ∀ i < n + 1, ∀ j < n + 1, f i j = g i j) :
    determinant n f = leibniz (n + 1) g := by
  rw [determinant_eq, leibniz_eq, toMat_congr h]

theorem inverseAt_eq {n : Nat} {f g : Nat → Nat → K} (h : ∀ i < n + 2, ∀ j < n + 2, f i j = g i j)
    (hd : leibniz (n + 2) g ≠ 0) {i j : Nat} (hi : i < n + 2) (hj : j < n + 2) :
    inverseAt n f i j = .ok (inverseEntry (n + 2) g i j) := by
  have h1 : determinant (n + 1) f = leibniz (n + 2) g := determinant_congr h
  unfold inverseAt
  simp only [h1, ne_eq, hd, not_false_eq_true, if_true, cdiv_ok hd]
  congr 1
  unfold inverseEntry
  rw [dif_pos ⟨hi, hj⟩]
  have h2 := adjugateAt_eq n f ⟨i, hi⟩ ⟨j, hj⟩
  simp only at h2
  rw [h2, toMat_congr h, leibniz_eq]
  show _ = (toMat (n + 2) g)⁻¹ _ _
  rw [Matrix.inv_def, Matrix.smul_apply, Ring.inverse_eq_inv', smul_eq_mul]
  field_simp

theorem inverseAt_error {n : Nat} {f g : Nat → Nat → K} (h : ∀ i < n + 2, ∀ j < n + 2, f i j = g i j)
    (hd : leibniz (n + 2) g = 0) (i j : Nat) : inverseAt n f i j = .error .thrown := by
  have h1 : determinant (n + 1) f = leibniz (n + 2) g := determinant_congr h
  unfold inverseAt
  simp only [h1, hd, ne_eq, not_true_eq_false, if_false]

end Geometrix
