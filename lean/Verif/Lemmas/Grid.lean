import Verif.Model.Grid
import Verif.Spec.Grid
import Verif.Spec.Box
import Verif.Lemmas.Distance
import Mathlib.Tactic.Positivity
import Mathlib.Tactic.FieldSimp

/-!
# Helpers for grids
-/

set_option linter.unusedSectionVars false

namespace Geometrix

open Spec

variable {K : Type*} [Field K] [LinearOrder K] [IsStrictOrderedRing K] [FloorSemiring K]

theorem numericCastU32_ok {v : K} {n : Nat} (h : numericCastU32 v = .ok n) :
    v < 2 ^ 32 ∧ n = ⌊v⌋₊ := by
  unfold numericCastU32 at h
  split_ifs at h with hc
  push Not at hc
  exact ⟨hc.2, (Except.ok.inj h).symm⟩

theorem numericCastU32_eq {v : K} (hv : 0 ≤ v) (h : v < 2 ^ 32) : numericCastU32 v = .ok ⌊v⌋₊ := by
  unfold numericCastU32
  rw [if_neg]
  push Not
  exact ⟨by linarith, h⟩

theorem toU32_eq {v : K} (hv : 0 ≤ v) (h : v < 2 ^ 32) : toU32 v = .ok ⌊v⌋₊ := by
  unfold toU32
  rw [if_neg]
  push Not
  exact ⟨by linarith, h⟩

/-- What a constructed grid holds. -/
theorem makeGrid_ok {xmin xmax ymin ymax w : K} {g : GridTraits K}
    (h : makeGrid xmin xmax ymin ymax w = .ok g) :
    0 < w ∧ xmin < xmax ∧ ymin < ymax ∧ (xmax - xmin) * (1 / w) < 2 ^ 32 ∧
      (ymax - ymin) * (1 / w) < 2 ^ 32 ∧
      g = ⟨xmin, xmax, ymin, ymax, w, 1 / w, addU32 ⌊(xmax - xmin) * (1 / w)⌋₊ 1,
        addU32 ⌊(ymax - ymin) * (1 / w)⌋₊ 1⟩ := by
  unfold makeGrid at h
  split_ifs at h with h1 h2
  have hw : w ≠ 0 := h1.ne'
  simp only [cdiv_ok hw] at h
  have h3 : 0 ≤ (xmax - xmin) * (1 / w) := mul_nonneg (by linarith [h2.1]) (by positivity)
  have h4 : 0 ≤ (ymax - ymin) * (1 / w) := mul_nonneg (by linarith [h2.2]) (by positivity)
  cases hx : numericCastU32 ((xmax - xmin) * (1 / w)) with
  | error e => simp only [hx, reduceCtorEq] at h
  | ok nx =>
    cases hy : numericCastU32 ((ymax - ymin) * (1 / w)) with
    | error e => simp only [hx, hy, reduceCtorEq] at h
    | ok ny =>
      obtain ⟨hx1, rfl⟩ := numericCastU32_ok hx
      obtain ⟨hy1, rfl⟩ := numericCastU32_ok hy
      simp only [hx, hy] at h
      exact ⟨h1, h2.1, h2.2, hx1, hy1, (Except.ok.inj h).symm⟩

theorem makeGrid_eq {xmin xmax ymin ymax w : K} (hw : 0 < w) (hx : xmin < xmax) (hy : ymin < ymax)
    (hx2 : (xmax - xmin) * (1 / w) < 2 ^ 32) (hy2 : (ymax - ymin) * (1 / w) < 2 ^ 32) :
    makeGrid xmin xmax ymin ymax w = .ok ⟨xmin, xmax, ymin, ymax, w, 1 / w,
      addU32 ⌊(xmax - xmin) * (1 / w)⌋₊ 1, addU32 ⌊(ymax - ymin) * (1 / w)⌋₊ 1⟩ := by
  have h3 : 0 ≤ (xmax - xmin) * (1 / w) := mul_nonneg (by linarith) (by positivity)
  have h4 : 0 ≤ (ymax - ymin) * (1 / w) := mul_nonneg (by linarith) (by positivity)
  unfold makeGrid
  simp only [gt_iff_lt, hw, not_true_eq_false, if_false, hx, hy, and_self, cdiv_ok hw.ne',
    numericCastU32_eq h3 hx2, numericCastU32_eq h4 hy2]

/-- The number of the interval that holds a coordinate. -/
theorem floor_inCell {x0 w x : K} (hw : 0 < w) (hx : x0 ≤ x) (i : Nat) :
    ⌊(x - x0) * (1 / w)⌋₊ = i ↔ InCell x0 w i x := by
  have h0 : 0 ≤ (x - x0) * (1 / w) := mul_nonneg (by linarith) (by positivity)
  rw [Nat.floor_eq_iff h0, InCell, mul_one_div, le_div_iff₀ hw, div_lt_iff₀ hw]
  constructor <;> rintro ⟨h1, h2⟩ <;> constructor <;> linarith

theorem addU32_of_lt {n : Nat} (h : n + 1 < 2 ^ 32) : addU32 n 1 = n + 1 :=
  Nat.mod_eq_of_lt h

theorem floor_lt_of {v : K} (hv : 0 ≤ v) (h : v < 2 ^ 32 - 1) : ⌊v⌋₊ + 1 < 2 ^ 32 := by
  have : ⌊v⌋₊ < 2 ^ 32 - 1 := (Nat.floor_lt hv).mpr (by push_cast; norm_num at h ⊢; exact h)
  omega

/-- The index of a coordinate between the bounds. -/
theorem index_spec {x0 x1 w x : K} (hw : 0 < w) (h0 : x0 ≤ x) (h1 : x ≤ x1)
    (hlt : (x1 - x0) * (1 / w) < 2 ^ 32) :
    toU32 ((x - x0) * (1 / w)) = .ok ⌊(x - x0) * (1 / w)⌋₊ ∧
      ⌊(x - x0) * (1 / w)⌋₊ ≤ ⌊(x1 - x0) * (1 / w)⌋₊ := by
  have hpos : 0 < 1 / w := by positivity
  have hle : (x - x0) * (1 / w) ≤ (x1 - x0) * (1 / w) :=
    mul_le_mul_of_nonneg_right (by linarith) hpos.le
  exact ⟨toU32_eq (mul_nonneg (by linarith) hpos.le) (lt_of_le_of_lt hle hlt), Nat.floor_mono hle⟩

section
variable {D : Type}

theorem HashGrid.find_cons (e : (Nat × Nat) × D) (m : HashGrid D) (i j : Nat) :
    HashGrid.find (e :: m) i j = if e.1 = (i, j) then some e.2 else HashGrid.find m i j := by
  unfold HashGrid.find
  by_cases h : e.1 = (i, j) <;> simp [h]

/-- The keys of the map are different from each other. -/
def HashGrid.Nodup (m : HashGrid D) : Prop := (m.map (·.1)).Nodup

theorem HashGrid.find_none {m : HashGrid D} {i j : Nat} :
    m.find i j = none ↔ (i, j) ∉ m.map (·.1) := by
  unfold HashGrid.find
  simp only [Option.map_eq_none_iff, List.find?_eq_none, beq_iff_eq, List.mem_map, not_exists,
    not_and]

theorem HashGrid.get_find (dflt : D) (m : HashGrid D) (i j a b : Nat) :
    (m.get dflt i j).1.find a b = if i = a ∧ j = b then
      (match m.find a b with | some v => some v | none => some dflt) else m.find a b := by
  unfold HashGrid.get
  by_cases h : i = a ∧ j = b
  · obtain ⟨rfl, rfl⟩ := h
    cases hf : m.find i j with
    | some v => simp [hf]
    | none => simp [HashGrid.find_cons]
  · rw [if_neg h]
    cases hf : m.find i j with
    | some v => rfl
    | none =>
      simp only [HashGrid.find_cons, Prod.mk.injEq, if_neg h]

theorem HashGrid.get_value (dflt : D) (m : HashGrid D) (i j : Nat) :
    (m.get dflt i j).1.find i j = some (m.get dflt i j).2 := by
  rw [HashGrid.get_find]
  unfold HashGrid.get
  cases hf : m.find i j <;> simp

theorem HashGrid.get_nodup (dflt : D) {m : HashGrid D} (h : m.Nodup) (i j : Nat) :
    (m.get dflt i j).1.Nodup := by
  unfold HashGrid.get
  cases hf : m.find i j with
  | some v => exact h
  | none =>
    exact List.nodup_cons.mpr ⟨HashGrid.find_none.mp hf, h⟩

theorem HashGrid.find_map (m : HashGrid D) (i j a b : Nat) (v : D) :
    HashGrid.find (m.map fun e => if e.1 == (i, j) then (e.1, v) else e) a b =
      if i = a ∧ j = b then (m.find a b).map (fun _ => v) else m.find a b := by
  induction m with
  | nil => simp [HashGrid.find]
  | cons e m ih =>
    rw [List.map_cons, HashGrid.find_cons, ih, HashGrid.find_cons]
    by_cases h : i = a ∧ j = b
    · obtain ⟨rfl, rfl⟩ := h
      by_cases he : e.1 = (i, j)
      · simp [he]
      · simp [he]
    · simp only [if_neg h]
      by_cases he : e.1 = (i, j)
      · simp [he, h]
      · simp [he]

theorem HashGrid.set_find (dflt : D) (m : HashGrid D) (i j a b : Nat) (v : D) :
    (m.set dflt i j v).find a b = if i = a ∧ j = b then some v else m.find a b := by
  unfold HashGrid.set
  rw [HashGrid.find_map, HashGrid.get_find]
  by_cases h : i = a ∧ j = b
  · simp only [if_pos h]
    cases m.find a b <;> rfl
  · simp only [if_neg h]

theorem HashGrid.set_nodup (dflt : D) {m : HashGrid D} (h : m.Nodup) (i j : Nat) (v : D) :
    (m.set dflt i j v).Nodup := by
  have := HashGrid.get_nodup dflt h i j
  unfold HashGrid.set HashGrid.Nodup at *
  rw [List.map_map]
  convert this using 2
  funext e
  simp only [Function.comp]
  split_ifs <;> rfl

theorem HashGrid.erase_find {m : HashGrid D} (h : m.Nodup) (i j a b : Nat) :
    (m.erase i j).find a b = if i = a ∧ j = b then none else m.find a b := by
  induction m with
  | nil => simp [HashGrid.erase, HashGrid.find]
  | cons e m ih =>
    have hn : (e.1 :: m.map (·.1)).Nodup := h
    rw [List.nodup_cons] at hn
    unfold HashGrid.erase at ih ⊢
    rw [List.eraseP_cons]
    by_cases he : e.1 = (i, j)
    · simp only [he, beq_self_eq_true, cond_true, HashGrid.find_cons]
      by_cases hab : i = a ∧ j = b
      · rw [if_pos hab]
        obtain ⟨rfl, rfl⟩ := hab
        rw [HashGrid.find_none, ← he]
        exact hn.1
      · simp [hab]
    · have he' : (e.1 == (i, j)) = false := by simpa using he
      simp only [he', cond_false, HashGrid.find_cons, ih hn.2]
      by_cases hab : i = a ∧ j = b
      · obtain ⟨rfl, rfl⟩ := hab
        simp [he]
      · simp [hab]

theorem HashGrid.erase_nodup {m : HashGrid D} (h : m.Nodup) (i j : Nat) : (m.erase i j).Nodup := by
  unfold HashGrid.erase HashGrid.Nodup at *
  exact h.sublist ((List.eraseP_sublist (l := m)).map _)

end

end Geometrix
