import Verif.Props.Grid
import Verif.Lemmas.Grid
import Mathlib.Tactic.Ring

/-!
# C34: grids as maps from cells to data
-/

set_option linter.unusedSectionVars false

namespace Geometrix

open Spec

variable {K : Type*} [Field K] [LinearOrder K] [IsStrictOrderedRing K] [FloorSemiring K] {D : Type}

/-- After any sequence of operations on an empty `hash_grid_2d`, `find_cell` gives the value that the
history determines for the cell, and null for the cells without a value; `get_cell` gives the same
value, and the default value for a cell without one. -/
theorem C34_hash_grid (dflt : D) (ops : List (GridOp D)) (i j : Nat) :
    HashGrid.find (ops.foldl (hashGridStep dflt) []) i j = cellAfter dflt i j ops.reverse ∧
      (HashGrid.get dflt (ops.foldl (hashGridStep dflt) []) i j).2 =
        (cellAfter dflt i j ops.reverse).getD dflt := by
  have key : ∀ ops : List (GridOp D),
      (HashGrid.Nodup (ops.reverse.foldl (hashGridStep dflt) [])) ∧ ∀ i j,
        HashGrid.find (ops.reverse.foldl (hashGridStep dflt) []) i j = cellAfter dflt i j ops := by
    intro ops
    induction ops with
    | nil => exact ⟨List.nodup_nil, fun i j => rfl⟩
    | cons op ops ih =>
      obtain ⟨hn, hf⟩ := ih
      rw [List.reverse_cons, List.foldl_append]
      simp only [List.foldl_cons, List.foldl_nil]
      cases op with
      | access a b =>
        refine ⟨HashGrid.get_nodup dflt hn a b, fun i j => ?_⟩
        simp only [hashGridStep, HashGrid.get_find, cellAfter, hf]
        cases cellAfter dflt i j ops <;> rfl
      | store a b v =>
        refine ⟨HashGrid.set_nodup dflt hn a b v, fun i j => ?_⟩
        simp only [hashGridStep, HashGrid.set_find, cellAfter, hf]
      | erase a b =>
        refine ⟨HashGrid.erase_nodup hn a b, fun i j => ?_⟩
        simp only [hashGridStep, HashGrid.erase_find hn, cellAfter, hf]
      | clear => exact ⟨List.nodup_nil, fun i j => rfl⟩
  have h := (key ops.reverse).2 i j
  rw [List.reverse_reverse] at h
  refine ⟨h, ?_⟩
  rw [← h]
  unfold HashGrid.get
  cases HashGrid.find (ops.foldl (hashGridStep dflt) []) i j <;> rfl

example : cellAfter 0 1 2 ([.store 1 2 5, .access 1 3, .store 2 1 7, .access 1 2] : List (GridOp Nat)).reverse
    = some 5 := by decide

/-- Without `erase` and `clear`, `find_cell` gives null exactly for the cells that no operation
accessed or stored to. -/
theorem C34_never_created (dflt : D) (ops : List (GridOp D)) (i j : Nat)
    (h : ∀ op ∈ ops, (∃ a b, op = .access a b) ∨ ∃ a b v, op = .store a b v) :
    HashGrid.find (ops.foldl (hashGridStep dflt) []) i j = none ↔
      ∀ op ∈ ops, op ≠ .access i j ∧ ∀ v, op ≠ .store i j v := by
  rw [(C34_hash_grid dflt ops i j).1]
  have key : ∀ ops : List (GridOp D),
      (∀ op ∈ ops, (∃ a b, op = .access a b) ∨ ∃ a b v, op = .store a b v) →
      (cellAfter dflt i j ops = none ↔ ∀ op ∈ ops, op ≠ .access i j ∧ ∀ v, op ≠ .store i j v) := by
    intro ops h
    induction ops with
    | nil => simp [cellAfter]
    | cons op ops ih =>
      have ih := ih (fun op' h' => h op' (List.mem_cons_of_mem _ h'))
      rw [List.forall_mem_cons, ← ih]
      rcases h op (by simp) with ⟨a, b, rfl⟩ | ⟨a, b, v, rfl⟩
      · by_cases hab : a = i ∧ b = j
        · obtain ⟨rfl, rfl⟩ := hab
          simp only [cellAfter, and_self, if_true, ne_eq, not_true_eq_false, false_and, iff_false]
          cases cellAfter dflt a b ops <;> simp
        · simp only [cellAfter, ne_eq, GridOp.access.injEq, hab, reduceCtorEq,
            not_false_eq_true, implies_true, and_self, true_and, if_false]
      · by_cases hab : a = i ∧ b = j
        · obtain ⟨rfl, rfl⟩ := hab
          simp only [cellAfter, and_self, if_true, ne_eq, reduceCtorEq, not_false_eq_true, true_and,
            GridOp.store.injEq, false_iff]
          rintro ⟨h1, -⟩
          exact h1 v rfl
        · simp only [cellAfter, if_neg hab, ne_eq, reduceCtorEq, not_false_eq_true, true_and,
            GridOp.store.injEq]
          constructor
          · intro h; exact ⟨fun u hu => hab ⟨hu.1, hu.2.1⟩, h⟩
          · exact fun h => h.2
  rw [key ops.reverse (fun op hop => h op (List.mem_reverse.mp hop))]
  simp only [List.mem_reverse]

/-- A new `grid_2d` holds the default value in all cells of its traits. -/
theorem C34_new_grid (dflt : D) (g : GridTraits K) (i j : Nat) (hi : i < g.width) (hj : j < g.height) :
    (makeGrid2d dflt g).get i j = .ok dflt := by
  have hlt : i * g.height + j < g.width * g.height := by
    calc i * g.height + j < i * g.height + g.height := by omega
      _ = (i + 1) * g.height := by ring
      _ ≤ g.width * g.height := Nat.mul_le_mul_right _ hi
  simp [makeGrid2d, Grid2d.get, hi, hj, hlt]

/-- Storing to a cell of a `grid_2d` succeeds for every cell, the value is read back, every other cell
is unchanged, and the shape is kept. -/
theorem C34_grid_store (m : Grid2d D) (hm : m.data.length = m.width * m.height) (i j : Nat) (v : D)
    (hi : i < m.width) (hj : j < m.height) :
    ∃ m', m.set i j v = .ok m' ∧ m'.width = m.width ∧ m'.height = m.height ∧
      m'.data.length = m'.width * m'.height ∧ m'.get i j = .ok v ∧
      ∀ a b, (a, b) ≠ (i, j) → m'.get a b = m.get a b := by
  have hlt : i * m.height + j < m.data.length := by
    rw [hm]
    calc i * m.height + j < i * m.height + m.height := by omega
      _ = (i + 1) * m.height := by ring
      _ ≤ m.width * m.height := Nat.mul_le_mul_right _ hi
  refine ⟨{ m with data := m.data.set (i * m.height + j) v }, ?_, rfl, rfl, ?_, ?_, ?_⟩
  · simp [Grid2d.set, hi, hj, hlt]
  · simpa using hm
  · simp [Grid2d.get, hi, hj, hlt]
  · intro a b hab
    simp only [Grid2d.get]
    split_ifs with ha hb
    · have hne : i * m.height + j ≠ a * m.height + b := by
        intro he
        have h1 : (i * m.height + j) / m.height = (a * m.height + b) / m.height := by rw [he]
        have h2 : (i * m.height + j) % m.height = (a * m.height + b) % m.height := by rw [he]
        have hpos : 0 < m.height := by omega
        rw [mul_comm i, mul_comm a, Nat.mul_add_div hpos, Nat.mul_add_div hpos,
          Nat.div_eq_of_lt hj, Nat.div_eq_of_lt hb] at h1
        rw [mul_comm i, mul_comm a, Nat.mul_add_mod, Nat.mul_add_mod, Nat.mod_eq_of_lt hj,
          Nat.mod_eq_of_lt hb] at h2
        apply hab
        rw [Prod.mk.injEq]
        omega
      rw [List.getElem?_set_ne hne]
    · rfl
    · rfl

example : (⟨2, 3, List.replicate 6 0⟩ : Grid2d Nat).data.length = 2 * 3 := rfl

/-- An index outside the extents is not accepted. -/
theorem C34_grid_range (m : Grid2d D) (i j : Nat) (h : m.width ≤ i ∨ m.height ≤ j) (v : D) :
    m.get i j = .error .outOfRange ∧ m.set i j v = .error .outOfRange := by
  simp only [Grid2d.get, Grid2d.set]
  rcases h with h | h
  · rw [if_neg (by omega), if_neg (by omega)]
    exact ⟨rfl, rfl⟩
  · constructor <;> split_ifs <;> first | rfl | omega

/-- Access by a point is access by its indices: `find_cell` and `get_cell` of a `hash_grid_2d` and
`get_cell` of a `grid_2d`. -/
theorem C34_by_point {xmin xmax ymin ymax w : K} {g : GridTraits K}
    (h : makeGrid xmin xmax ymin ymax w = .ok g) (p : P2 K)
    (hp : InBox ⟨⟨xmin, ymin⟩, ⟨xmax, ymax⟩⟩ p) (i j : Nat) (hi : InCell xmin w i p.x)
    (hj : InCell ymin w j p.y) (dflt : D) (m : HashGrid D) (n : Grid2d D) :
    m.findAt g p = .ok (m.find i j) ∧ m.getAt dflt g p = .ok (m.get dflt i j) ∧
      n.getAt g p = n.get i j := by
  obtain ⟨h1, h2, h3, h4, h5, rfl⟩ := makeGrid_ok h
  obtain ⟨p1, p2, p3, p4⟩ := hp
  obtain ⟨ix, jx⟩ := index_spec h1 p1 p2 h4
  obtain ⟨iy, jy⟩ := index_spec h1 p3 p4 h5
  rw [(floor_inCell h1 p1 i).mpr hi] at ix
  rw [(floor_inCell h1 p3 j).mpr hj] at iy
  simp only at p1 p2 p3 p4
  simp only [HashGrid.findAt, HashGrid.getAt, Grid2d.getAt, GridTraits.isContained, ge_iff_le, p1, p2,
    p3, p4, decide_true, Bool.and_self, not_true_eq_false, if_false, GridTraits.xIndex,
    GridTraits.yIndex, and_self, ix, iy, bind, Except.bind]

/-- Access by a point outside the bounds fails the assertion that the point is contained. -/
theorem C34_by_point_outside {xmin xmax ymin ymax w : K} {g : GridTraits K}
    (h : makeGrid xmin xmax ymin ymax w = .ok g) (p : P2 K)
    (hp : ¬ InBox ⟨⟨xmin, ymin⟩, ⟨xmax, ymax⟩⟩ p) (dflt : D) (m : HashGrid D) (n : Grid2d D) :
    m.findAt g p = .error .assertFailed ∧ m.getAt dflt g p = .error .assertFailed ∧
      n.getAt g p = .error .assertFailed := by
  have hc : ¬ g.isContained p = true := fun hc => hp ((C33_is_contained h p).1 hc)
  simp only [HashGrid.findAt, HashGrid.getAt, Grid2d.getAt]
  rw [if_pos hc, if_pos hc, if_pos hc]
  exact ⟨rfl, rfl, rfl⟩

example : ¬ InBox ⟨⟨0, 0⟩, ⟨2, 2⟩⟩ (⟨1, 3⟩ : P2 ℚ) := by
  rintro ⟨_, _, _, h⟩; norm_num at h

end Geometrix
