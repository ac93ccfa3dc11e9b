import Verif.Lemmas.FastVoxel

/-!
# C36: fast voxel traversal

`g` is a grid made by the constructor of `grid_traits` with less than `2^32 - 1` cell widths in each
direction (see C33 for what happens above). The fuel is the number of iterations allowed to each loop;
that the result is not the fault `diverges` for any fuel of at least the number of columns and rows
means that the loops end.
-/

set_option linter.unusedSectionVars false

namespace Geometrix

open Spec

variable {K : Type*} [Field K] [LinearOrder K] [IsStrictOrderedRing K] [FloorSemiring K]

/-- For a segment with both ends in the grid the traversal ends, the first cell visited is that of the
start, each next cell shares an edge with the one before it, each cell visited meets the segment, and
the last cell visited is that of the end, except that this last part is left out for one case. Missing
for the full property: when the segment goes right and down and its end is at a corner of cells, the
last cell need not be visited (`C36_end_refuted`). -/
theorem C36_inside_partial {xmin xmax ymin ymax w : K} {g : GridTraits K}
    (h : makeGrid xmin xmax ymin ymax w = .ok g) (hx : xmax - xmin < (2 ^ 32 - 1) * w)
    (hy : ymax - ymin < (2 ^ 32 - 1) * w) (s : Seg K)
    (hs : InBox ⟨⟨xmin, ymin⟩, ⟨xmax, ymax⟩⟩ s.s) (he : InBox ⟨⟨xmin, ymin⟩, ⟨xmax, ymax⟩⟩ s.e)
    (i j iEnd jEnd : Nat) (h1 : InCell xmin w i s.s.x) (h2 : InCell ymin w j s.s.y)
    (h3 : InCell xmin w iEnd s.e.x) (h4 : InCell ymin w jEnd s.e.y)
    (fuel : Nat) (hf : g.width + g.height ≤ fuel) :
    ∃ cells, fastVoxel Cmp.direct (fun _ => true) fuel g s = .ok cells ∧
      cells.head? = some (i, j) ∧ cells.IsChain ShareEdge ∧
      (∀ c ∈ cells, ∃ P, OnSegment s.s s.e P ∧ InClosedCell xmin ymin w c P) ∧
      (¬ (s.s.x < s.e.x ∧ s.e.y < s.s.y ∧ s.e.x = xmin + iEnd * w ∧ s.e.y = ymin + jEnd * w) →
        cells.getLast? = some (iEnd, jEnd)) := by
  have e0 : along s.s s.e 0 = s.s := by ext <;> simp [along_x, along_y]
  have e1 : along s.s s.e 1 = s.e := by ext <;> simp [along_x, along_y]
  obtain ⟨k1, -, -, -, -, hg⟩ := makeGrid_ok h
  have uniq : ∀ {x0 x : K} {a b : Nat}, InCell x0 w a x → InCell x0 w b x → a = b := by
    intro x0 x a b ha hb
    have : 0 ≤ (a : K) * w := mul_nonneg (Nat.cast_nonneg _) k1.le
    have hx0 : x0 ≤ x := by linarith [ha.1]
    rw [← (floor_inCell k1 hx0 a).mpr ha, ← (floor_inCell k1 hx0 b).mpr hb]
  rcases fastVoxel_spec h hx hy s fuel hf with ⟨-, hn⟩ |
    ⟨cells, a, b, i', j', iEnd', jEnd', a0, ab, b1, -, -, hall, hc, hgood, c1, c2, c3, c4⟩
  · exact absurd (by rw [e0]; exact hs) (hn 0 le_rfl zero_le_one)
  · obtain rfl : a = 0 := le_antisymm (hall 0 le_rfl zero_le_one (by rw [e0]; exact hs)).1 a0
    obtain rfl : b = 1 := le_antisymm b1 (hall 1 zero_le_one le_rfl (by rw [e1]; exact he)).2
    rw [e0] at c1 c2
    rw [e1] at c3 c4
    obtain rfl := uniq h1 c1
    obtain rfl := uniq h2 c2
    obtain rfl := uniq h3 c3
    obtain rfl := uniq h4 c4
    obtain ⟨g1, g2, g3, g4⟩ := hgood
    rw [e1] at g4
    subst hg
    refine ⟨cells, hc, g1, g2, ?_, g4⟩
    intro c hcm
    obtain ⟨t, t0, t1, ht⟩ := g3 c hcm
    exact ⟨_, ⟨t, t0, t1, rfl⟩, ht⟩

example : ∃ g, makeGrid (0 : ℚ) 10 0 10 1 = .ok g ∧ g.width + g.height ≤ 22 ∧
    (10 : ℚ) - 0 < (2 ^ 32 - 1) * 1 ∧
    InBox (⟨⟨0, 0⟩, ⟨10, 10⟩⟩ : Box ℚ) ⟨3 / 2, 17 / 2⟩ ∧ InBox (⟨⟨0, 0⟩, ⟨10, 10⟩⟩ : Box ℚ) ⟨6, 1 / 3⟩ ∧
    InCell (0 : ℚ) 1 1 (3 / 2) ∧ InCell (0 : ℚ) 1 8 (17 / 2) ∧ InCell (0 : ℚ) 1 6 6 ∧
    InCell (0 : ℚ) 1 0 (1 / 3) ∧
    ¬ ((3 / 2 : ℚ) < 6 ∧ (1 / 3 : ℚ) < 17 / 2 ∧ (6 : ℚ) = 0 + 6 * 1 ∧ (1 / 3 : ℚ) = 0 + 0 * 1) := by
  have h : (match makeGrid (0 : ℚ) 10 0 10 1 with
      | .ok g => g.width + g.height ≤ 22 | _ => false) = true := by decide +kernel
  cases hg : makeGrid (0 : ℚ) 10 0 10 1 with
  | error e => rw [hg] at h; simp at h
  | ok g =>
    rw [hg] at h
    refine ⟨g, rfl, by simpa using h, ?_⟩
    simp only [InBox, InCell]
    norm_num

/-- A segment from (1.5, 2.5) to (2, 1) in a grid of unit cells: the cells (1, 2) and (1, 1) are visited
and the cell of the end, (2, 1), is not. -/
theorem C36_end_refuted :
    ∃ (g : GridTraits ℚ) (s : Seg ℚ), makeGrid (0 : ℚ) 10 0 10 1 = .ok g ∧
      InBox ⟨⟨0, 0⟩, ⟨10, 10⟩⟩ s.s ∧ InBox ⟨⟨0, 0⟩, ⟨10, 10⟩⟩ s.e ∧
      InCell 0 1 2 s.e.x ∧ InCell 0 1 1 s.e.y ∧
      ∃ cells, fastVoxel Cmp.direct (fun _ => true) 100 g s = .ok cells ∧ (2, 1) ∉ cells := by
  have h : (match makeGrid (0 : ℚ) 10 0 10 1 with
      | .ok g => (match fastVoxel Cmp.direct (fun _ => true) 100 g
          (⟨⟨3 / 2, 5 / 2⟩, ⟨2, 1⟩⟩ : Seg ℚ) with
        | .ok cells => cells == [(1, 2), (1, 1)] | _ => false) | _ => false) = true := by
    decide +kernel
  cases hg : makeGrid (0 : ℚ) 10 0 10 1 with
  | error e => rw [hg] at h; simp at h
  | ok g =>
    rw [hg] at h
    simp only at h
    cases hc : fastVoxel Cmp.direct (fun _ => true) 100 g (⟨⟨3 / 2, 5 / 2⟩, ⟨2, 1⟩⟩ : Seg ℚ) with
    | error e => rw [hc] at h; simp at h
    | ok cells =>
      rw [hc] at h
      refine ⟨g, ⟨⟨3 / 2, 5 / 2⟩, ⟨2, 1⟩⟩, rfl, ?_, ?_, ?_, ?_, cells, hc, ?_⟩
      · simp only [InBox]; norm_num
      · simp only [InBox]; norm_num
      · simp only [InCell]; norm_num
      · simp only [InCell]; norm_num
      · have : cells = [(1, 2), (1, 1)] := by simpa using h
        rw [this]; decide

/-- A segment that has no point in the grid leads to no visit; and for any other segment the
traversal ends, starts in the cell of the first point of the segment in the grid, moves across edges,
visits only cells that meet the part of the segment in the grid, and (but for the case of
`C36_end_refuted`) ends in the cell of the last point in the grid. -/
theorem C36_clipped_partial {xmin xmax ymin ymax w : K} {g : GridTraits K}
    (h : makeGrid xmin xmax ymin ymax w = .ok g) (hx : xmax - xmin < (2 ^ 32 - 1) * w)
    (hy : ymax - ymin < (2 ^ 32 - 1) * w) (s : Seg K) (fuel : Nat)
    (hf : g.width + g.height ≤ fuel) :
    ∃ cells, fastVoxel Cmp.direct (fun _ => true) fuel g s = .ok cells ∧
      ((∀ t : K, 0 ≤ t → t ≤ 1 → ¬ InBox ⟨⟨xmin, ymin⟩, ⟨xmax, ymax⟩⟩ (s.s + t • (s.e - s.s))) →
        cells = []) ∧
      ∀ a b : K, 0 ≤ a → b ≤ 1 →
        (∀ t : K, 0 ≤ t → t ≤ 1 →
          (InBox ⟨⟨xmin, ymin⟩, ⟨xmax, ymax⟩⟩ (s.s + t • (s.e - s.s)) ↔ a ≤ t ∧ t ≤ b)) →
        a ≤ b →
        ∃ i j iEnd jEnd, InCell xmin w i (s.s + a • (s.e - s.s)).x ∧
          InCell ymin w j (s.s + a • (s.e - s.s)).y ∧ InCell xmin w iEnd (s.s + b • (s.e - s.s)).x ∧
          InCell ymin w jEnd (s.s + b • (s.e - s.s)).y ∧
          cells.head? = some (i, j) ∧ cells.IsChain ShareEdge ∧
          (∀ c ∈ cells, ∃ t : K, a ≤ t ∧ t ≤ b ∧
            InClosedCell xmin ymin w c (s.s + t • (s.e - s.s))) ∧
          (¬ (s.s.x < s.e.x ∧ s.e.y < s.s.y ∧
            (s.s + b • (s.e - s.s)).x = xmin + iEnd * w ∧
            (s.s + b • (s.e - s.s)).y = ymin + jEnd * w) → cells.getLast? = some (iEnd, jEnd)) := by
  obtain ⟨k1, -, -, -, -, hg⟩ := makeGrid_ok h
  rcases fastVoxel_spec h hx hy s fuel hf with ⟨hr, hn⟩ |
    ⟨cells, a, b, i', j', iEnd', jEnd', a0, ab, b1, ka, kb, hall, hc, hgood, c1, c2, c3, c4⟩
  · refine ⟨[], hr, fun _ => rfl, ?_⟩
    intro a b a0 b1 hiff hab
    exact absurd ((hiff a a0 (le_trans hab b1)).mpr ⟨le_rfl, hab⟩) (hn a a0 (le_trans hab b1))
  · refine ⟨cells, hc, ?_, ?_⟩
    · intro hn
      exact absurd ka (hn a a0 (le_trans ab b1))
    · intro a' b' a0' b1' hiff hab
      have ha := (hiff a a0 (le_trans ab b1)).mp ka
      have hb := (hiff b (le_trans a0 ab) b1).mp kb
      have ha' := hall a' a0' (le_trans hab b1') ((hiff a' a0' (le_trans hab b1')).mpr ⟨le_rfl, hab⟩)
      have hb' := hall b' (le_trans a0' hab) b1' ((hiff b' (le_trans a0' hab) b1').mpr ⟨hab, le_rfl⟩)
      obtain rfl : a = a' := le_antisymm ha'.1 ha.1
      obtain rfl : b = b' := le_antisymm hb.2 hb'.2
      subst hg
      exact ⟨i', j', iEnd', jEnd', c1, c2, c3, c4, hgood.1, hgood.2.1, hgood.2.2.1, hgood.2.2.2⟩

/-- A segment that crosses the grid from outside to outside: it is in the grid from one quarter to three
quarters of the way. -/
example : ∀ t : ℚ, 0 ≤ t → t ≤ 1 →
    (InBox ⟨⟨0, 0⟩, ⟨10, 10⟩⟩ ((⟨-5, 3⟩ : P2 ℚ) + t • (⟨15, 5⟩ - ⟨-5, 3⟩ : P2 ℚ)) ↔
      1 / 4 ≤ t ∧ t ≤ 3 / 4) := by
  intro t h0 h1
  simp only [InBox, P2.add_x, P2.add_y, P2.smul_x, P2.smul_y, P2.sub_x, P2.sub_y]
  constructor
  · rintro ⟨a, b, c, d⟩; constructor <;> linarith
  · rintro ⟨a, b⟩; refine ⟨?_, ?_, ?_, ?_⟩ <;> linarith

/-- The stoppable traversal visits the same cells up to and including the first for which the visitor
answers false. -/
theorem C36_stoppable (cmp : Cmp K) (visit : Nat × Nat → Bool) (fuel : Nat) (g : GridTraits K)
    (s : Seg K) {cells : List (Nat × Nat)}
    (h : fastVoxel cmp (fun _ => true) fuel g s = .ok cells) :
    fastVoxel cmp visit fuel g s = .ok (stopAfter visit cells) := by
  unfold fastVoxel at h ⊢
  simp only at h ⊢
  split_ifs at h ⊢ with hc
  · split at h
    · simp at h
    · cases h; rfl
    · rename_i q0 q1 e
      exact voxelClipped_stop cmp visit fuel g s q0 q1 h
  · exact voxelClipped_stop cmp visit fuel g s _ _ h

example : stopAfter (fun c : Nat × Nat => c.2 < 4) [(1, 2), (1, 3), (2, 3), (2, 4), (2, 5)] =
    [(1, 2), (1, 3), (2, 3), (2, 4)] := by decide

end Geometrix
