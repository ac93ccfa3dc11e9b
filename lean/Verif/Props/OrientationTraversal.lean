import Verif.Lemmas.OrientationTraversal3

/-!
# C100: traversal of a grid guided by orientations

`g` is a grid made by the constructor of `grid_traits` with less than `2^32 - 1` cell widths in each direction. `P` and
`Q` are the ends of the segment in lexicographical order; the traversal goes from `P` to `Q` whichever of them the segment
starts with. The part of the segment in the grid is that between the times `a` and `b`, when time `0` is at `P` and time
`1` is at `Q`. The fuel is the number of iterations allowed to each loop.
-/

set_option linter.unusedSectionVars false

namespace Geometrix

open Spec

variable {K : Type*} [Field K] [LinearOrder K] [IsStrictOrderedRing K] [FloorSemiring K]

/-- A segment that has no point in the grid leads to no visit. For any other segment the traversal ends, starts in the
cell of the first point in the grid, ends in that of the last, goes from each cell to one that shares an edge or a corner
with it, visits no cell twice, visits only cells that meet the part of the segment in the grid, and visits every cell that
has a point of that part in its interior. Missing for the full property: a segment that goes down within one column of
cells (`C100_down_refuted`). -/
theorem C100_partial {xmin xmax ymin ymax w : K} {g : GridTraits K}
    (h : makeGrid xmin xmax ymin ymax w = .ok g) (hx : xmax - xmin < (2 ^ 32 - 1) * w)
    (hy : ymax - ymin < (2 ^ 32 - 1) * w) {P Q : P2 K} (hPQ : P.x < Q.x ∨ (P.x = Q.x ∧ P.y ≤ Q.y)) {s : Seg K}
    (hs : s = ⟨P, Q⟩ ∨ s = ⟨Q, P⟩) (fuel : Nat) (hf : g.width + g.height < fuel) :
    ((∀ t : K, 0 ≤ t → t ≤ 1 → ¬ InBox ⟨⟨xmin, ymin⟩, ⟨xmax, ymax⟩⟩ (P + t • (Q - P))) →
      orientationTraversal Cmp.direct fuel g s = .ok []) ∧
    ∀ a b : K, 0 ≤ a → a ≤ b → b ≤ 1 →
      (∀ t : K, 0 ≤ t → t ≤ 1 → (InBox ⟨⟨xmin, ymin⟩, ⟨xmax, ymax⟩⟩ (P + t • (Q - P)) ↔ a ≤ t ∧ t ≤ b)) →
      ∀ i j iEnd jEnd : Nat, InCell xmin w i (P + a • (Q - P)).x → InCell ymin w j (P + a • (Q - P)).y →
        InCell xmin w iEnd (P + b • (Q - P)).x → InCell ymin w jEnd (P + b • (Q - P)).y →
        ¬ (i = iEnd ∧ jEnd < j) →
        ∃ cells, orientationTraversal Cmp.direct fuel g s = .ok cells ∧
          cells.head? = some (i, j) ∧ cells.getLast? = some (iEnd, jEnd) ∧ cells.IsChain Touching ∧ cells.Nodup ∧
          (∀ c ∈ cells, ∃ t : K, a ≤ t ∧ t ≤ b ∧ InClosedCell xmin ymin w c (P + t • (Q - P))) ∧
          ∀ (c : Nat × Nat) (t : K), a ≤ t → t ≤ b → InOpenCell xmin ymin w c (P + t • (Q - P)) → c ∈ cells := by
  obtain ⟨k1, -, -, -, -, hg⟩ := makeGrid_ok h
  have uniq : ∀ {x0 x : K} {a b : Nat}, InCell x0 w a x → InCell x0 w b x → a = b := by
    intro x0 x a b ha hb
    have : 0 ≤ (a : K) * w := mul_nonneg (Nat.cast_nonneg _) k1.le
    have hx0 : x0 ≤ x := by linarith [ha.1]
    rw [← (floor_inCell k1 hx0 a).mpr ha, ← (floor_inCell k1 hx0 b).mpr hb]
  rcases orientationTraversal_spec h hx hy hPQ hs fuel hf with ⟨hr, hn⟩ |
    ⟨a, b, i, j, iEnd, jEnd, a0, ab, b1, ka, kb, hall, c1, c2, c3, c4, hc⟩
  · refine ⟨fun _ => hr, ?_⟩
    intro a b a0 ab b1 hiff
    exact absurd ((hiff a a0 (le_trans ab b1)).mpr ⟨le_rfl, ab⟩) (hn a a0 (le_trans ab b1))
  · refine ⟨fun hn => absurd ka (hn a a0 (le_trans ab b1)), ?_⟩
    intro a' b' a0' hab b1' hiff i' j' iEnd' jEnd' d1 d2 d3 d4 hne
    have ha := (hiff a a0 (le_trans ab b1)).mp ka
    have hb := (hiff b (le_trans a0 ab) b1).mp kb
    have ha' := hall a' a0' (le_trans hab b1') ((hiff a' a0' (le_trans hab b1')).mpr ⟨le_rfl, hab⟩)
    have hb' := hall b' (le_trans a0' hab) b1' ((hiff b' (le_trans a0' hab) b1').mpr ⟨hab, le_rfl⟩)
    obtain rfl : a = a' := le_antisymm ha'.1 ha.1
    obtain rfl : b = b' := le_antisymm hb.2 hb'.2
    obtain rfl := uniq c1 d1
    obtain rfl := uniq c2 d2
    obtain rfl := uniq c3 d3
    obtain rfl := uniq c4 d4
    subst hg
    obtain ⟨cells, e1, e2, e3, e4, e5, e6, e7⟩ := hc hne
    exact ⟨cells, e1, e2, e3, e4, e5, e6, e7⟩

/-- A segment that crosses the grid from outside to outside, in the grid from one quarter to three quarters of the way, and
the cells it visits. -/
example : (∀ t : ℚ, 0 ≤ t → t ≤ 1 →
    (InBox ⟨⟨0, 0⟩, ⟨10, 10⟩⟩ ((⟨-5, 3⟩ : P2 ℚ) + t • (⟨15, 5⟩ - ⟨-5, 3⟩ : P2 ℚ)) ↔ 1 / 4 ≤ t ∧ t ≤ 3 / 4)) ∧
    InCell (0 : ℚ) 1 3 ((⟨-5, 3⟩ : P2 ℚ) + (1 / 4 : ℚ) • (⟨15, 5⟩ - ⟨-5, 3⟩ : P2 ℚ)).y ∧
    (match makeGrid (0 : ℚ) 10 0 10 1 with
      | .ok g => (match orientationTraversal Cmp.direct 30 g (⟨⟨15, 5⟩, ⟨-5, 3⟩⟩ : Seg ℚ) with
        | .ok cells => cells == [(0, 3), (1, 3), (2, 3), (3, 3), (4, 3), (5, 4), (6, 4), (7, 4), (8, 4), (9, 4), (10, 4)]
        | _ => false) | _ => false) = true := by
  refine ⟨?_, ?_, by decide +kernel⟩
  · intro t h0 h1
    simp only [InBox, P2.add_x, P2.add_y, P2.smul_x, P2.smul_y, P2.sub_x, P2.sub_y]
    constructor
    · rintro ⟨a, b, c, d⟩; constructor <;> linarith
    · rintro ⟨a, b⟩; refine ⟨?_, ?_, ?_, ?_⟩ <;> linarith
  · simp only [InCell, P2.add_y, P2.smul_y, P2.sub_y]; norm_num

/-- A segment from (0.2, 2.5) to (0.7, 0.5) in a grid of ten by ten unit cells: the row number is counted up from 2 until
it wraps to 0, so that cells far outside the grid are visited. -/
theorem C100_down_refuted :
    ∃ (g : GridTraits ℚ) (s : Seg ℚ), makeGrid (0 : ℚ) 10 0 10 1 = .ok g ∧
      InBox ⟨⟨0, 0⟩, ⟨10, 10⟩⟩ s.s ∧ InBox ⟨⟨0, 0⟩, ⟨10, 10⟩⟩ s.e ∧ s.s.x < s.e.x ∧
      ∃ cells, orientationTraversal Cmp.direct (2 ^ 33) g s = .ok cells ∧ (0, 2 ^ 32 - 1) ∈ cells := by
  have hg := makeGrid_eq (xmin := (0 : ℚ)) (xmax := 10) (ymin := 0) (ymax := 10) (w := 1) (by norm_num) (by norm_num)
    (by norm_num) (by norm_num) (by norm_num)
  refine ⟨_, ⟨⟨1 / 5, 5 / 2⟩, ⟨7 / 10, 1 / 2⟩⟩, hg, by simp only [InBox]; norm_num, by simp only [InBox]; norm_num,
    by norm_num, (0, 2) :: (List.range' 3 (2 ^ 32 - 3) ++ 0 :: List.range' 1 0).map (fun v => (0, v)), ?_, ?_⟩
  · have t : ∀ (v : ℚ) (n : Nat), (n : ℚ) ≤ v → v < n + 1 → v < 2 ^ 32 → toU32 v = .ok n := by
      intro v n h1 h2 h3
      have h0 : 0 ≤ v := le_trans (Nat.cast_nonneg n) h1
      rw [toU32_eq h0 h3, (Nat.floor_eq_iff h0).2 ⟨h1, h2⟩]
    unfold orientationTraversal
    rw [orientationTraversal_order (P := ⟨1 / 5, 5 / 2⟩) (Q := ⟨7 / 10, 1 / 2⟩) (Or.inl (by norm_num)) (Or.inl rfl)]
    simp only
    rw [if_neg (by norm_num)]
    unfold orientedClipped
    simp only [GridTraits.scaledX, GridTraits.scaledY]
    rw [t _ 0 (by norm_num) (by norm_num) (by norm_num), t _ 2 (by norm_num) (by norm_num) (by norm_num),
      t _ 0 (by norm_num) (by norm_num) (by norm_num), t _ 0 (by norm_num) (by norm_num) (by norm_num)]
    have := orientedStrip_wrap (2 ^ 32 - 3) (2 ^ 33 - (2 ^ 32 - 3) - 1) 2 0 (by norm_num) (by norm_num) (by norm_num)
    rw [show 2 ^ 33 - (2 ^ 32 - 3) - 1 + (2 ^ 32 - 3) + 1 = 2 ^ 33 by norm_num] at this
    simp only [this, if_true]
    rfl
  · refine List.mem_cons_of_mem _ (List.mem_map.2 ⟨2 ^ 32 - 1, List.mem_append_left _ ?_, rfl⟩)
    rw [List.mem_range'_1]
    norm_num

end Geometrix
