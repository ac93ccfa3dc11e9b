import Verif.Lemmas.OrientationTraversal

/-!
# Helpers for the traversal guided by orientations: the whole path
-/

set_option linter.unusedSectionVars false

namespace Geometrix

open Spec

variable {K : Type*} [Field K] [LinearOrder K] [IsStrictOrderedRing K] [FloorSemiring K]

/-- What is shown of the cells visited between the times `a` and `b`. -/
def GuidedPath (g : GridTraits K) (P Q : P2 K) (a b : K) (i j iEnd jEnd : Nat) (cells : List (Nat × Nat)) : Prop :=
  cells.head? = some (i, j) ∧ cells.getLast? = some (iEnd, jEnd) ∧ cells.IsChain Touching ∧ cells.Nodup ∧
  (∀ c ∈ cells, ∃ t, a ≤ t ∧ t ≤ b ∧ InClosedCell g.xmin g.ymin g.cellWidth c (along P Q t)) ∧
  ∀ c t, a ≤ t → t ≤ b → InOpenCell g.xmin g.ymin g.cellWidth c (along P Q t) → c ∈ cells

theorem touching_right {p q j : Nat} (h : |(p : Int) - q| = 1) : Touching (p, j) (q, j) := by
  refine ⟨fun e => ?_, h.le, by simp⟩
  have := (Prod.mk.injEq _ _ _ _ ▸ e : (p : Int) = q ∧ (j : Int) = j).1
  rw [this] at h
  simp at h

theorem touching_up {p q i : Nat} (h : |(p : Int) - q| = 1) : Touching (i, p) (i, q) := by
  refine ⟨fun e => ?_, by simp, h.le⟩
  have := (Prod.mk.injEq _ _ _ _ ▸ e : (i : Int) = i ∧ (p : Int) = q).2
  rw [this] at h
  simp at h

theorem touching_diag {p q r s : Nat} (h : |(p : Int) - q| = 1) (h' : |(r : Int) - s| = 1) : Touching (p, r) (q, s) := by
  refine ⟨fun e => ?_, h.le, h'.le⟩
  have := (Prod.mk.injEq _ _ _ _ ▸ e : (p : Int) = q ∧ (r : Int) = s).1
  rw [this] at h
  simp at h

/-- A number in the open cell `c` that is between a number of cell `i` and one of cell `k`. -/
theorem cell_between {x0 w x y z : K} {i k c : Nat} (hw : 0 < w) (hx : InCell x0 w i x) (hz : InCell x0 w k z)
    (h1 : x0 + c * w < y) (h2 : y < x0 + (c + 1) * w) (hxy : x ≤ y) (hyz : y ≤ z) : i ≤ c ∧ c ≤ k := by
  constructor
  · have : x0 + i * w < x0 + ((c + 1 : Nat) : K) * w := by push_cast; linarith [hx.1]
    have := lt_of_mul_lt_mul_right (by linarith : (i : K) * w < ((c + 1 : Nat) : K) * w) hw.le
    have := Nat.cast_lt.1 this
    omega
  · have : x0 + c * w < x0 + ((k + 1 : Nat) : K) * w := by push_cast; linarith [hz.2]
    have := lt_of_mul_lt_mul_right (by linarith : (c : K) * w < ((k + 1 : Nat) : K) * w) hw.le
    have := Nat.cast_lt.1 this
    omega

/-- The same when it moves evenly from the one to the other. -/
theorem cell_between_along {x0 w s d a b t : K} {i k c : Nat} (hw : 0 < w) (ha : InCell x0 w i (s + a * d))
    (hb : InCell x0 w k (s + b * d)) (h1 : x0 + c * w < s + t * d) (h2 : s + t * d < x0 + (c + 1) * w)
    (hat : a ≤ t) (htb : t ≤ b) : (i ≤ c ∧ c ≤ k) ∨ (k ≤ c ∧ c ≤ i) := by
  rcases le_total 0 d with hd | hd
  · exact Or.inl (cell_between hw ha hb h1 h2 (by linarith [mul_le_mul_of_nonneg_right hat hd])
      (by linarith [mul_le_mul_of_nonneg_right htb hd]))
  · exact Or.inr (cell_between hw hb ha h1 h2 (by linarith [mul_le_mul_of_nonpos_right htb hd])
      (by linarith [mul_le_mul_of_nonpos_right hat hd]))

theorem openSlab_up {x0 w s d a b t : K} {i0 iEnd c : Nat} (hw : 0 < w) (hd : 0 < d) (hi : i0 < iEnd)
    (hmax : iEnd + 1 < 2 ^ 32) (ha : InCell x0 w i0 (s + a * d)) (hb : InCell x0 w iEnd (s + b * d))
    (h1 : x0 + c * w < s + t * d) (h2 : s + t * d < x0 + (c + 1) * w) (hat : a ≤ t) (htb : t ≤ b) :
    ∃ m ≤ iEnd - i0, i0 + m = c ∧
      (x0 + ((addU32 i0 1 : Nat) : K) * w - s) * (1 / d) + m * (w * ((1 : Int) : K) * (1 / d)) -
        w * ((1 : Int) : K) * (1 / d) < t ∧
      t < (x0 + ((addU32 i0 1 : Nat) : K) * w - s) * (1 / d) + m * (w * ((1 : Int) : K) * (1 / d)) := by
  have hc : i0 ≤ c ∧ c ≤ iEnd := by
    rcases cell_between_along hw ha hb h1 h2 hat htb with h | h
    · exact h
    · omega
  refine ⟨c - i0, by omega, by omega, ?_, ?_⟩
  · rw [addU32_of_lt (by omega), Nat.cast_sub hc.1]
    have : (x0 + ((i0 + 1 : Nat) : K) * w - s) * (1 / d) + ((c : K) - i0) * (w * ((1 : Int) : K) * (1 / d)) -
        w * ((1 : Int) : K) * (1 / d) = (x0 + c * w - s) / d := by push_cast; ring
    rw [this, div_lt_iff₀ hd]
    linarith
  · rw [addU32_of_lt (by omega), Nat.cast_sub hc.1]
    have : (x0 + ((i0 + 1 : Nat) : K) * w - s) * (1 / d) + ((c : K) - i0) * (w * ((1 : Int) : K) * (1 / d)) =
        (x0 + (c + 1) * w - s) / d := by push_cast; ring
    rw [this, lt_div_iff₀ hd]
    linarith

theorem openSlab_down {x0 w s d a b t : K} {i0 iEnd c : Nat} (hw : 0 < w) (hd : d < 0) (hi : iEnd < i0)
    (ha : InCell x0 w i0 (s + a * d)) (hb : InCell x0 w iEnd (s + b * d))
    (h1 : x0 + c * w < s + t * d) (h2 : s + t * d < x0 + (c + 1) * w) (hat : a ≤ t) (htb : t ≤ b) :
    ∃ m ≤ i0 - iEnd, i0 - m = c ∧
      (x0 + (i0 : K) * w - s) * (1 / d) + m * (w * ((-1 : Int) : K) * (1 / d)) -
        w * ((-1 : Int) : K) * (1 / d) < t ∧
      t < (x0 + (i0 : K) * w - s) * (1 / d) + m * (w * ((-1 : Int) : K) * (1 / d)) := by
  have hc : iEnd ≤ c ∧ c ≤ i0 := by
    rcases cell_between_along hw ha hb h1 h2 hat htb with h | h
    · omega
    · exact h
  refine ⟨i0 - c, by omega, by omega, ?_, ?_⟩
  · rw [Nat.cast_sub hc.2]
    have : (x0 + (i0 : K) * w - s) * (1 / d) + ((i0 : K) - c) * (w * ((-1 : Int) : K) * (1 / d)) -
        w * ((-1 : Int) : K) * (1 / d) = (x0 + (c + 1) * w - s) / d := by push_cast; ring
    rw [this, div_lt_iff_of_neg hd]
    linarith
  · rw [Nat.cast_sub hc.2]
    have : (x0 + (i0 : K) * w - s) * (1 / d) + ((i0 : K) - c) * (w * ((-1 : Int) : K) * (1 / d)) =
        (x0 + c * w - s) / d := by push_cast; ring
    rw [this, lt_div_iff_of_neg hd]
    linarith

/-- The path of a sloped segment from what is known about the two axes. -/
theorem guidedPath_of_axes {g : GridTraits K} {P Q : P2 K} {a b : K} (hab : a ≤ b) {up : Bool} {x2 y2 : K}
    {px py : Nat → K} {stepI stepJ : Int} {outI outJ iEnd jEnd M N : Nat} {ii jj : Nat → Nat} {Lx δx Ly δy : K}
    (VX : VoxAxis stepI outI iEnd ii M Lx δx a b (fun i t => g.xmin + i * g.cellWidth ≤
      P.x + t * (Q.x - P.x) ∧ P.x + t * (Q.x - P.x) ≤ g.xmin + (i + 1) * g.cellWidth))
    (VY : VoxAxis stepJ outJ jEnd jj N Ly δy a b (fun i t => g.ymin + i * g.cellWidth ≤
      P.y + t * (Q.y - P.y) ∧ P.y + t * (Q.y - P.y) ≤ g.ymin + (i + 1) * g.cellWidth))
    (X : PosAxis (fun p => advanceX p (x2 - p)) x2 px ii M)
    (Y : PosAxis (fun p => advanceY up p (y2 - p)) y2 py jj N)
    (hx : ∀ n, px n ≤ x2) (hy : ∀ n, if up then py n ≤ y2 else y2 ≤ py n)
    (hl : ∀ m ≤ M, ∀ n ≤ N, (cornerOrientation Cmp.direct g P Q up (ii m) (jj n) = .left ↔ Lx + m * δx < Ly + n * δy))
    (hr : ∀ m ≤ M, ∀ n ≤ N, (cornerOrientation Cmp.direct g P Q up (ii m) (jj n) = .right ↔ Ly + n * δy < Lx + m * δx))
    (hM : b < Lx + M * δx)
    (ix : ∀ m ≤ M, ∀ n ≤ M, ii m = ii n → m = n) (iy : ∀ m ≤ N, ∀ n ≤ N, jj m = jj n → m = n)
    (ox : ∀ (c : Nat) t, a ≤ t → t ≤ b → g.xmin + c * g.cellWidth < P.x + t * (Q.x - P.x) →
      P.x + t * (Q.x - P.x) < g.xmin + (c + 1) * g.cellWidth →
      ∃ m ≤ M, ii m = c ∧ Lx + m * δx - δx < t ∧ t < Lx + m * δx)
    (oy : ∀ (c : Nat) t, a ≤ t → t ≤ b → g.ymin + c * g.cellWidth < P.y + t * (Q.y - P.y) →
      P.y + t * (Q.y - P.y) < g.ymin + (c + 1) * g.cellWidth →
      ∃ n ≤ N, jj n = c ∧ Ly + n * δy - δy < t ∧ t < Ly + n * δy)
    (fuel : Nat) (hf : M + N + 2 < fuel) :
    ∃ rest, orientedLoop Cmp.direct g P Q up x2 y2 fuel (px 0) (py 0) (ii 0) (jj 0) = .ok rest ∧
      GuidedPath g P Q a b (ii 0) (jj 0) iEnd jEnd ((ii 0, jj 0) :: rest) := by
  have h1 : Lx + ((0 : Nat) : K) * δx - δx ≤ Ly + ((0 : Nat) : K) * δy := by
    push_cast; linarith [VX.enter0, VY.leave0]
  have h2 : Ly + ((0 : Nat) : K) * δy - δy ≤ Lx + ((0 : Nat) : K) * δx := by
    push_cast; linarith [VY.enter0, VX.leave0]
  have G : Guided (cornerOrientation Cmp.direct g P Q up) ii jj M N Lx δx Ly δy b :=
    ⟨hl, hr, VX.pos, VY.pos, VX.before, hM, VY.before, VY.after⟩
  obtain ⟨rest, r1, r2, r3, r4, r5⟩ := orientedLoop_spec X Y hx hy G ix iy fuel 0 0 (by omega) (by omega) (by omega) h1 h2
  have e : ((ii 0, jj 0) :: rest.map fun q => (ii q.1, jj q.2)) =
      ((0, 0) :: rest).map fun q : Nat × Nat => (ii q.1, jj q.2) := rfl
  have hall : ∀ q ∈ (0, 0) :: rest, q.1 ≤ M ∧ q.2 ≤ N := by
    intro q hq
    rcases List.mem_cons.mp hq with rfl | hq
    · exact ⟨by omega, by omega⟩
    · exact ⟨(r3 q hq).1, (r3 q hq).2.1⟩
  refine ⟨_, r1, rfl, ?_, ?_, ?_, ?_, ?_⟩
  · rw [e, List.getLast?_map, r4, Option.map_some, VX.last, VY.last]
  · rw [e, List.isChain_map]
    clear r1 r3 r4 r5 e
    generalize (0, 0) :: rest = l at r2 hall
    induction l with
    | nil => simp
    | cons p l ih =>
      cases l with
      | nil => simp
      | cons q l =>
        rw [List.isChain_cons_cons] at r2 ⊢
        refine ⟨?_, ih r2.2 (fun q hq => hall q (List.mem_cons_of_mem _ hq))⟩
        have hq := hall q (by simp)
        rcases r2.1 with ⟨e1, e2⟩ | ⟨e1, e2⟩ | ⟨e1, e2⟩
        · rw [e1, e2]; exact touching_right (VX.neighbour p.1 (by omega))
        · rw [e1, e2]; exact touching_up (VY.neighbour p.2 (by omega))
        · rw [e1, e2]; exact touching_diag (VX.neighbour p.1 (by omega)) (VY.neighbour p.2 (by omega))
  · rw [e]
    refine List.Nodup.map_on ?_ ?_
    · intro p hp q hq hpq
      have := hall p hp
      have := hall q hq
      simp only [Prod.mk.injEq] at hpq
      exact Prod.ext (ix _ (by omega) _ (by omega) hpq.1) (iy _ (by omega) _ (by omega) hpq.2)
    · have hc : List.IsChain (fun p q : Nat × Nat => p.1 + p.2 < q.1 + q.2) ((0, 0) :: rest) := by
        refine r2.imp ?_
        rintro p q (⟨e1, e2⟩ | ⟨e1, e2⟩ | ⟨e1, e2⟩) <;> omega
      have ht : IsTrans (Nat × Nat) (fun p q : Nat × Nat => p.1 + p.2 < q.1 + q.2) := ⟨fun p q r h h' => by omega⟩
      have := List.isChain_iff_pairwise.1 hc
      exact this.imp fun h e => by subst e; omega
  · have hwin : ∀ q ∈ (0, 0) :: rest, q.1 ≤ M ∧ q.2 ≤ N ∧
        Lx + q.1 * δx - δx ≤ Ly + q.2 * δy ∧ Ly + q.2 * δy - δy ≤ Lx + q.1 * δx := by
      intro q hq
      rcases List.mem_cons.mp hq with rfl | hq
      · exact ⟨by omega, by omega, h1, h2⟩
      · exact r3 q hq
    intro c hc
    rw [e] at hc
    obtain ⟨q, hq, rfl⟩ := List.mem_map.mp hc
    obtain ⟨q1, q2, q3, q4⟩ := hwin q hq
    have hent : ∀ {L δ : K} {m M : Nat}, m ≤ M → L - δ ≤ a → (∀ k : Nat, k < M → L + k * δ ≤ b) →
        L + m * δ - δ ≤ b := by
      intro L δ m M hm h0 hb
      rcases Nat.eq_zero_or_pos m with rfl | hp
      · push_cast; linarith
      · have := hb (m - 1) (by omega)
        rw [Nat.cast_sub (by omega)] at this
        push_cast at this
        linarith
    have ex := hent q1 VX.enter0 VX.before
    have ey := hent q2 VY.enter0 VY.before
    have lx : a ≤ Lx + q.1 * δx := by
      have := mul_nonneg (Nat.cast_nonneg (α := K) q.1) VX.pos.le
      linarith [VX.leave0]
    have ly : a ≤ Ly + q.2 * δy := by
      have := mul_nonneg (Nat.cast_nonneg (α := K) q.2) VY.pos.le
      linarith [VY.leave0]
    have hx := VX.slab q.1 q1 (max a (max (Lx + q.1 * δx - δx) (Ly + q.2 * δy - δy)))
      (le_trans (le_max_left _ _) (le_max_right _ _))
      (max_le lx (max_le (by linarith [VX.pos]) q4))
    have hy := VY.slab q.2 q2 (max a (max (Lx + q.1 * δx - δx) (Ly + q.2 * δy - δy)))
      (le_trans (le_max_right _ _) (le_max_right _ _))
      (max_le ly (max_le q3 (by linarith [VY.pos])))
    exact ⟨_, le_max_left _ _, max_le hab (max_le ex ey), hx.1, hx.2, hy.1, hy.2⟩
  · intro c t ta tb ⟨o1, o2, o3, o4⟩
    rw [along_x] at o1 o2
    rw [along_y] at o3 o4
    obtain ⟨m, hm, em, m1, m2⟩ := ox c.1 t ta tb o1 o2
    obtain ⟨n, hn, en, n1, n2⟩ := oy c.2 t ta tb o3 o4
    rw [e, List.mem_map]
    exact ⟨(m, n), r5 (m, n) t (by omega) hm (by omega) hn m1 m2 n1 n2 tb, by simp [em, en]⟩

/-- The orientation of the corner when the segment goes up. -/
theorem corner_up {g : GridTraits K} {P Q : P2 K} {i j m n : Nat} (dx : 0 < Q.x - P.x) (dy : 0 < Q.y - P.y)
    (hi : i + m + 1 < 2 ^ 32) (hj : j + n + 1 < 2 ^ 32) :
    (cornerOrientation Cmp.direct g P Q true (i + m) (j + n) = .left ↔
      (g.xmin + ((addU32 i 1 : Nat) : K) * g.cellWidth - P.x) * (1 / (Q.x - P.x)) +
        m * (g.cellWidth * ((1 : Int) : K) * (1 / (Q.x - P.x))) <
      (g.ymin + ((addU32 j 1 : Nat) : K) * g.cellWidth - P.y) * (1 / (Q.y - P.y)) +
        n * (g.cellWidth * ((1 : Int) : K) * (1 / (Q.y - P.y)))) ∧
    (cornerOrientation Cmp.direct g P Q true (i + m) (j + n) = .right ↔
      (g.ymin + ((addU32 j 1 : Nat) : K) * g.cellWidth - P.y) * (1 / (Q.y - P.y)) +
        n * (g.cellWidth * ((1 : Int) : K) * (1 / (Q.y - P.y))) <
      (g.xmin + ((addU32 i 1 : Nat) : K) * g.cellWidth - P.x) * (1 / (Q.x - P.x)) +
        m * (g.cellWidth * ((1 : Int) : K) * (1 / (Q.x - P.x)))) := by
  obtain ⟨o1, o2, -⟩ := orientation_sign P Q (g.cellCorner2 (i + m) (j + n))
  simp only [cornerOrientation, if_true]
  rw [o1, o2, addU32_of_lt (by omega), addU32_of_lt (by omega)]
  have ex : (g.xmin + ((i + 1 : Nat) : K) * g.cellWidth - P.x) * (1 / (Q.x - P.x)) +
      m * (g.cellWidth * ((1 : Int) : K) * (1 / (Q.x - P.x))) =
      (g.xmin + ((i + m + 1 : Nat) : K) * g.cellWidth - P.x) / (Q.x - P.x) := by push_cast; ring
  have ey : (g.ymin + ((j + 1 : Nat) : K) * g.cellWidth - P.y) * (1 / (Q.y - P.y)) +
      n * (g.cellWidth * ((1 : Int) : K) * (1 / (Q.y - P.y))) =
      (g.ymin + ((j + n + 1 : Nat) : K) * g.cellWidth - P.y) / (Q.y - P.y) := by push_cast; ring
  rw [ex, ey, div_lt_div_iff₀ dx dy, div_lt_div_iff₀ dy dx]
  simp only [GridTraits.cellCorner2, area2, addU32_of_lt hi, addU32_of_lt hj]
  constructor <;> constructor <;> intro h <;> linarith

/-- The orientation of the corner when the segment goes down. -/
theorem corner_down {g : GridTraits K} {P Q : P2 K} {i j m n : Nat} (dx : 0 < Q.x - P.x) (dy : Q.y - P.y < 0)
    (hi : i + m + 1 < 2 ^ 32) (hj : n ≤ j) :
    (cornerOrientation Cmp.direct g P Q false (i + m) (j - n) = .left ↔
      (g.xmin + ((addU32 i 1 : Nat) : K) * g.cellWidth - P.x) * (1 / (Q.x - P.x)) +
        m * (g.cellWidth * ((1 : Int) : K) * (1 / (Q.x - P.x))) <
      (g.ymin + (j : K) * g.cellWidth - P.y) * (1 / (Q.y - P.y)) +
        n * (g.cellWidth * ((-1 : Int) : K) * (1 / (Q.y - P.y)))) ∧
    (cornerOrientation Cmp.direct g P Q false (i + m) (j - n) = .right ↔
      (g.ymin + (j : K) * g.cellWidth - P.y) * (1 / (Q.y - P.y)) +
        n * (g.cellWidth * ((-1 : Int) : K) * (1 / (Q.y - P.y))) <
      (g.xmin + ((addU32 i 1 : Nat) : K) * g.cellWidth - P.x) * (1 / (Q.x - P.x)) +
        m * (g.cellWidth * ((1 : Int) : K) * (1 / (Q.x - P.x)))) := by
  obtain ⟨o1, o2, -⟩ := orientation_sign P Q (g.cellCorner1 (i + m) (j - n))
  have f1 : ∀ o : Orient, o.opposite = .left ↔ o = .right := by intro o; cases o <;> simp [Orient.opposite]
  have f2 : ∀ o : Orient, o.opposite = .right ↔ o = .left := by intro o; cases o <;> simp [Orient.opposite]
  simp only [cornerOrientation, Bool.false_eq_true, if_false, f1, f2]
  rw [o1, o2, addU32_of_lt (by omega)]
  have ex : (g.xmin + ((i + 1 : Nat) : K) * g.cellWidth - P.x) * (1 / (Q.x - P.x)) +
      m * (g.cellWidth * ((1 : Int) : K) * (1 / (Q.x - P.x))) =
      (g.xmin + ((i + m + 1 : Nat) : K) * g.cellWidth - P.x) / (Q.x - P.x) := by push_cast; ring
  have ey : (g.ymin + (j : K) * g.cellWidth - P.y) * (1 / (Q.y - P.y)) +
      n * (g.cellWidth * ((-1 : Int) : K) * (1 / (Q.y - P.y))) =
      (P.y - (g.ymin + ((j - n : Nat) : K) * g.cellWidth)) / (P.y - Q.y) := by
    rw [Nat.cast_sub hj, ← neg_sub P.y Q.y, ← neg_sub (P.y : K) (g.ymin + _)]
    rw [show g.ymin + ((j : K) - n) * g.cellWidth = g.ymin + j * g.cellWidth - n * g.cellWidth by ring]
    push_cast
    rw [one_div, inv_neg]
    ring
  have dy' : 0 < P.y - Q.y := by linarith
  rw [ex, ey, div_lt_div_iff₀ dx dy', div_lt_div_iff₀ dy' dx]
  simp only [GridTraits.cellCorner1, area2, addU32_of_lt hi]
  constructor <;> constructor <;> intro h <;> linarith

end Geometrix
