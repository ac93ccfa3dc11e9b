import Verif.Lemmas.OrientationTraversal2

/-!
# Helpers for the traversal guided by orientations: the three cases
-/

set_option linter.unusedSectionVars false

namespace Geometrix

open Spec

variable {K : Type*} [Field K] [LinearOrder K] [IsStrictOrderedRing K] [FloorSemiring K]

theorem isChain_range' (s n : Nat) : (List.range' s n).IsChain (fun u v : Nat => |(u : Int) - v| = 1) := by
  induction n generalizing s with
  | zero => simp
  | succ n ih =>
    cases n with
    | zero => simp
    | succ n =>
      rw [List.range'_succ, List.range'_succ, List.isChain_cons_cons]
      refine ⟨by push_cast; simp, ?_⟩
      have := ih (s + 1)
      rwa [List.range'_succ] at this

/-- The cells of a strip, upwards or to the right. -/
theorem guidedPath_vertical {g : GridTraits K} {P Q : P2 K} {a b : K} (hab : a ≤ b) (hw : 0 < g.cellWidth)
    {i j jEnd : Nat} (h : j ≤ jEnd)
    (ax : InCell g.xmin g.cellWidth i (P.x + a * (Q.x - P.x))) (bx : InCell g.xmin g.cellWidth i (P.x + b * (Q.x - P.x)))
    (ay : InCell g.ymin g.cellWidth j (P.y + a * (Q.y - P.y)))
    (bY : InCell g.ymin g.cellWidth jEnd (P.y + b * (Q.y - P.y))) :
    GuidedPath g P Q a b i j i jEnd ((i, j) :: (List.range' (j + 1) (jEnd - j)).map fun v => (i, v)) := by
  have e : ((i, j) :: (List.range' (j + 1) (jEnd - j)).map fun v => (i, v)) =
      (List.range' j (jEnd - j + 1)).map fun v => (i, v) := by rw [List.range'_succ]; rfl
  refine ⟨rfl, ?_, ?_, ?_, ?_, ?_⟩
  · rw [e, List.getLast?_map, List.getLast?_range']
    simp
    omega
  · rw [e, List.isChain_map]
    exact (isChain_range' _ _).imp fun u v h => touching_up h
  · rw [e]
    exact List.Nodup.map (fun u v h => by simpa using h) List.nodup_range'
  · intro c hc
    rw [e] at hc
    obtain ⟨v, hv, rfl⟩ := List.mem_map.mp hc
    rw [List.mem_range'_1] at hv
    obtain ⟨t, t1, t2, t3, t4⟩ := strip_meets hw hab ay bY (v := v) (Or.inl ⟨by omega, by omega⟩)
    have := slab_convex t1 t2 ax bx
    exact ⟨t, t1, t2, this.1, this.2, t3, t4⟩
  · intro c t ta tb ⟨o1, o2, o3, o4⟩
    rw [along_x] at o1 o2
    rw [along_y] at o3 o4
    have h1 := cell_between_along hw ax bx o1 o2 ta tb
    have h2 := cell_between_along hw ay bY o3 o4 ta tb
    rw [e, List.mem_map]
    exact ⟨c.2, by rw [List.mem_range'_1]; omega, Prod.ext (by omega) rfl⟩

theorem guidedPath_horizontal {g : GridTraits K} {P Q : P2 K} {a b : K} (hab : a ≤ b) (hw : 0 < g.cellWidth)
    {i j iEnd : Nat} (h : i ≤ iEnd)
    (ax : InCell g.xmin g.cellWidth i (P.x + a * (Q.x - P.x)))
    (bx : InCell g.xmin g.cellWidth iEnd (P.x + b * (Q.x - P.x)))
    (ay : InCell g.ymin g.cellWidth j (P.y + a * (Q.y - P.y)))
    (bY : InCell g.ymin g.cellWidth j (P.y + b * (Q.y - P.y))) :
    GuidedPath g P Q a b i j iEnd j ((i, j) :: (List.range' (i + 1) (iEnd - i)).map fun v => (v, j)) := by
  have e : ((i, j) :: (List.range' (i + 1) (iEnd - i)).map fun v => (v, j)) =
      (List.range' i (iEnd - i + 1)).map fun v => (v, j) := by rw [List.range'_succ]; rfl
  refine ⟨rfl, ?_, ?_, ?_, ?_, ?_⟩
  · rw [e, List.getLast?_map, List.getLast?_range']
    simp
    omega
  · rw [e, List.isChain_map]
    exact (isChain_range' _ _).imp fun u v h => touching_right h
  · rw [e]
    exact List.Nodup.map (fun u v h => by simpa using h) List.nodup_range'
  · intro c hc
    rw [e] at hc
    obtain ⟨v, hv, rfl⟩ := List.mem_map.mp hc
    rw [List.mem_range'_1] at hv
    obtain ⟨t, t1, t2, t3, t4⟩ := strip_meets hw hab ax bx (v := v) (Or.inl ⟨by omega, by omega⟩)
    have := slab_convex t1 t2 ay bY
    exact ⟨t, t1, t2, t3, t4, this.1, this.2⟩
  · intro c t ta tb ⟨o1, o2, o3, o4⟩
    rw [along_x] at o1 o2
    rw [along_y] at o3 o4
    have h1 := cell_between_along hw ax bx o1 o2 ta tb
    have h2 := cell_between_along hw ay bY o3 o4 ta tb
    rw [e, List.mem_map]
    exact ⟨c.1, by rw [List.mem_range'_1]; omega, Prod.ext rfl (by omega)⟩

theorem floor_of_cell {x0 w x : K} {i n : Nat} (hw : 0 < w) (h : InCell x0 w i x) (hi : i < n) (hn : n < 2 ^ 32) :
    0 ≤ (x - x0) * (1 / w) ∧ (x - x0) * (1 / w) < 2 ^ 32 ∧ ⌊(x - x0) * (1 / w)⌋₊ = i := by
  have hx : x0 ≤ x := by
    have : 0 ≤ (i : K) * w := mul_nonneg (Nat.cast_nonneg _) hw.le
    linarith [h.1]
  have h0 : 0 ≤ (x - x0) * (1 / w) := mul_nonneg (by linarith) (by positivity)
  have hf := (floor_inCell hw hx i).2 h
  refine ⟨h0, ?_, hf⟩
  have := Nat.lt_floor_add_one ((x - x0) * (1 / w))
  rw [hf] at this
  refine lt_trans this ?_
  have h2 : i + 1 < 2 ^ 32 := by omega
  exact_mod_cast h2

/-- The traversal between the times `a` and `b`, except downwards in one column. -/
theorem orientedClipped_spec {g : GridTraits K} {P Q : P2 K} {a b : K}
    (hw : 0 < g.cellWidth) (hdiv : g.cellWidthDivisor = 1 / g.cellWidth) (hab : a ≤ b) (hPQ : P.x ≤ Q.x)
    (hgx : g.width < 2 ^ 32) (hgy : g.height < 2 ^ 32) {i j iEnd jEnd : Nat}
    (ax : InCell g.xmin g.cellWidth i (along P Q a).x) (ay : InCell g.ymin g.cellWidth j (along P Q a).y)
    (bx : InCell g.xmin g.cellWidth iEnd (along P Q b).x) (bY : InCell g.ymin g.cellWidth jEnd (along P Q b).y)
    (li : i < g.width) (lj : j < g.height) (lie : iEnd < g.width) (lje : jEnd < g.height)
    (hcol : ¬ (i = iEnd ∧ jEnd < j)) (fuel : Nat) (hf : g.width + g.height < fuel) :
    ∃ cells, orientedClipped Cmp.direct fuel g P Q (along P Q a) (along P Q b) = .ok cells ∧
      GuidedPath g P Q a b i j iEnd jEnd cells := by
  obtain ⟨x1, x2, x3⟩ := floor_of_cell hw ax li hgx
  obtain ⟨y1, y2, y3⟩ := floor_of_cell hw ay lj hgy
  obtain ⟨u1, u2, u3⟩ := floor_of_cell hw bx lie hgx
  obtain ⟨v1, v2, v3⟩ := floor_of_cell hw bY lje hgy
  unfold orientedClipped
  simp only [GridTraits.scaledX, GridTraits.scaledY, hdiv, toU32_eq x1 x2, toU32_eq y1 y2, toU32_eq u1 u2,
    toU32_eq v1 v2, x3, y3, u3, v3]
  have hiLe : i ≤ iEnd := by
    rw [← x3, ← u3]
    refine Nat.floor_mono (mul_le_mul_of_nonneg_right ?_ (by positivity))
    rw [along_x, along_x]
    have := mul_le_mul_of_nonneg_right hab (by linarith : 0 ≤ Q.x - P.x)
    linarith
  have ax' := ax
  have ay' := ay
  have bx' := bx
  have bY' := bY
  rw [along_x] at ax' bx'
  rw [along_y] at ay' bY'
  by_cases hi : i = iEnd
  · subst hi
    rw [if_pos rfl]
    have hj' : j ≤ jEnd := by
      by_contra h
      exact hcol ⟨rfl, by omega⟩
    by_cases hj : j = jEnd
    · subst hj
      rw [if_pos rfl]
      have := guidedPath_vertical hab hw (le_refl j) ax' bx' ay' bY'
      simp only [Nat.sub_self, List.range'_zero, List.map_nil] at this
      exact ⟨_, rfl, this⟩
    · rw [if_neg hj, orientedStrip_up fuel j jEnd hj' (by omega) (by omega)]
      exact ⟨_, rfl, guidedPath_vertical hab hw hj' ax' bx' ay' bY'⟩
  · rw [if_neg hi]
    by_cases hj : j = jEnd
    · subst hj
      rw [if_pos rfl, orientedStrip_up fuel i iEnd hiLe (by omega) (by omega)]
      exact ⟨_, rfl, guidedPath_horizontal hab hw hiLe ax' bx' ay' bY'⟩
    · rw [if_neg hj]
      have hx : i < iEnd := by omega
      have dx := cell_lt_pos hw hab ax' bx' hx
      have VX := voxAxis_up (out := g.width) hw dx hx lie (by omega) ax' bx'
      have X := posAxis_up x1 u2 hx x3 u3
      set X2 := ((along P Q b).x - g.xmin) * (1 / g.cellWidth) with hX2
      set X1 := ((along P Q a).x - g.xmin) * (1 / g.cellWidth) with hX1
      set Y2 := ((along P Q b).y - g.ymin) * (1 / g.cellWidth) with hY2
      set Y1 := ((along P Q a).y - g.ymin) * (1 / g.cellWidth) with hY1
      have hxx : X1 ≤ X2 := by
        by_contra h
        push Not at h
        have := Nat.floor_mono h.le
        omega
      have p0 : min (X1 + ((0 : Nat) : K)) X2 = X1 := by simp [hxx]
      rcases lt_or_gt_of_ne hj with hy | hy
      · have dy := cell_lt_pos hw hab ay' bY' hy
        have VY := voxAxis_up (out := g.height) hw dy hy lje (by omega) ay' bY'
        have Y := posAxis_up y1 v2 hy y3 v3
        have hyy : Y1 ≤ Y2 := by
          by_contra h
          push Not at h
          have := Nat.floor_mono h.le
          omega
        have q0 : min (Y1 + ((0 : Nat) : K)) Y2 = Y1 := by simp [hyy]
        have hup : Cmp.direct.ge Y2 Y1 = true := by simp [Cmp.direct, hyy]
        rw [hup]
        obtain ⟨rest, r1, r2⟩ := guidedPath_of_axes hab (up := true) VX VY X
          (by simpa only [advanceY, if_true] using Y)
          (fun n => min_le_right _ _) (fun n => by simp)
          (fun m hm n hn => (corner_up dx dy (by omega) (by omega)).1)
          (fun m hm n hn => (corner_up dx dy (by omega) (by omega)).2)
          (up_after_strict dx hx (by omega) bx'.2)
          (fun m _ n _ h => by omega) (fun m _ n _ h => by omega)
          (fun c t ta tb h1 h2 => openSlab_up hw dx hx (by omega) ax' bx' h1 h2 ta tb)
          (fun c t ta tb h1 h2 => openSlab_up hw dy hy (by omega) ay' bY' h1 h2 ta tb) fuel (by omega)
        rw [p0, q0] at r1
        simp only [add_zero] at r1 r2
        rw [r1]
        exact ⟨_, rfl, r2⟩
      · have dy := cell_gt_neg hw hab ay' bY' hy
        have VY := voxAxis_down hw dy hy (by omega) ay' bY'
        have Y := posAxis_down v1 y2 hy y3 v3
        have hyy : Y2 < Y1 := by
          by_contra h
          push Not at h
          have := Nat.floor_mono h
          omega
        have q0 : max (Y1 - ((0 : Nat) : K)) Y2 = Y1 := by simp [hyy.le]
        have hup : Cmp.direct.ge Y2 Y1 = false := by simp [Cmp.direct, hyy]
        rw [hup]
        obtain ⟨rest, r1, r2⟩ := guidedPath_of_axes hab (up := false) VX VY X
          (by simpa only [advanceY, Bool.false_eq_true, if_false] using Y)
          (fun n => min_le_right _ _) (fun n => by simp)
          (fun m hm n hn => (corner_down dx dy (by omega) (by omega)).1)
          (fun m hm n hn => (corner_down dx dy (by omega) (by omega)).2)
          (up_after_strict dx hx (by omega) bx'.2)
          (fun m _ n _ h => by omega) (fun m hm n hn h => by omega)
          (fun c t ta tb h1 h2 => openSlab_up hw dx hx (by omega) ax' bx' h1 h2 ta tb)
          (fun c t ta tb h1 h2 => openSlab_down hw dy hy ay' bY' h1 h2 ta tb) fuel (by omega)
        rw [p0, q0] at r1
        simp only [add_zero, Nat.sub_zero] at r1 r2
        rw [r1]
        exact ⟨_, rfl, r2⟩

theorem lexCompare_direct (P Q : P2 K) :
    lexCompare Cmp.direct P Q = true ↔ P.x < Q.x ∨ (P.x = Q.x ∧ P.y < Q.y) := by
  unfold lexCompare
  simp only [Cmp.direct, decide_eq_true_eq]
  rcases lt_trichotomy P.x Q.x with h | h | h
  · simp [h]
  · rcases lt_trichotomy P.y Q.y with h' | h' | h' <;> simp [h, h', h'.le]
  · simp [h.not_gt, h.ne']

/-- The ends in lexicographical order. -/
theorem orientationTraversal_order {P Q : P2 K} (h : P.x < Q.x ∨ (P.x = Q.x ∧ P.y ≤ Q.y)) {s : Seg K}
    (hs : s = ⟨P, Q⟩ ∨ s = ⟨Q, P⟩) :
    (if !lexCompare Cmp.direct s.s s.e then (s.e, s.s) else (s.s, s.e)) = (P, Q) := by
  rcases hs with rfl | rfl
  · by_cases hl : lexCompare Cmp.direct P Q = true
    · simp [hl]
    · have : P = Q := by
        rw [lexCompare_direct] at hl
        push Not at hl
        rcases h with h | ⟨h1, h2⟩
        · exact absurd h (not_lt.2 hl.1)
        · exact P2.ext h1 (le_antisymm h2 (hl.2 h1))
      simp [this]
  · have : ¬ lexCompare Cmp.direct Q P = true := by
      rw [lexCompare_direct]
      rintro (h' | ⟨h1, h2⟩)
      · rcases h with h | ⟨h, -⟩
        · exact lt_asymm h h'
        · exact h'.ne h.symm
      · rcases h with h | ⟨-, h⟩
        · exact h.ne h1.symm
        · exact not_lt.2 h h2
    simp [this]

theorem orientationTraversal_spec {xmin xmax ymin ymax w : K} {g : GridTraits K}
    (h : makeGrid xmin xmax ymin ymax w = .ok g) (hx : xmax - xmin < (2 ^ 32 - 1) * w)
    (hy : ymax - ymin < (2 ^ 32 - 1) * w) {P Q : P2 K} (hPQ : P.x < Q.x ∨ (P.x = Q.x ∧ P.y ≤ Q.y)) {s : Seg K}
    (hs : s = ⟨P, Q⟩ ∨ s = ⟨Q, P⟩) (fuel : Nat) (hf : g.width + g.height < fuel) :
    (orientationTraversal Cmp.direct fuel g s = .ok [] ∧
      ∀ u, 0 ≤ u → u ≤ 1 → ¬ InBox ⟨⟨xmin, ymin⟩, ⟨xmax, ymax⟩⟩ (along P Q u)) ∨
    ∃ a b i j iEnd jEnd, 0 ≤ a ∧ a ≤ b ∧ b ≤ 1 ∧
      InBox ⟨⟨xmin, ymin⟩, ⟨xmax, ymax⟩⟩ (along P Q a) ∧
      InBox ⟨⟨xmin, ymin⟩, ⟨xmax, ymax⟩⟩ (along P Q b) ∧
      (∀ u, 0 ≤ u → u ≤ 1 → InBox ⟨⟨xmin, ymin⟩, ⟨xmax, ymax⟩⟩ (along P Q u) → a ≤ u ∧ u ≤ b) ∧
      InCell xmin w i (along P Q a).x ∧ InCell ymin w j (along P Q a).y ∧
      InCell xmin w iEnd (along P Q b).x ∧ InCell ymin w jEnd (along P Q b).y ∧
      (¬ (i = iEnd ∧ jEnd < j) → ∃ cells, orientationTraversal Cmp.direct fuel g s = .ok cells ∧
        GuidedPath g P Q a b i j iEnd jEnd cells) := by
  obtain ⟨h1, h2, h3, h4, h5, rfl⟩ := makeGrid_ok h
  rw [← div_lt_iff₀ h1, ← mul_one_div] at hx hy
  have fx := floor_lt_of (mul_nonneg (by linarith) (by positivity)) hx
  have fy := floor_lt_of (mul_nonneg (by linarith) (by positivity)) hy
  have ex := addU32_of_lt fx
  have ey := addU32_of_lt fy
  have hvb : ValidBox (⟨⟨xmin, ymin⟩, ⟨xmax, ymax⟩⟩ : Box K) := ⟨h2.le, h3.le⟩
  rw [ex, ey] at hf ⊢
  have hle : P.x ≤ Q.x := by
    rcases hPQ with h | ⟨h, -⟩
    · exact h.le
    · exact h.le
  have cell : ∀ {x0 x1 x : K}, x0 ≤ x → x ≤ x1 → (x1 - x0) * (1 / w) < 2 ^ 32 →
      ∃ i, InCell x0 w i x ∧ i < ⌊(x1 - x0) * (1 / w)⌋₊ + 1 := by
    intro x0 x1 x a0 a1 hlt
    obtain ⟨-, e2⟩ := index_spec h1 a0 a1 hlt
    exact ⟨_, (floor_inCell h1 a0 _).mp rfl, by omega⟩
  have clip : ∀ a b, a ≤ b → InBox ⟨⟨xmin, ymin⟩, ⟨xmax, ymax⟩⟩ (along P Q a) →
      InBox ⟨⟨xmin, ymin⟩, ⟨xmax, ymax⟩⟩ (along P Q b) →
      ∃ i j iEnd jEnd, InCell xmin w i (along P Q a).x ∧ InCell ymin w j (along P Q a).y ∧
      InCell xmin w iEnd (along P Q b).x ∧ InCell ymin w jEnd (along P Q b).y ∧
      (¬ (i = iEnd ∧ jEnd < j) → ∃ cells, orientedClipped Cmp.direct fuel ⟨xmin, xmax, ymin, ymax, w, 1 / w,
        ⌊(xmax - xmin) * (1 / w)⌋₊ + 1, ⌊(ymax - ymin) * (1 / w)⌋₊ + 1⟩ P Q (along P Q a) (along P Q b) = .ok cells ∧
        GuidedPath ⟨xmin, xmax, ymin, ymax, w, 1 / w,
        ⌊(xmax - xmin) * (1 / w)⌋₊ + 1, ⌊(ymax - ymin) * (1 / w)⌋₊ + 1⟩ P Q a b i j iEnd jEnd cells) := by
    intro a b hab ⟨a1, a2, a3, a4⟩ ⟨b1, b2, b3, b4⟩
    obtain ⟨i, c1, l1⟩ := cell a1 a2 h4
    obtain ⟨j, c2, l2⟩ := cell a3 a4 h5
    obtain ⟨iEnd, c3, l3⟩ := cell b1 b2 h4
    obtain ⟨jEnd, c4, l4⟩ := cell b3 b4 h5
    exact ⟨i, j, iEnd, jEnd, c1, c2, c3, c4, fun hc => orientedClipped_spec
      (g := ⟨xmin, xmax, ymin, ymax, w, 1 / w, ⌊(xmax - xmin) * (1 / w)⌋₊ + 1, ⌊(ymax - ymin) * (1 / w)⌋₊ + 1⟩)
      h1 rfl hab hle fx fy c1 c2 c3 c4 l1 l2 l3 l4
      hc fuel hf⟩
  unfold orientationTraversal
  rw [orientationTraversal_order hPQ hs]
  simp only
  split_ifs with hc
  · obtain ⟨acc, a, b, s0, st, t1, e, ha, hn⟩ := cohenSutherland_spec hvb P Q
    rw [e]
    cases acc with
    | false => exact Or.inl ⟨rfl, hn rfl⟩
    | true =>
      obtain ⟨k1, k2, k3⟩ := ha rfl
      obtain ⟨i, j, iEnd, jEnd, c1, c2, c3, c4, c5⟩ := clip a b st k1 k2
      exact Or.inr ⟨a, b, i, j, iEnd, jEnd, s0, st, t1, k1, k2, k3, c1, c2, c3, c4, c5⟩
  · push Not at hc
    obtain ⟨c1, c2, c3, c4, c5, c6, c7, c8⟩ := hc
    have e0 : along P Q 0 = P := by ext <;> simp [along_x, along_y]
    have e1 : along P Q 1 = Q := by ext <;> simp [along_x, along_y]
    have k1 : InBox ⟨⟨xmin, ymin⟩, ⟨xmax, ymax⟩⟩ (along P Q 0) := by
      rw [e0]; exact ⟨c1, c2, c3, c4⟩
    have k2 : InBox ⟨⟨xmin, ymin⟩, ⟨xmax, ymax⟩⟩ (along P Q 1) := by
      rw [e1]; exact ⟨c5, c6, c7, c8⟩
    obtain ⟨i, j, iEnd, jEnd, d1, d2, d3, d4, d5⟩ := clip 0 1 zero_le_one k1 k2
    refine Or.inr ⟨0, 1, i, j, iEnd, jEnd, le_rfl, zero_le_one, le_rfl, k1, k2, fun u u0 u1 _ => ⟨u0, u1⟩,
      d1, d2, d3, d4, fun hc => ?_⟩
    obtain ⟨cells, f1, f2⟩ := d5 hc
    rw [e0, e1] at f1
    exact ⟨cells, f1, f2⟩

end Geometrix
