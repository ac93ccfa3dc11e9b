import Verif.Spec.Composite
import Mathlib.Tactic.Linarith
import Mathlib.Data.List.Basic

/-!
# Lemmas on matrices composed of blocks
-/

namespace Geometrix

open Spec

/-- The blocks of `l`, all in `ps` and with the row `r`, cover the columns from `a` to `b` from left to right. -/
def Line (ps : List Placed) (r : Nat) : List Placed → Nat → Nat → Prop
  | [], a, b => a = b
  | p :: l, a, b => p ∈ ps ∧ HasRow p r ∧ p.col = a ∧ Line ps r l (a + p.width) b

theorem Line.append {ps : List Placed} {r : Nat} : ∀ {l l' : List Placed} {a b c : Nat}, Line ps r l a b → Line ps r l' b c →
    Line ps r (l ++ l') a c
  | [], _, _, _, _, h, h' => by cases h; exact h'
  | _ :: _, _, _, _, _, h, h' => ⟨h.1, h.2.1, h.2.2.1, h.2.2.2.append h'⟩

theorem Line.split {ps : List Placed} {r : Nat} : ∀ {l l' : List Placed} {a c : Nat}, Line ps r (l ++ l') a c →
    ∃ b, Line ps r l a b ∧ Line ps r l' b c
  | [], _, a, _, h => ⟨a, rfl, h⟩
  | _ :: _, _, _, _, h => by
    obtain ⟨b, h1, h2⟩ := Line.split h.2.2.2
    exact ⟨b, ⟨h.1, h.2.1, h.2.2.1, h1⟩, h2⟩

theorem Line.mem {ps : List Placed} {r : Nat} : ∀ {l : List Placed} {a b : Nat}, Line ps r l a b → ∀ p ∈ l,
    p ∈ ps ∧ HasRow p r ∧ a ≤ p.col ∧ p.col + p.width ≤ b
  | [], _, _, _, p, hp => by simp at hp
  | q :: l, a, b, h, p, hp => by
    have hle : ∀ {l : List Placed} {a b : Nat}, Line ps r l a b → a ≤ b := by
      intro l
      induction l with
      | nil => intro a b h; exact le_of_eq h
      | cons q l ih => intro a b h; have := ih h.2.2.2; omega
    rcases List.mem_cons.1 hp with rfl | hp
    · exact ⟨h.1, h.2.1, by rw [h.2.2.1], by have := hle h.2.2.2; rw [h.2.2.1]; exact this⟩
    · obtain ⟨h1, h2, h3, h4⟩ := h.2.2.2.mem p hp
      exact ⟨h1, h2, by omega, h4⟩

theorem Line.at' {ps : List Placed} {r : Nat} : ∀ {l : List Placed} {a b : Nat}, Line ps r l a b → ∀ j, a ≤ j → j < b →
    ∃ p ∈ l, CoversPlace p r j
  | [], _, _, h, j, h1, h2 => by cases h; omega
  | q :: l, a, b, h, j, h1, h2 => by
    by_cases hj : j < a + q.width
    · exact ⟨q, by simp, h.2.1, by rw [h.2.2.1]; exact h1, by rw [h.2.2.1]; exact hj⟩
    · obtain ⟨p, hp, hc⟩ := h.2.2.2.at' j (by omega) h2
      exact ⟨p, by simp [hp], hc⟩

theorem Line.mono {ps : List Placed} {r r' : Nat} : ∀ {l : List Placed} {a b : Nat}, Line ps r l a b →
    (∀ p ∈ l, HasRow p r') → Line ps r' l a b
  | [], _, _, h, _ => h
  | _ :: _, _, _, h, hr => ⟨h.1, hr _ (by simp), h.2.2.1, h.2.2.2.mono fun p hp => hr p (by simp [hp])⟩

/-- The corner of the block is read before the place. -/
def CornerBefore (p : Placed) (i j : Nat) : Prop := p.row < i ∨ (p.row = i ∧ p.col < j)

/-- What holds of every state while the blocks `ps` are laid out. -/
structure LayoutInv (rows columns : Nat) (ps : List Placed) (s : LayoutState) : Prop where
  row_le : s.row ≤ rows
  col_lt : s.col < columns
  seq : ∃ rest, s.result ++ rest = ps ∧ s.sequence = rest.map (fun p => (p.height, p.width)) ∧
    ∀ p ∈ rest, ¬ CornerBefore p s.row s.col
  placed : ∀ p ∈ s.result, CornerBefore p s.row s.col
  index : s.index = s.result.length
  current : Line ps s.row s.current 0 s.col
  next_gt : s.row < s.nextRow
  next_le : ∀ p ∈ s.current, s.nextRow ≤ p.row + p.height
  first : s.row = 0 → s.lastRow = []
  last : 0 < s.row → Line ps (s.row - 1) s.lastRow 0 columns ∧ ∃ d e t, s.lastRow = d ++ e :: t ∧ s.rowIter = e :: t ∧
    e.col ≤ s.col ∧ (s.col < e.col + e.width ∨ ∀ p ∈ ps, p.row < s.row → HasRow p s.row → p.col < s.col)

theorem intersects_iff {p : Placed} {i j : Nat} (h : 1 ≤ p.height ∧ 1 ≤ p.width) :
    p.intersects i j = true ↔ CoversPlace p i j := by
  simp only [Placed.intersects, CoversPlace, HasRow, Bool.and_eq_true, decide_eq_true_eq]
  omega

section
variable {rows columns : Nat} {sizes : List (Nat × Nat)} {ps : List Placed} {s : LayoutState}

/-- The block at the current place starts in the current column. -/
theorem block_here (hL : IsLayout rows columns sizes ps) (hI : LayoutInv rows columns ps s) (hr : s.row < rows) :
    ∃ b ∈ ps, CoversPlace b s.row s.col ∧ b.col = s.col := by
  obtain ⟨b, hb, hc⟩ := hL.covered s.row hr s.col hI.col_lt
  refine ⟨b, hb, hc, ?_⟩
  by_contra hne
  have h1 : b.col < s.col := by have := hc.2.1; omega
  obtain ⟨p, hp, hpc⟩ := hI.current.at' b.col (Nat.zero_le _) h1
  have hpm := hI.current.mem p hp
  have hbc : CoversPlace b s.row b.col := ⟨hc.1, le_refl _, by have := (hL.positive b hb).2; omega⟩
  have hpb : p = b := hL.once p hpm.1 b hb _ _ hpc hbc
  subst hpb
  have := hc.2.2
  have := hpm.2.2.2
  omega

/-- What follows when the block `b` at the current place ends the row. -/
theorem inv_row_end (hL : IsLayout rows columns sizes ps) (hI : LayoutInv rows columns ps s) (hr : s.row < rows)
    {b : Placed} (hb : b ∈ ps) (hc : CoversPlace b s.row s.col) (hcol : b.col = s.col) (hend : b.col + b.width = columns)
    {s' : LayoutState} (h1 : s'.row = min s.nextRow (b.row + b.height)) (h2 : s'.col = 0)
    (h3 : s'.rowIter = s.current ++ [b]) (h4 : s'.current = []) (h5 : s'.lastRow = s.current ++ [b])
    (h6 : s'.nextRow = s'.row + 10) (h7 : s'.index = s'.result.length)
    (h8 : ∃ rest, s'.result ++ rest = ps ∧ s'.sequence = rest.map (fun p => (p.height, p.width)) ∧
      ∀ p ∈ rest, ¬ CornerBefore p s.row s.col ∧ p ≠ b)
    (h9 : ∀ p ∈ s'.result, CornerBefore p s.row s.col ∨ p = b) : LayoutInv rows columns ps s' := by
  have hline : Line ps s.row (s.current ++ [b]) 0 columns :=
    hI.current.append ⟨hb, hc.1, hcol, by rw [← hcol]; exact hend⟩
  have hrow : s.row < s'.row := by
    rw [h1]
    have := hI.next_gt
    have := hc.1.2
    omega
  have hbot : ∀ p ∈ s.current ++ [b], s'.row ≤ p.row + p.height := by
    intro p hp
    rw [h1]
    rcases List.mem_append.1 hp with hp | hp
    · exact le_trans (min_le_left _ _) (hI.next_le p hp)
    · rw [List.mem_singleton.1 hp]; exact min_le_right _ _
  have hline' : ∀ r, s.row ≤ r → r < s'.row → Line ps r (s.current ++ [b]) 0 columns := by
    intro r hr1 hr2
    refine hline.mono fun p hp => ?_
    have h11 := (hline.mem p hp).2.1.1
    have h10 := hbot p hp
    exact ⟨by omega, by omega⟩
  have hcpos : 0 < columns := lt_of_le_of_lt (Nat.zero_le _) hI.col_lt
  refine ⟨?_, by rw [h2]; exact hcpos, ?_, ?_, h7, by rw [h4, h2]; rfl, by rw [h6]; omega, by rw [h4]; simp, ?_, ?_⟩
  · have := hbot b (by simp)
    have := (hL.inside b hb).1
    omega
  · obtain ⟨rest, e1, e2, e3⟩ := h8
    refine ⟨rest, e1, e2, ?_⟩
    intro p hp hbef
    obtain ⟨e4, e5⟩ := e3 p hp
    have hpps : p ∈ ps := by rw [← e1]; simp [hp]
    have hprow : p.row < s'.row := by
      rcases hbef with h | ⟨_, h⟩
      · exact h
      · rw [h2] at h; omega
    have hge : s.row ≤ p.row := by
      by_contra hlt
      exact e4 (Or.inl (by omega))
    have hpos := hL.positive p hpps
    have hin := hL.inside p hpps
    have hpc : CoversPlace p p.row p.col := ⟨⟨le_refl _, by omega⟩, le_refl _, by omega⟩
    obtain ⟨x, hx, hxc⟩ := (hline' p.row hge hprow).at' p.col (Nat.zero_le _) (by omega)
    have hxm := hline.mem x hx
    have hxp : x = p := hL.once x hxm.1 p hpps _ _ hxc hpc
    subst hxp
    rcases List.mem_append.1 hx with hx | hx
    · have hxm' := hI.current.mem x hx
      have h11 := hxm'.2.1.1
      have h10 := hxm'.2.2.2
      exact e4 (Or.inr ⟨by omega, by omega⟩)
    · exact e5 (List.mem_singleton.1 hx)
  · intro p hp
    rcases h9 p hp with (h | ⟨h, h'⟩) | rfl
    · exact Or.inl (by omega)
    · exact Or.inl (by omega)
    · have := hc.1.1
      exact Or.inl (by omega)
  · intro h
    omega
  · intro _
    refine ⟨by rw [h5]; exact hline' _ (by omega) (by omega), ?_⟩
    rw [h5, h3, h2]
    cases hcur : s.current with
    | nil =>
      rw [hcur] at hline
      refine ⟨[], b, [], rfl, rfl, ?_, Or.inl ?_⟩
      · have := hline.2.2.1; omega
      · have := (hL.positive b hb).2; omega
    | cons c t =>
      rw [hcur] at hline
      refine ⟨[], c, t ++ [b], rfl, rfl, ?_, Or.inl ?_⟩
      · have := hline.2.2.1; omega
      · have := (hL.positive c hline.1).2; omega

/-- What follows when the block `b` at the current place does not end the row. -/
theorem inv_row_more (hL : IsLayout rows columns sizes ps) (hI : LayoutInv rows columns ps s)
    {b : Placed} (hb : b ∈ ps) (hc : CoversPlace b s.row s.col) (hcol : b.col = s.col) (hmore : b.col + b.width < columns)
    {s' : LayoutState} (h1 : s'.row = s.row) (h2 : s'.col = s.col + b.width)
    (h3 : s'.current = s.current ++ [b]) (h4 : s'.lastRow = s.lastRow)
    (h5 : s'.nextRow = min s.nextRow (b.row + b.height)) (h6 : s'.index = s'.result.length)
    (h7 : ∃ rest, s'.result ++ rest = ps ∧ s'.sequence = rest.map (fun p => (p.height, p.width)) ∧
      ∀ p ∈ rest, ¬ CornerBefore p s.row s.col ∧ p ≠ b)
    (h8 : 0 < s.row → ∃ d e t, s.lastRow = d ++ e :: t ∧ s'.rowIter = e :: t ∧ e.col ≤ s'.col ∧
      (s'.col < e.col + e.width ∨ ∀ p ∈ ps, p.row < s.row → HasRow p s.row → p.col < s'.col))
    (h9 : ∀ p ∈ s'.result, CornerBefore p s.row s.col ∨ p = b) : LayoutInv rows columns ps s' := by
  have hw := (hL.positive b hb).2
  refine ⟨by rw [h1]; exact hI.row_le, by omega, ?_, ?_, h6, ?_, ?_, ?_, ?_, ?_⟩
  · obtain ⟨rest, e1, e2, e3⟩ := h7
    refine ⟨rest, e1, e2, ?_⟩
    intro p hp hbef
    obtain ⟨e4, e5⟩ := e3 p hp
    have hpps : p ∈ ps := by rw [← e1]; simp [hp]
    rcases hbef with h | ⟨h, h'⟩
    · exact e4 (Or.inl (by omega))
    · have hge : s.col ≤ p.col := by
        by_contra hlt
        exact e4 (Or.inr ⟨by omega, by omega⟩)
      have hpos := hL.positive p hpps
      refine e5 (hL.once p hpps b hb s.row p.col ⟨⟨by omega, by omega⟩, le_refl _, by omega⟩ ⟨hc.1, by omega, by omega⟩)
  · intro p hp
    rcases h9 p hp with (h | ⟨h, h'⟩) | rfl
    · exact Or.inl (by omega)
    · exact Or.inr ⟨by omega, by omega⟩
    · have := hc.1.1
      by_cases h : p.row < s.row
      · exact Or.inl (by omega)
      · exact Or.inr ⟨by omega, by omega⟩
  · rw [h1, h3, h2]
    exact hI.current.append ⟨hb, hc.1, hcol, rfl⟩
  · have := hI.next_gt
    have := hc.1.2
    omega
  · intro p hp
    rw [h3] at hp
    rw [h5]
    rcases List.mem_append.1 hp with hp | hp
    · exact le_trans (min_le_left _ _) (hI.next_le p hp)
    · rw [List.mem_singleton.1 hp]; exact min_le_right _ _
  · intro h
    rw [h4]
    exact hI.first (by omega)
  · intro h
    have h0 : 0 < s.row := by omega
    obtain ⟨d, e, t, e1, e2, e3, e4⟩ := h8 h0
    refine ⟨by rw [h4, h1]; exact (hI.last h0).1, d, e, t, by rw [h4]; exact e1, e2, e3, ?_⟩
    rw [h1]
    exact e4

/-- If the block at the current place starts in the current row, it is the next one. -/
theorem next_block (hL : IsLayout rows columns sizes ps) (hI : LayoutInv rows columns ps s)
    {b : Placed} (hb : b ∈ ps) (hrow : b.row = s.row) (hcol : b.col = s.col) :
    ∃ rest, s.result ++ b :: rest = ps ∧ s.sequence = (b.height, b.width) :: rest.map (fun p => (p.height, p.width)) ∧
      b = ⟨s.row, s.col, b.height, b.width, s.index⟩ ∧ ∀ p ∈ rest, ¬ CornerBefore p s.row s.col ∧ p ≠ b := by
  obtain ⟨rest, e1, e2, e3⟩ := hI.seq
  have hbr : b ∈ rest := by
    rw [← e1] at hb
    rcases List.mem_append.1 hb with h | h
    · have := hI.placed b h
      rcases this with h | ⟨_, h⟩ <;> omega
    · exact h
  have hord : rest.Pairwise Before := by
    have := hL.order
    rw [← e1] at this
    exact (List.pairwise_append.1 this).2.1
  cases rest with
  | nil => simp at hbr
  | cons c rest =>
    have hcb' : c = b := by
      rcases List.mem_cons.1 hbr with h | h
      · exact h.symm
      · have h9 := (List.pairwise_cons.1 hord).1 b h
        exfalso
        refine e3 c (by simp) ?_
        rcases h9 with h | ⟨h, h'⟩
        · exact Or.inl (by omega)
        · exact Or.inr ⟨by omega, by omega⟩
    subst hcb'
    refine ⟨rest, e1, by rw [e2]; rfl, ?_, ?_⟩
    · have hidx : c.index = s.index := by
        have h9 := hL.indices
        rw [← e1] at h9
        have h10 : (List.map (fun p : Placed => p.index) (s.result ++ c :: rest))[s.result.length]? = some c.index := by
          simp
        rw [h9, List.getElem?_range] at h10
        · rw [hI.index]
          simpa using h10.symm
        · rw [← hL.sized, ← e1]
          simp
      cases c
      simp_all
    · intro p hp
      refine ⟨e3 p (by simp [hp]), ?_⟩
      rintro rfl
      have := (List.pairwise_cons.1 hord).1 p hp
      rcases this with h | ⟨_, h⟩ <;> omega

theorem last_ne (hI : LayoutInv rows columns ps s) (h : 0 < s.row) : ∃ c l, s.lastRow = c :: l := by
  obtain ⟨_, d, e, t, e1, _⟩ := hI.last h
  rw [e1]
  cases d with
  | nil => exact ⟨e, t, rfl⟩
  | cons c d => exact ⟨c, d ++ e :: t, rfl⟩

theorem row_lt (hL : IsLayout rows columns sizes ps) (hI : LayoutInv rows columns ps s)
    {h w : Nat} {rest : List (Nat × Nat)} (hseq : s.sequence = (h, w) :: rest) : s.row < rows := by
  obtain ⟨rest0, e1, e2, e3⟩ := hI.seq
  cases rest0 with
  | nil => rw [hseq] at e2; simp at e2
  | cons c rest0 =>
    have hc := e3 c (by simp)
    have hcps : c ∈ ps := by rw [← e1]; simp
    have := (hL.inside c hcps).1
    have := (hL.positive c hcps).1
    by_contra hge
    exact hc (Or.inl (by omega))

/-- One state is followed by the next. -/
theorem layout_step (hL : IsLayout rows columns sizes ps) (hF : FewEdges columns ps) (hI : LayoutInv rows columns ps s)
    {h w : Nat} {rest : List (Nat × Nat)} (hseq : s.sequence = (h, w) :: rest) :
    ∃ s', processState columns s h w rest = some s' ∧ LayoutInv rows columns ps s' ∧
      (s.row < s'.row ∨ (s.row = s'.row ∧ s.col < s'.col)) := by
  obtain ⟨rest0, e1, e2, e3⟩ := hI.seq
  have hr := row_lt hL hI hseq
  obtain ⟨b, hb, hc, hcol⟩ := block_here hL hI hr
  have hbp := hL.positive b hb
  have hbi := hL.inside b hb
  have hbrow := hc.1.1
  have hbbot := hc.1.2
  by_cases hnew : b.row = s.row
  · -- the block is new
    obtain ⟨rest', f1, f2, f3, f4⟩ := next_block hL hI hb hnew hcol
    rw [hseq] at f2
    obtain ⟨⟨rfl, rfl⟩, rfl⟩ : (h = b.height ∧ w = b.width) ∧ rest = rest'.map (fun p => (p.height, p.width)) := by
      simpa using f2
    have hres : ∀ p ∈ s.result ++ [b], CornerBefore p s.row s.col ∨ p = b := by
      intro p hp
      rcases List.mem_append.1 hp with hp | hp
      · exact Or.inl (hI.placed p hp)
      · exact Or.inr (List.mem_singleton.1 hp)
    have hps : (s.result ++ [b]) ++ rest' = ps := by rw [← f1]; simp
    by_cases h0 : s.row = 0
    · have hlast := hI.first h0
      have f3' : (⟨0, s.col, b.height, b.width, s.index⟩ : Placed) = b := by rw [← h0]; exact f3.symm
      have hproc : processState columns s b.height b.width (rest'.map fun p => (p.height, p.width)) =
          some (addFirstItem columns s b.height b.width (rest'.map fun p => (p.height, p.width))) := by
        simp only [processState, hlast]
      refine ⟨_, hproc, ?_⟩
      unfold addFirstItem
      rw [f3']
      by_cases hend : s.col + b.width = columns
      · rw [if_pos hend]
        refine ⟨inv_row_end hL hI hr hb hc hcol (by omega) ?_ rfl rfl rfl rfl rfl ?_ ⟨rest', hps, rfl, f4⟩ hres, ?_⟩
        · simp only []
          rw [hnew, h0, Nat.zero_add]
        · simp [hI.index]
        · left
          have := hI.next_gt
          simp only []
          omega
      · rw [if_neg hend]
        refine ⟨inv_row_more hL hI hb hc hcol (by omega) h0.symm rfl rfl hlast.symm ?_ ?_ ⟨rest', hps, rfl, f4⟩ ?_ hres, ?_⟩
        · simp only []
          rw [hnew, h0, Nat.zero_add]
        · simp [hI.index]
        · intro h; omega
        · right
          simp only []
          omega
    · have hpos : 0 < s.row := Nat.pos_of_ne_zero h0
      obtain ⟨hline, d, e, t, g1, g2, g3, g4⟩ := hI.last hpos
      obtain ⟨c, l, hlast⟩ := last_ne hI hpos
      have hline2 := hline
      rw [g1] at hline2
      obtain ⟨a, hline3, hline4⟩ := hline2.split
      have heps := hline4.1
      have hnot : e.intersects s.row s.col = false := by
        rw [Bool.eq_false_iff]
        intro hint
        have hint' := (intersects_iff (hL.positive e heps)).1 hint
        have heb : e = b := hL.once e heps b hb _ _ hint' hc
        have := hline4.2.1.1
        rw [heb] at this
        omega
      have hproc : processState columns s b.height b.width (rest'.map fun p => (p.height, p.width)) =
          some (addNewItem columns s e b.height b.width (rest'.map fun p => (p.height, p.width))) := by
        simp only [processState, hlast, g2, hnot, Bool.not_false, if_true]
      refine ⟨_, hproc, ?_⟩
      unfold addNewItem
      rw [← f3]
      by_cases hend : s.col + b.width = columns
      · rw [if_pos hend]
        refine ⟨inv_row_end hL hI hr hb hc hcol (by omega) ?_ rfl rfl rfl rfl rfl ?_ ⟨rest', hps, rfl, f4⟩ hres, ?_⟩
        · simp only []
          rw [hnew]
        · simp [hI.index]
        · left
          have := hI.next_gt
          simp only []
          omega
      · rw [if_neg hend]
        refine ⟨inv_row_more hL hI hb hc hcol (by omega) rfl rfl rfl rfl ?_ ?_ ⟨rest', hps, rfl, f4⟩ ?_ hres, ?_⟩
        · simp only []
          rw [hnew]
        · simp [hI.index]
        · intro _
          simp only [g2, List.tail_cons]
          have hew := hL.positive e heps
          by_cases hci : s.col + b.width < e.col + e.width
          · have : e.columnIntersects (s.col + b.width) = true := by
              simp only [Placed.columnIntersects, Bool.and_eq_true, decide_eq_true_eq]
              omega
            rw [if_pos this]
            exact ⟨d, e, t, g1, rfl, by omega, Or.inl hci⟩
          · have : e.columnIntersects (s.col + b.width) = false := by
              simp only [Placed.columnIntersects, Bool.and_eq_false_iff, decide_eq_false_iff_not]
              omega
            rw [this]
            simp only [Bool.false_eq_true, if_false]
            have hacol := hline4.2.2.1
            cases t with
            | nil =>
              have := hline4.2.2.2
              simp only [Line] at this
              omega
            | cons e' t' =>
              have h4' := hline4.2.2.2
              have hcol' := h4'.2.2.1
              refine ⟨d ++ [e], e', t', by rw [g1]; simp, rfl, by omega, ?_⟩
              by_cases hci' : s.col + b.width < e'.col + e'.width
              · exact Or.inl hci'
              · right
                rcases g4 with g4 | g4
                · rcases hF b hb (by omega) (by omega) with hfew | hfew
                  · exfalso
                    cases t' with
                    | nil =>
                      have := h4'.2.2.2
                      simp only [Line] at this
                      omega
                    | cons e'' t'' =>
                      have h5' := h4'.2.2.2
                      have hcol'' := h5'.2.2.1
                      have hpw := (hL.positive e' h4'.1).2
                      have := hfew e' h4'.1 e'' h5'.1 (by rw [hnew]; exact h4'.2.1) (by rw [hnew]; exact h5'.2.1)
                        (by omega) (by omega)
                      omega
                  · intro p hp hp1 hp2
                    have := hfew p hp (by omega) (by rw [hnew]; exact hp2)
                    omega
                · intro p hp hp1 hp2
                  have := g4 p hp hp1 hp2
                  omega
        · exact Or.inr ⟨rfl, Nat.lt_add_of_pos_right hbp.2⟩
  · -- the block is in the last row
    have hpos : 0 < s.row := by omega
    obtain ⟨hline, d, e, t, g1, g2, g3, g4⟩ := hI.last hpos
    obtain ⟨c, l, hlast⟩ := last_ne hI hpos
    have hline2 := hline
    rw [g1] at hline2
    obtain ⟨a, hline3, hline4⟩ := hline2.split
    have heps := hline4.1
    have hacol := hline4.2.2.1
    have heb : e = b := by
      rcases g4 with g4 | g4
      · exact hL.once e heps b hb (s.row - 1) s.col ⟨hline4.2.1, g3, g4⟩ ⟨⟨by omega, by omega⟩, hc.2⟩
      · have := g4 b hb (by omega) hc.1
        omega
    subst heb
    have hint : e.intersects s.row s.col = true := (intersects_iff hbp).2 hc
    have hproc : processState columns s h w rest = some (addRowItem columns s e) := by
      simp only [processState, hlast, g2, hint, Bool.not_true, Bool.false_eq_true, if_false]
    refine ⟨_, hproc, ?_⟩
    have hres : ∀ p ∈ s.result, CornerBefore p s.row s.col ∨ p = e := fun p hp => Or.inl (hI.placed p hp)
    have hrest : ∀ p ∈ rest0, ¬ CornerBefore p s.row s.col ∧ p ≠ e := by
      intro p hp
      refine ⟨e3 p hp, ?_⟩
      rintro rfl
      exact e3 p hp (Or.inl (by omega))
    have hsub1 : e.col + e.width - 1 + 1 = e.col + e.width := by omega
    have hsub2 : e.row + e.height - 1 + 1 = e.row + e.height := by omega
    unfold addRowItem
    rw [hsub1, hsub2]
    by_cases hend : e.col + e.width = columns
    · rw [if_pos hend]
      refine ⟨inv_row_end hL hI hr hb hc hcol hend rfl rfl rfl rfl rfl rfl hI.index ⟨rest0, e1, e2, hrest⟩ hres, ?_⟩
      left
      have := hI.next_gt
      simp only []
      omega
    · rw [if_neg hend]
      refine ⟨inv_row_more hL hI hb hc hcol (by omega) rfl (by simp only []; omega) rfl rfl rfl hI.index
        ⟨rest0, e1, e2, hrest⟩ ?_ hres, ?_⟩
      · intro _
        simp only [g2, List.tail_cons]
        cases t with
        | nil =>
          have := hline4.2.2.2
          simp only [Line] at this
          omega
        | cons e' t' =>
          have h4' := hline4.2.2.2
          have hcol' := h4'.2.2.1
          have hpw := (hL.positive e' h4'.1).2
          exact ⟨d ++ [e], e', t', by rw [g1]; simp, rfl, by omega, Or.inl (by omega)⟩
      · refine Or.inr ⟨rfl, ?_⟩
        have : s.col < e.col + e.width := by omega
        exact this

/-- All states together. -/
theorem layout_from (hL : IsLayout rows columns sizes ps) (hF : FewEdges columns ps) :
    ∀ (n : Nat) (s : LayoutState), LayoutInv rows columns ps s → rows * columns < s.row * columns + s.col + n →
      ∀ depth, n < depth → processSchema depth columns s = some ps
  | n, s, hI, hn, depth, hd => by
    obtain ⟨depth, rfl⟩ : ∃ k, depth = k + 1 := ⟨depth - 1, by omega⟩
    unfold processSchema
    rw [if_pos (le_of_lt hI.col_lt)]
    cases hseq : s.sequence with
    | nil =>
      obtain ⟨rest, e1, e2, _⟩ := hI.seq
      rw [hseq] at e2
      have : rest = [] := by simpa using e2.symm
      rw [this] at e1
      simp only [List.append_nil] at e1
      rw [← e1]
    | cons hw rest =>
      obtain ⟨h, w⟩ := hw
      obtain ⟨s', h1, h2, h3⟩ := layout_step hL hF hI hseq
      simp only [h1]
      have hadv : s.row * columns + s.col < s'.row * columns + s'.col := by
        rcases h3 with h3 | ⟨h3, h4⟩
        · have := Nat.mul_le_mul_right columns h3
          have h5 := hI.col_lt
          have h6 : (s.row + 1) * columns ≤ s'.row * columns := this
          rw [Nat.succ_mul] at h6
          omega
        · rw [h3]; omega
      have hle : s.row * columns + s.col < s'.row * columns + s'.col := hadv
      have hup : s'.row * columns ≤ rows * columns := Nat.mul_le_mul_right _ h2.row_le
      have hup' : s.row * columns ≤ rows * columns := Nat.mul_le_mul_right _ hI.row_le
      cases n with
      | zero =>
        have hr := row_lt hL hI hseq
        have h4 := Nat.mul_le_mul_right columns hr
        have h5 := hI.col_lt
        rw [Nat.succ_mul] at h4
        omega
      | succ n => exact layout_from hL hF n s' h2 (by omega) depth (by omega)

theorem inv_start (hL : IsLayout rows columns sizes ps) (hc : 0 < columns) :
    LayoutInv rows columns ps (defaultState sizes) := by
  refine ⟨Nat.zero_le _, hc, ⟨ps, rfl, hL.sized.symm, ?_⟩, by simp [defaultState], rfl, rfl, ?_, by simp [defaultState],
    fun _ => rfl, ?_⟩
  · rintro p _ (h | ⟨_, h⟩)
    · exact absurd h (Nat.not_lt_zero _)
    · exact absurd h (Nat.not_lt_zero _)
  · simp [defaultState, compositionMaxRows]
  · intro h
    exact absurd h (Nat.lt_irrefl 0)

theorem compose_layout (hL : IsLayout rows columns sizes ps) (hF : FewEdges columns ps) (hc : 0 < columns) {depth : Nat}
    (hd : rows * columns + 1 < depth) : composeSchema depth columns sizes = some ps :=
  layout_from hL hF (rows * columns + 1) _ (inv_start hL hc) (by simp [defaultState]) depth hd

theorem find_block (hL : IsLayout rows columns sizes ps) {i j : Nat} {p : Placed} (hp : p ∈ ps) (hpc : CoversPlace p i j) :
    ps.find? (fun p => p.intersects i j) = some p := by
  have h1 := (intersects_iff (hL.positive p hp)).2 hpc
  cases hf : ps.find? (fun p => p.intersects i j) with
  | none =>
    rw [List.find?_eq_none] at hf
    exact absurd h1 (hf p hp)
  | some q =>
    have hq := List.mem_of_find?_eq_some hf
    have hqi : q.intersects i j = true := List.find?_some (p := fun p : Placed => p.intersects i j) hf
    rw [hL.once q hq p hp _ _ ((intersects_iff (hL.positive q hq)).1 hqi) hpc]

end

/-- Only places in the matrix have to be looked at to see that blocks do not overlap. -/
theorem once_of_bounded {rows columns : Nat} {ps : List Placed}
    (hin : ∀ p ∈ ps, p.row + p.height ≤ rows ∧ p.col + p.width ≤ columns)
    (h : ∀ i < rows, ∀ j < columns, ∀ p ∈ ps, ∀ q ∈ ps, CoversPlace p i j → CoversPlace q i j → p = q) :
    ∀ p ∈ ps, ∀ q ∈ ps, ∀ i j, CoversPlace p i j → CoversPlace q i j → p = q := by
  intro p hp q hq i j hpc hqc
  have h1 := hin p hp
  have h2 := hpc.1.2
  have h3 := hpc.2.2
  exact h i (by omega) j (by omega) p hp q hq hpc hqc

/-- Six blocks, the first test of `compose_matrix_test.hpp` with the last row completed. -/
def exampleBlocks : List Placed :=
  [⟨0, 0, 4, 4, 0⟩, ⟨0, 4, 1, 2, 1⟩, ⟨1, 4, 3, 2, 2⟩, ⟨4, 0, 2, 4, 3⟩, ⟨4, 4, 1, 2, 4⟩, ⟨5, 4, 1, 2, 5⟩]

end Geometrix
