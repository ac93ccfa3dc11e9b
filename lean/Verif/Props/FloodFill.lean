import Verif.Lemmas.FloodFill

/-!
# C37, C59: flood fill

A helper is made for a grid with `w` columns and `h` rows. The fuel is the number of passes of the outer
loop allowed; that the result is not the fault `diverges` for any fuel above `3 w h + 1` means that the
loop ends.
-/

namespace Geometrix

open Spec

/-- From a seed in the grid whose colour is neither `BOUNDARY` nor the next colour the traversal ends and
returns `true`. The cells that can be reached from the seed through cells of its colour, and no others,
get the new colour. The visitor is called for just those of them that were not visited before, once
for each. Missing for the full property: a cell that the same helper has visited before is not visited
again (`C37_revisit_refuted`), and the traversal need not end when the next colour is the colour of the
seed (`C37_wrap_refuted`; see `C37_next_color` for when this cannot be). -/
theorem C37_fill_partial {w h x y fuel : Nat} {f : Flood} (hx : x < w) (hy : y < h)
    (hb : f.color (x, y) ≠ 2 ^ 32 - 1) (hne : f.color (x, y) ≠ (f.lastColor + 1) % 2 ^ 32)
    (hfuel : 3 * (w * h) + 1 < fuel) :
    ∃ f' : Flood, floodTraversal w h fuel f x y = .ok (true, f') ∧
      f'.lastColor = (f.lastColor + 1) % 2 ^ 32 ∧
      (∀ c, SameColorReach w h f.color (x, y) c → f'.color c = f'.lastColor) ∧
      (∀ c, ¬ SameColorReach w h f.color (x, y) c → f'.color c = f.color c) ∧
      (∀ c, c ∈ f'.visited ↔ c ∈ f.visited ∨ SameColorReach w h f.color (x, y) c) ∧
      ∃ visits : List (Nat × Nat), f'.out = f.out ++ visits ∧ visits.Nodup ∧
        ∀ c, c ∈ visits ↔ SameColorReach w h f.color (x, y) c ∧ c ∉ f.visited := by
  obtain ⟨f', h1, h2, h3, h4, h5⟩ := floodTraversal_spec hx hy hb hne hfuel
  exact ⟨f', h1, h2, fun c hc => ((h3 c).1 hc).trans h2.symm, fun c hc => (h3 c).2 hc, h4, h5⟩

/-- A grid of three columns and two rows with a wall that leaves the first column and one cell above the
wall on one side. -/
example : ∃ f' : Flood, floodTraversal 3 2 100
    ⟨0, fun c => if c = (1, 0) ∨ c = (2, 1) then 2 ^ 32 - 1 else 0, [], []⟩ 0 0 = .ok (true, f') ∧
    f'.out = [(0, 0), (0, 1), (1, 1)] := by
  have h : (match floodTraversal 3 2 100
      ⟨0, fun c => if c = (1, 0) ∨ c = (2, 1) then 2 ^ 32 - 1 else 0, [], []⟩ 0 0 with
    | .ok (b, f') => b && decide (f'.out = [(0, 0), (0, 1), (1, 1)]) | _ => false) = true := by
    decide +kernel
  cases hg : floodTraversal 3 2 100
      ⟨0, fun c => if c = (1, 0) ∨ c = (2, 1) then 2 ^ 32 - 1 else 0, [], []⟩ 0 0 with
  | error e => rw [hg] at h; simp at h
  | ok r =>
    rw [hg] at h
    simp only [Bool.and_eq_true, decide_eq_true_eq] at h
    exact ⟨r.2, by rw [← h.1], h.2⟩

/-- From a seed in the grid of the colour `BOUNDARY` the traversal returns `false` and calls no visitor;
outside the grid an assertion fails. -/
theorem C37_not_started (w h fuel : Nat) (f : Flood) (x y : Nat) :
    ((x < w ∧ y < h ∧ f.color (x, y) = 2 ^ 32 - 1) →
      ∃ f', floodTraversal w h fuel f x y = .ok (false, f') ∧ f'.out = f.out ∧ f'.color = f.color) ∧
    (¬ (x < w ∧ y < h) → floodTraversal w h fuel f x y = .error .assertFailed) := by
  constructor
  · rintro ⟨hx, hy, hc⟩
    refine ⟨{ f with lastColor := addU32 f.lastColor 1 }, ?_, rfl, rfl⟩
    unfold floodTraversal
    rw [if_neg (by omega), if_neg (by omega)]
    simp only
    rw [if_pos (show f.color (x, y) = floodBoundary from hc)]
  · intro hn
    unfold floodTraversal
    by_cases hx : x < w
    · rw [if_neg (by omega), if_pos (by omega)]
    · rw [if_pos hx]

example : floodTraversal 3 3 10 Flood.new 3 0 = .error .assertFailed :=
  (C37_not_started 3 3 10 Flood.new 3 0).2 (by omega)

/-- A helper is new with all colours 0 and the last colour 0. As long as each colour set by the user is at
most the last colour or is `BOUNDARY`, and less than `2^32 - 2` traversals have been made, a traversal keeps
this so, and the next colour is not the colour of any cell, so that `C37_fill_partial` applies. -/
theorem C37_next_color {w h fuel : Nat} {f f' : Flood} {x y : Nat} {b : Bool}
    (hlast : f.lastColor < 2 ^ 32 - 2) (hc : ∀ c, f.color c ≤ f.lastColor ∨ f.color c = 2 ^ 32 - 1) :
    (∀ c, f.color c ≠ (f.lastColor + 1) % 2 ^ 32) ∧
    (floodTraversal w h fuel f x y = .ok (b, f') → 3 * (w * h) + 1 < fuel →
      ∀ c, f'.color c ≤ f'.lastColor ∨ f'.color c = 2 ^ 32 - 1) := by
  have hmod : (f.lastColor + 1) % 2 ^ 32 = f.lastColor + 1 := Nat.mod_eq_of_lt (by omega)
  have key : ∀ c, f.color c ≠ (f.lastColor + 1) % 2 ^ 32 := by
    intro c
    rw [hmod]
    rcases hc c with h | h <;> omega
  refine ⟨key, fun hf hfuel c => ?_⟩
  by_cases hin : x < w ∧ y < h
  · by_cases hb : f.color (x, y) = 2 ^ 32 - 1
    · have hr : floodTraversal w h fuel f x y = .ok (false, { f with lastColor := addU32 f.lastColor 1 }) := by
        unfold floodTraversal
        rw [if_neg (by omega), if_neg (by omega)]
        simp only
        rw [if_pos (show f.color (x, y) = floodBoundary from hb)]
      rw [hr] at hf
      have hf' := (Prod.mk.inj (Except.ok.inj hf)).2
      rw [← hf']
      simp only [addU32, hmod]
      rcases hc c with h | h
      · left; omega
      · right; exact h
    · obtain ⟨f'', h1, h2, h3, h4, -⟩ := C37_fill_partial hin.1 hin.2 hb (key _) hfuel
      rw [h1] at hf
      have hf' := (Prod.mk.inj (Except.ok.inj hf)).2
      subst hf'
      by_cases hr : SameColorReach w h f.color (x, y) c
      · left; rw [h3 c hr]
      · rw [h4 c hr, h2, hmod]
        rcases hc c with h | h
        · left; omega
        · right; exact h
  · rw [(C37_not_started w h fuel f x y).2 hin] at hf
    cases hf

example : ∀ c, Flood.new.color c ≠ (Flood.new.lastColor + 1) % 2 ^ 32 :=
  (C37_next_color (w := 3) (h := 3) (fuel := 0) (f' := Flood.new) (x := 0) (y := 0) (b := true)
    (by decide) (fun _ => Or.inl (Nat.zero_le _))).1

/-- A second traversal with the same helper from the same seed calls no visitor. -/
theorem C37_revisit_refuted {w h x y fuel : Nat} {f : Flood} (hx : x < w) (hy : y < h)
    (hb : f.color (x, y) ≠ 2 ^ 32 - 1) (hlast : f.lastColor < 2 ^ 32 - 3)
    (hne : f.color (x, y) ≠ f.lastColor + 1)
    (hnew : ∀ c, ¬ SameColorReach w h f.color (x, y) c → f.color c ≠ f.lastColor + 1)
    (hfuel : 3 * (w * h) + 1 < fuel) :
    ∃ f' f'', floodTraversal w h fuel f x y = .ok (true, f') ∧
      floodTraversal w h fuel f' x y = .ok (true, f'') ∧ f''.out = f'.out := by
  have hmod : (f.lastColor + 1) % 2 ^ 32 = f.lastColor + 1 := Nat.mod_eq_of_lt (by omega)
  obtain ⟨f', h1, h2, h3, h4, h5, -⟩ := C37_fill_partial hx hy hb (by rw [hmod]; exact hne) hfuel
  rw [hmod] at h2
  have hseed : f'.color (x, y) = f.lastColor + 1 := by
    rw [h3 _ Relation.ReflTransGen.refl, h2]
  have hmod' : (f'.lastColor + 1) % 2 ^ 32 = f.lastColor + 2 := by
    rw [h2]; exact Nat.mod_eq_of_lt (by omega)
  obtain ⟨f'', g1, -, -, -, -, l, g2, -, g3⟩ := C37_fill_partial (f := f') hx hy
    (by rw [hseed]; omega) (by rw [hseed, hmod']; omega) hfuel
  refine ⟨f', f'', h1, g1, ?_⟩
  have hnil : l = [] := by
    rw [List.eq_nil_iff_forall_not_mem]
    intro c hc
    obtain ⟨hr, hv⟩ := (g3 c).1 hc
    apply hv
    rw [h5]
    by_contra hcon
    push Not at hcon
    have hcol := (reach_in (seed := (x, y)) hx hy hseed hr).2.2
    rw [h4 c hcon.2] at hcol
    exact hnew c hcon.2 hcol
  rw [g2, hnil, List.append_nil]

example : ∃ f' f'', floodTraversal 3 3 100 Flood.new 1 1 = .ok (true, f') ∧
    floodTraversal 3 3 100 f' 1 1 = .ok (true, f'') ∧ f''.out = f'.out :=
  C37_revisit_refuted (by omega) (by omega) (by decide) (by decide) (by decide)
    (fun _ _ => by simp [Flood.new]) (by omega)

/-- When the colour counter has wrapped around to the colour of the seed the traversal of a grid of two
cells does not end. -/
theorem C37_wrap_refuted (fuel : Nat) :
    floodTraversal 2 1 fuel ⟨2 ^ 32 - 1, fun _ => 0, [], []⟩ 0 0 = .error .diverges := by
  have key : ∀ fuel visited out last,
      floodLoop 2 1 0 0 fuel ⟨last, fun _ => 0, visited, out⟩ [(0, 0)] = .error .diverges ∧
      floodLoop 2 1 0 0 fuel ⟨last, fun _ => 0, visited, out⟩ [(1, 0)] = .error .diverges := by
    intro fuel
    induction fuel with
    | zero => intro _ _ _; exact ⟨rfl, rfl⟩
    | succ fuel ih =>
      intro visited out last
      constructor
      · by_cases hv : (0, 0) ∈ visited <;>
        · simp [floodLoop, floodDown, floodColumn, floodSpan, Flood.visitCell, hv,
            floodBoundary, (ih _ _ _).2]
      · by_cases hv : (1, 0) ∈ visited <;>
        · simp [floodLoop, floodDown, floodColumn, floodSpan, Flood.visitCell, hv,
            floodBoundary, (ih _ _ _).1]
  have : addU32 (2 ^ 32 - 1) 1 = 0 := by decide
  unfold floodTraversal
  simp only [this]
  rw [if_neg (by omega), if_neg (by omega), if_neg (by decide), (key _ _ _ _).1]

/-- The traversal of a polygon calls the visitor once for each of its cells. These are, in each column,
the cells from the lowest to the highest that the fast voxel traversals of the edges visit. (`C36`
describes those.) -/
theorem C59_columns {K : Type*} [Field K] [LinearOrder K] [FloorSemiring K]
    (cmp : Cmp K) (fuel : Nat) (iter : List (Nat × Nat × Nat) → List (Nat × Nat × Nat))
    (hi : ∀ l, (iter l).Perm l) (g : GridTraits K) (pgon : List (P2 K)) (visits : List (Nat × Nat))
    (h : floodPolygon cmp fuel iter g pgon = .ok visits)
    (edgeCells : Nat → List (Nat × Nat))
    (he : ∀ i p q, pgon[i]? = some p → pgon[(i + 1) % pgon.length]? = some q →
      fastVoxel cmp (fun _ => true) fuel g ⟨p, q⟩ = .ok (edgeCells i))
    (hr : ∀ i, ∀ c ∈ edgeCells i, c.2 + 1 < 2 ^ 32) :
    visits.Nodup ∧ ∀ c, c ∈ visits ↔ ∃ a b i j, i < pgon.length ∧ j < pgon.length ∧
      (c.1, a) ∈ edgeCells i ∧ (c.1, b) ∈ edgeCells j ∧ a ≤ c.2 ∧ c.2 ≤ b := by
  unfold floodPolygon at h
  cases hc : polygonCells cmp fuel g pgon pgon.length 0 1 with
  | error e => rw [hc] at h; cases h
  | ok cells =>
    rw [hc] at h
    have hv := Except.ok.inj h
    have hmem : ∀ c, c ∈ cells ↔ ∃ i, i < pgon.length ∧ c ∈ edgeCells i := by
      intro c
      rw [polygonCells_mem he pgon.length 0 1 cells (by omega) ?_ hc]
      · simp
      · rcases Nat.lt_or_ge 1 pgon.length with h1 | h1
        · intro _; rw [Nat.mod_eq_of_lt (by omega)]
        · intro h0
          have h1 : pgon.length = 1 := by omega
          exfalso
          rw [h1] at hc
          simp only [polygonCells] at hc
          have : pgon[1]? = none := List.getElem?_eq_none (by omega)
          rw [this] at hc
          revert hc
          cases pgon[0]? <;> simp
    obtain ⟨h1, h2⟩ := scan_mark (cells := cells) (iter := iter) (fun c hc => by
      obtain ⟨i, -, hi⟩ := (hmem c).1 hc
      exact hr i c hi) hi
    rw [hv] at h1 h2
    refine ⟨h1, fun c => ?_⟩
    rw [h2]
    simp only [hmem]
    constructor
    · rintro ⟨a, b, ⟨i, hi, ha⟩, ⟨j, hj, hb⟩, h3, h4⟩
      exact ⟨a, b, i, j, hi, hj, ha, hb, h3, h4⟩
    · rintro ⟨a, b, i, j, hi, hj, ha, hb, h3, h4⟩
      exact ⟨a, b, ⟨i, hi, ha⟩, ⟨j, hj, hb⟩, h3, h4⟩

/-- A triangle in a grid of 36 cells. -/
example : (match makeGrid (K := ℚ) 0 6 0 6 1 with
    | .ok g => match floodPolygon Cmp.direct 100 id g [⟨1 / 2, 1 / 2⟩, ⟨11 / 2, 1⟩, ⟨3, 11 / 2⟩] with
      | .ok visits => visits = [(0, 0), (1, 0), (2, 0), (3, 0), (4, 0), (5, 0), (5, 1), (4, 1), (4, 2),
          (4, 3), (3, 3), (3, 4), (3, 5), (2, 5), (2, 4), (2, 3), (1, 3), (1, 2), (1, 1), (0, 1), (2, 1),
          (2, 2), (3, 1), (3, 2)]
      | .error _ => False
    | .error _ => False) := by
  have h : (match makeGrid (K := ℚ) 0 6 0 6 1 with
    | .ok g => match floodPolygon Cmp.direct 100 id g [⟨1 / 2, 1 / 2⟩, ⟨11 / 2, 1⟩, ⟨3, 11 / 2⟩] with
      | .ok visits => decide (visits = [(0, 0), (1, 0), (2, 0), (3, 0), (4, 0), (5, 0), (5, 1), (4, 1),
          (4, 2), (4, 3), (3, 3), (3, 4), (3, 5), (2, 5), (2, 4), (2, 3), (1, 3), (1, 2), (1, 1), (0, 1),
          (2, 1), (2, 2), (3, 1), (3, 2)])
      | .error _ => false
    | .error _ => false) = true := by decide +kernel
  revert h
  cases makeGrid (K := ℚ) 0 6 0 6 1 with
  | error _ => simp
  | ok g =>
    simp only
    cases floodPolygon Cmp.direct 100 id g [⟨1 / 2, 1 / 2⟩, ⟨11 / 2, 1⟩, ⟨3, 11 / 2⟩] with
    | error _ => simp
    | ok v => simp only [decide_eq_true_eq]; exact id

end Geometrix
