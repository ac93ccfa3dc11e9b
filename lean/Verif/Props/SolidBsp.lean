import Verif.Lemmas.SolidBspRay
import Verif.Lemmas.SolidBspDist
import Verif.Lemmas.SolidBspRect
import Verif.Lemmas.SolidBspReal

/-!
# C80: points in a solid leaf tree; C81: the distance from its border; C82: rays

The theorems hold for each of the two selector policies that can be used, `autoSelect` and `scoredSelect`, and for
any function `mk` that gives the normal forms of the lines of the sides; `C80_hyperplane` shows that the function
of the library is one.
-/

set_option linter.unusedSectionVars false

namespace Geometrix
open Spec

variable {K : Type*} [Field K] [LinearOrder K] [IsStrictOrderedRing K]

/-! ## C80 -/

/-- C80, `make_hyperplane`: the hyperplane of a segment whose ends differ is its line in normal form. -/
theorem C80_hyperplane {a b : P2 ℝ} (h : a ≠ b) :
    ∃ pl, makeHyperplane a b = .ok pl ∧ NormalForm a b pl.n pl.d :=
  makeHyperplane_spec h

example : (⟨0, 0⟩ : P2 ℝ) ≠ ⟨3, 4⟩ := by simp

/-- C80, for a point on no line through a side: it is classed as in the solid exactly if it is in the solid, and as in
empty space otherwise. Missing from the full property: points on the line through a side. -/
theorem C80_off_lines_partial {sides : List (P2 K × P2 K)} {solid : P2 K → Prop} (hs : sides ≠ [])
    (hb : BorderOf sides solid) {mk : P2 K → P2 K → Res (Plane2 K)}
    (hm : ∀ s ∈ sides, ∃ pl, mk s.1 s.2 = .ok pl ∧ NormalForm s.1 s.2 pl.n pl.d)
    {sel : List (BspItem K) → Option Nat} (hsel : sel = autoSelect ∨ sel = scoredSelect Cmp.direct)
    {fuel : Nat} (hf : sides.length < fuel) :
    ∃ t, solidBsp mk Cmp.direct sel fuel sides = .ok t ∧ ∀ p, OffLines sides p →
      (pointInSolid Cmp.direct t p = .inSolid ↔ solid p) ∧ (pointInSolid Cmp.direct t p = .inEmpty ↔ ¬solid p) := by
  have hsel' : Selects sel := by
    rcases hsel with rfl | rfl
    · exact autoSelect_selects
    · exact scoredSelect_selects _
  obtain ⟨t, items, h1, h2, h3⟩ := solidBsp_built hsel' hm hf
  refine ⟨t, h1, fun p hp => ?_⟩
  have hne := built_nonempty hs h2 h3
  have := point_open hb h2 (fun x hx _ => h3 x hx)
    (Or.inl ⟨by rintro rfl; simp at hne, hne⟩) (p := p) (by simp [InCell]) hp
  rcases this with ⟨e1, e2⟩ | ⟨e1, e2⟩
  · rw [e1]; simp [e2]
  · rw [e1]; simp [e2]

/-- C80, if no two sides are on a line: each point of the plane is classed as on the boundary exactly if it is on a side,
as in the solid exactly if it is in the solid and on no side, and as in empty space otherwise. Missing from the
full property: solids with two sides on a line. -/
theorem C80_no_two_on_a_line_partial {sides : List (P2 K × P2 K)} {solid : P2 K → Prop} (hs : sides ≠ [])
    (hb : BorderOf sides solid) (hno : NoTwoOnALine sides) {mk : P2 K → P2 K → Res (Plane2 K)}
    (hm : ∀ s ∈ sides, ∃ pl, mk s.1 s.2 = .ok pl ∧ NormalForm s.1 s.2 pl.n pl.d)
    {sel : List (BspItem K) → Option Nat} (hsel : sel = autoSelect ∨ sel = scoredSelect Cmp.direct)
    {fuel : Nat} (hf : sides.length < fuel) :
    ∃ t, solidBsp mk Cmp.direct sel fuel sides = .ok t ∧ ∀ p,
      (pointInSolid Cmp.direct t p = .onBoundary ↔ OnBorder sides p) ∧
      (pointInSolid Cmp.direct t p = .inSolid ↔ ¬OnBorder sides p ∧ solid p) ∧
      (pointInSolid Cmp.direct t p = .inEmpty ↔ ¬OnBorder sides p ∧ ¬solid p) := by
  have hsel' : Selects sel := by
    rcases hsel with rfl | rfl
    · exact autoSelect_selects
    · exact scoredSelect_selects _
  obtain ⟨t, items, h1, h2, h3⟩ := solidBsp_built hsel' hm hf
  refine ⟨t, h1, fun p => ?_⟩
  rcases point_class hs hb hno h2 h3 p with ⟨e, e1⟩ | ⟨e, e1, e2⟩ | ⟨e, e1, e2⟩
  · rw [e]; simp [e1]
  · rw [e]; simp [e1, e2]
  · rw [e]; simp [e1, e2]

example : rectSides (0 : ℝ) 1 0 1 ≠ [] ∧ BorderOf (rectSides (0 : ℝ) 1 0 1) (InRect 0 1 0 1) ∧
    NoTwoOnALine (rectSides (0 : ℝ) 1 0 1) ∧
    (∀ s ∈ rectSides (0 : ℝ) 1 0 1, ∃ pl, makeHyperplane s.1 s.2 = .ok pl ∧ NormalForm s.1 s.2 pl.n pl.d) ∧
    (rectSides (0 : ℝ) 1 0 1).length < 5 ∧ OffLines (rectSides (0 : ℝ) 1 0 1) ⟨1 / 2, 1 / 3⟩ := by
  refine ⟨by simp [rectSides], borderOf_rect one_pos one_pos, ?_, ?_, by simp [rectSides], ?_⟩
  · norm_num [NoTwoOnALine, rectSides, area2]
  · intro s hs
    simp only [rectSides, List.mem_cons, List.not_mem_nil, or_false] at hs
    rcases hs with rfl | rfl | rfl | rfl <;> exact makeHyperplane_spec (by simp)
  · norm_num [OffLines, rectSides, area2]

/-- C80 is false for the two squares from (0, 0) to (1, 1) and from (2, 0) to (3, 1): the point (3/2, 1) between them
is neither on a side nor in the solid, but on the line through two sides, and it is classed as on the boundary. -/
theorem C80_refuted :
    let sides := rectSides (0 : ℚ) 1 0 1 ++ rectSides 2 3 0 1
    let solid := fun p => InRect (0 : ℚ) 1 0 1 p ∨ InRect 2 3 0 1 p
    BorderOf sides solid ∧
    (∀ s ∈ sides, ∃ pl, axisPlane s.1 s.2 = .ok pl ∧ NormalForm s.1 s.2 pl.n pl.d) ∧
    ¬OnBorder sides ⟨3 / 2, 1⟩ ∧ ¬solid ⟨3 / 2, 1⟩ ∧
    ∃ t, solidBsp axisPlane Cmp.direct autoSelect 9 sides = .ok t ∧
      pointInSolid Cmp.direct t ⟨3 / 2, 1⟩ = .onBoundary := by
  refine ⟨borderOf_two (by norm_num) (by norm_num) (by norm_num) (by norm_num) (by norm_num),
    axisPlane_two (by norm_num) (by norm_num) (by norm_num) (by norm_num), ?_, ?_, ?_⟩
  · rw [onBorder_append, onBorder_rect (by norm_num) (by norm_num), onBorder_rect (by norm_num) (by norm_num)]
    norm_num
  · norm_num [InRect]
  · obtain ⟨t, h1, h2⟩ := ok_of_check (x := solidBsp axisPlane Cmp.direct autoSelect 9 (rectSides (0 : ℚ) 1 0 1 ++ rectSides 2 3 0 1))
      (P := fun t => decide (pointInSolid Cmp.direct t ⟨3 / 2, 1⟩ = .onBoundary)) (by decide +kernel)
    exact ⟨t, h1, by simpa using h2⟩

/-! ## C81 -/

/-- C81: the result is the smallest squared distance of the point from the sides, and the number that is given back is the
number of a side at this distance. -/
theorem C81_distance {sides : List (P2 K × P2 K)} (hs : sides ≠ []) {mk : P2 K → P2 K → Res (Plane2 K)}
    (hm : ∀ s ∈ sides, ∃ pl, mk s.1 s.2 = .ok pl ∧ NormalForm s.1 s.2 pl.n pl.d)
    {sel : List (BspItem K) → Option Nat} (hsel : sel = autoSelect ∨ sel = scoredSelect Cmp.direct)
    {fuel : Nat} (hf : sides.length < fuel) :
    ∃ t, solidBsp mk Cmp.direct sel fuel sides = .ok t ∧ ∀ p, ∃ d i s,
      minDistToSolid Cmp.direct sides t p = .ok (some (d, i)) ∧ IsMinOver (OnBorder sides) (sqDist p) d ∧
      sides[i]? = some s ∧ IsMinOver (OnSegment s.1 s.2) (sqDist p) d := by
  have hsel' : Selects sel := by
    rcases hsel with rfl | rfl
    · exact autoSelect_selects
    · exact scoredSelect_selects _
  obtain ⟨t, items, h1, h2, h3⟩ := solidBsp_built hsel' hm hf
  refine ⟨t, h1, fun p => ?_⟩
  obtain ⟨d, i, s, e1, e2, e3, e4⟩ := minDistToSolid_spec hs h2 h3 p
  exact ⟨d, i, s, e1, e4, e2, e3⟩

example : (∀ s ∈ [((⟨0, 0⟩ : P2 ℝ), (⟨3, 4⟩ : P2 ℝ)), (⟨3, 4⟩, ⟨6, 8⟩), (⟨6, 8⟩, ⟨1, 0⟩)],
    ∃ pl, makeHyperplane s.1 s.2 = .ok pl ∧ NormalForm s.1 s.2 pl.n pl.d) := by
  intro s hs
  simp only [List.mem_cons, List.not_mem_nil, or_false] at hs
  rcases hs with rfl | rfl | rfl <;> exact makeHyperplane_spec (by simp)

/-- C81, without a side: nothing is found, the result is infinity. -/
theorem C81_empty (mk : P2 K → P2 K → Res (Plane2 K)) (sel : List (BspItem K) → Option Nat) (fuel : Nat) (p : P2 K) :
    ∃ t, solidBsp mk Cmp.direct sel (fuel + 1) [] = .ok t ∧ minDistToSolid Cmp.direct [] t p = .ok none :=
  ⟨_, rfl, rfl⟩

/-! ## C82 -/

/-- C82, if no two sides are on a line and the ray starts on no line through a side. Without a hit no point of the ray is
in the solid or on a side. The parameter of a hit is the first at which the ray is in the solid or on a side: the
point is on a side, or the ray starts in the solid and the parameter is zero. The side whose number is given
contains the point; a number is given if the point is on the line through no other side and the parameter is
positive. `ray_intersection_only_border` (`ob`) does the same for rays that start outside the solid. Missing from
the full property: the other solids and starting points. -/
theorem C82_off_lines_partial {sides : List (P2 K × P2 K)} {solid : P2 K → Prop} (hs : sides ≠ [])
    (hb : BorderOf sides solid) (hno : NoTwoOnALine sides) {mk : P2 K → P2 K → Res (Plane2 K)}
    (hm : ∀ s ∈ sides, ∃ pl, mk s.1 s.2 = .ok pl ∧ NormalForm s.1 s.2 pl.n pl.d)
    {sel : List (BspItem K) → Option Nat} (hsel : sel = autoSelect ∨ sel = scoredSelect Cmp.direct)
    {fuel : Nat} (hf : sides.length < fuel) :
    ∃ t, solidBsp mk Cmp.direct sel fuel sides = .ok t ∧ ∀ p d ob, OffLines sides p → (ob = true → ¬solid p) →
      ∃ r, bspRay Cmp.direct sides t p d ob = .ok r ∧
      (r = none → ∀ s : K, 0 ≤ s → ¬OnBorder sides (p + s • d) ∧ ¬solid (p + s • d)) ∧
      (∀ g, r = some g → ∃ τ : K, g.t = some τ ∧ 0 ≤ τ ∧
        (OnBorder sides (p + τ • d) ∨ τ = 0 ∧ solid p) ∧
        (∀ s : K, 0 ≤ s → s < τ → ¬OnBorder sides (p + s • d) ∧ ¬solid (p + s • d)) ∧
        (∀ i, g.data = some i → ∃ e, sides[i]? = some e ∧ OnSegment e.1 e.2 (p + τ • d)) ∧
        (0 < τ → (∀ (i j : Nat) (e f : P2 K × P2 K), sides[i]? = some e → sides[j]? = some f →
          area2 e.1 e.2 (p + τ • d) = 0 → area2 f.1 f.2 (p + τ • d) = 0 → i = j) → g.data ≠ none)) := by
  have hsel' : Selects sel := by
    rcases hsel with rfl | rfl
    · exact autoSelect_selects
    · exact scoredSelect_selects _
  obtain ⟨t, items, h1, h2, h3⟩ := solidBsp_built hsel' hm hf
  refine ⟨t, h1, fun p d ob hp hob => ?_⟩
  obtain ⟨r, e1, e2, e3⟩ := bspRay_solid hs hb hno h2 h3 hp d ob
  refine ⟨r, e1, e2, fun g hg => e3 g hg ?_⟩
  cases ob
  · exact Or.inl rfl
  · exact Or.inr (hob rfl)

example : let sides := rectSides (0 : ℚ) 2 0 2 ++ rectSides 3 5 1 3
    let solid := fun p => InRect (0 : ℚ) 2 0 2 p ∨ InRect 3 5 1 3 p
    sides ≠ [] ∧ BorderOf sides solid ∧ NoTwoOnALine sides ∧
    (∀ s ∈ sides, ∃ pl, axisPlane s.1 s.2 = .ok pl ∧ NormalForm s.1 s.2 pl.n pl.d) ∧ sides.length < 9 ∧
    OffLines sides ⟨5 / 2, 1 / 2⟩ ∧ ¬solid ⟨5 / 2, 1 / 2⟩ ∧
    (match solidBsp axisPlane Cmp.direct autoSelect 9 sides with
      | .ok t => decide (bspRay Cmp.direct sides t ⟨5 / 2, 1 / 2⟩ ⟨3 / 5, 4 / 5⟩ false = .ok (some ⟨some (5 / 6), some 4⟩))
      | .error _ => false) = true := by
  refine ⟨by simp [rectSides], borderOf_two (by norm_num) (by norm_num) (by norm_num) (by norm_num) (by norm_num), ?_,
    axisPlane_two (by norm_num) (by norm_num) (by norm_num) (by norm_num), by simp [rectSides], ?_, ?_, by decide +kernel⟩
  · norm_num [NoTwoOnALine, rectSides, area2]
  · norm_num [OffLines, rectSides, area2]
  · norm_num [InRect]

/-- C82 is false for a start on the line through a side: the ray from (-1, 1) with the direction (3/5, 4/5) goes up from
the line of the top of the unit square and misses the square, but a hit at 5/3 is given. -/
theorem C82_on_line_refuted :
    let sides := rectSides (0 : ℚ) 1 0 1
    BorderOf sides (InRect 0 1 0 1) ∧ NoTwoOnALine sides ∧
    (∀ s ∈ sides, ∃ pl, axisPlane s.1 s.2 = .ok pl ∧ NormalForm s.1 s.2 pl.n pl.d) ∧
    (∀ s : ℚ, 0 ≤ s → ¬OnBorder sides (⟨-1, 1⟩ + s • ⟨3 / 5, 4 / 5⟩) ∧
      ¬InRect 0 1 0 1 ((⟨-1, 1⟩ : P2 ℚ) + s • ⟨3 / 5, 4 / 5⟩)) ∧
    ∀ sel : List (BspItem ℚ) → Option Nat, sel = autoSelect ∨ sel = scoredSelect Cmp.direct →
      ∃ t, solidBsp axisPlane Cmp.direct sel 5 sides = .ok t ∧
        bspRay Cmp.direct sides t ⟨-1, 1⟩ ⟨3 / 5, 4 / 5⟩ false = .ok (some ⟨some (5 / 3), none⟩) := by
  refine ⟨borderOf_rect (by norm_num) (by norm_num), ?_, axisPlane_rect (by norm_num) (by norm_num), ?_, ?_⟩
  · norm_num [NoTwoOnALine, rectSides, area2]
  · intro s hs
    rw [onBorder_rect (by norm_num) (by norm_num)]
    simp only [InRect, P2.add_x, P2.add_y, P2.smul_x, P2.smul_y]
    constructor
    · rintro (⟨h | h, h1, h2⟩ | ⟨h | h, h1, h2⟩) <;> linarith
    · rintro ⟨h1, h2, h3, h4⟩
      linarith
  · intro sel hsel
    have : okCheck (solidBsp axisPlane Cmp.direct sel 5 (rectSides (0 : ℚ) 1 0 1)) (fun t =>
        decide (bspRay Cmp.direct (rectSides (0 : ℚ) 1 0 1) t ⟨-1, 1⟩ ⟨3 / 5, 4 / 5⟩ false = .ok (some ⟨some (5 / 3), none⟩))) =
        true := by
      rcases hsel with rfl | rfl <;> decide +kernel
    obtain ⟨t, h1, h2⟩ := ok_of_check this
    exact ⟨t, h1, by simpa using h2⟩

/-- C82 is false for two sides on a line: the ray that goes down from (3/2, 2) between the squares from (0, 0) to (1, 1)
and from (2, 0) to (3, 1) meets neither, but a hit at 1 is given. -/
theorem C82_two_on_a_line_refuted :
    let sides := rectSides (0 : ℚ) 1 0 1 ++ rectSides 2 3 0 1
    let solid := fun p => InRect (0 : ℚ) 1 0 1 p ∨ InRect 2 3 0 1 p
    BorderOf sides solid ∧ (∀ s ∈ sides, ∃ pl, axisPlane s.1 s.2 = .ok pl ∧ NormalForm s.1 s.2 pl.n pl.d) ∧
    OffLines sides ⟨3 / 2, 2⟩ ∧
    (∀ s : ℚ, ¬OnBorder sides (⟨3 / 2, 2⟩ + s • ⟨0, -1⟩) ∧ ¬solid (⟨3 / 2, 2⟩ + s • ⟨0, -1⟩)) ∧
    ∃ t, solidBsp axisPlane Cmp.direct autoSelect 9 sides = .ok t ∧
      bspRay Cmp.direct sides t ⟨3 / 2, 2⟩ ⟨0, -1⟩ false = .ok (some ⟨some 1, none⟩) := by
  refine ⟨borderOf_two (by norm_num) (by norm_num) (by norm_num) (by norm_num) (by norm_num),
    axisPlane_two (by norm_num) (by norm_num) (by norm_num) (by norm_num), ?_, ?_, ?_⟩
  · norm_num [OffLines, rectSides, area2]
  · intro s
    rw [onBorder_append, onBorder_rect (by norm_num) (by norm_num), onBorder_rect (by norm_num) (by norm_num)]
    norm_num [InRect]
  · obtain ⟨t, h1, h2⟩ := ok_of_check (x := solidBsp axisPlane Cmp.direct autoSelect 9 (rectSides (0 : ℚ) 1 0 1 ++ rectSides 2 3 0 1))
      (P := fun t => decide (bspRay Cmp.direct (rectSides (0 : ℚ) 1 0 1 ++ rectSides 2 3 0 1) t ⟨3 / 2, 2⟩ ⟨0, -1⟩ false =
        .ok (some ⟨some 1, none⟩))) (by decide +kernel)
    exact ⟨t, h1, by simpa using h2⟩

/-- C82 is false for `ray_intersection_only_border` from inside: the ray that goes up from (4, 3/2) in the square from
(3, 1) to (5, 3) leaves the square at (4, 3), but a hit at (4, 2) is given, where the line of a side of another
square divides the first. -/
theorem C82_only_border_refuted :
    let sides := rectSides (0 : ℚ) 2 0 2 ++ rectSides 3 5 1 3
    let solid := fun p => InRect (0 : ℚ) 2 0 2 p ∨ InRect 3 5 1 3 p
    BorderOf sides solid ∧ NoTwoOnALine sides ∧
    (∀ s ∈ sides, ∃ pl, axisPlane s.1 s.2 = .ok pl ∧ NormalForm s.1 s.2 pl.n pl.d) ∧
    OffLines sides ⟨4, 3 / 2⟩ ∧ ¬OnBorder sides (⟨4, 3 / 2⟩ + (1 / 2 : ℚ) • ⟨0, 1⟩) ∧
    ∃ t, solidBsp axisPlane Cmp.direct autoSelect 9 sides = .ok t ∧
      bspRay Cmp.direct sides t ⟨4, 3 / 2⟩ ⟨0, 1⟩ true = .ok (some ⟨some (1 / 2), none⟩) := by
  refine ⟨borderOf_two (by norm_num) (by norm_num) (by norm_num) (by norm_num) (by norm_num), ?_,
    axisPlane_two (by norm_num) (by norm_num) (by norm_num) (by norm_num), ?_, ?_, ?_⟩
  · norm_num [NoTwoOnALine, rectSides, area2]
  · norm_num [OffLines, rectSides, area2]
  · rw [onBorder_append, onBorder_rect (by norm_num) (by norm_num), onBorder_rect (by norm_num) (by norm_num)]
    norm_num
  · obtain ⟨t, h1, h2⟩ := ok_of_check (x := solidBsp axisPlane Cmp.direct autoSelect 9 (rectSides (0 : ℚ) 2 0 2 ++ rectSides 3 5 1 3))
      (P := fun t => decide (bspRay Cmp.direct (rectSides (0 : ℚ) 2 0 2 ++ rectSides 3 5 1 3) t ⟨4, 3 / 2⟩ ⟨0, 1⟩ true =
        .ok (some ⟨some (1 / 2), none⟩))) (by decide +kernel)
    exact ⟨t, h1, by simpa using h2⟩

end Geometrix
