import Verif.Lemmas.Mesh

/-!
# C86: the triangles of a mesh; C87: random positions in a mesh
-/

set_option linter.unusedSectionVars false

namespace Geometrix
open Spec

section
variable {K : Type*} [Field K] [LinearOrder K] [IsStrictOrderedRing K]

/-- C86: with an index that is not that of a point, the assertion in the constructor fails; with valid indices it does not,
and a mesh is made unless all the triangles that are kept are flat, when their areas are divided by zero. -/
theorem C86_construct (pts : List (P2 K)) (indices : List Nat) :
    ((∃ i ∈ inThrees indices, ¬ (i.1 < pts.length ∧ i.2.1 < pts.length ∧ i.2.2 < pts.length)) →
      makeMesh Cmp.direct pts indices = .error .assertFailed) ∧
    ((∀ i ∈ inThrees indices, i.1 < pts.length ∧ i.2.1 < pts.length ∧ i.2.2 < pts.length) →
      (∃ m, makeMesh Cmp.direct pts indices = .ok m) ∨
      (makeMesh Cmp.direct pts indices = .error .divByZero ∧
        ∀ i ∈ inThrees indices, ∀ a b c, pts[i.1]? = some a → pts[i.2.1]? = some b → pts[i.2.2]? = some c →
          area2 a b c = 0)) := by
  refine ⟨?_, ?_⟩
  · rintro ⟨i, hi, hn⟩
    have : ¬ ValidTriples pts (inThrees indices) := fun h => hn (h i hi)
    simp only [makeMesh, meshTriples_eq, meshLoop_invalid this]
  · intro h
    obtain ⟨ts, h1, h2, h3, h4, h5⟩ := makeMesh_ok h
    by_cases he : ts = []
    · exact Or.inl ⟨_, h5 he⟩
    · by_cases ha : areaTotal ts = 0
      · refine Or.inr ⟨h4 he ha, ?_⟩
        intro i hi a b c ea eb ec
        by_contra hn
        have hd : ThreePoints pts i := by
          unfold ThreePoints
          rw [ea, eb, ec]
          simp only [ne_eq, Option.some.injEq]
          refine ⟨?_, ?_, ?_⟩ <;> rintro rfl <;> exact hn (by unfold area2; ring)
        obtain ⟨t, ht, hm⟩ := forall₂_exists h2 (List.mem_filter.2 ⟨hi, by simpa using hd⟩)
        have hz : area2 t.a t.b t.c ≠ 0 := madeOf_area hm ea eb ec hn
        exact absurd ha (areaTotal_pos ht hz).ne'
      · exact Or.inl ⟨_, h3 ha⟩

/-- C86: the triangles of a mesh are, in the order of the list of indices, those of the triples of indices of three
different points. Each has the points of its indices as vertices, starts with the first index of the triple, and has the
other two in the order in which it does not turn right. -/
theorem C86_triangles {pts : List (P2 K)} {indices : List Nat} {m : MeshBase K}
    (h : makeMesh Cmp.direct pts indices = .ok m) :
    m.points = pts ∧ List.Forall₂ (MadeOf pts) ((inThrees indices).filter (ThreePoints pts ·)) m.tris := by
  obtain ⟨hm, hf, _⟩ := makeMesh_inv h
  exact ⟨hm, hf⟩

/-- C86, the order of the vertices: every triangle whose vertices are not on one line is counterclockwise. Missing from the
full property: triangles whose vertices are on one line are in the mesh as well. -/
theorem C86_counterclockwise_partial {pts : List (P2 K)} {indices : List Nat} {m : MeshBase K}
    (h : makeMesh Cmp.direct pts indices = .ok m) :
    ∀ t ∈ m.tris, area2 t.a t.b t.c ≠ 0 → 0 < area2 t.a t.b t.c := by
  obtain ⟨_, hf, _⟩ := makeMesh_inv h
  intro t ht hn
  obtain ⟨i, _, hi⟩ := forall₂_exists' hf ht
  exact lt_of_le_of_ne hi.2.2.2.2 (Ne.symm hn)

example : makeMesh Cmp.direct [(⟨0, 0⟩ : P2 ℚ), ⟨4, 0⟩, ⟨0, 4⟩, ⟨4, 4⟩] [0, 2, 1, 1, 3, 2, 1, 1, 2, 0] =
    .ok ⟨[⟨0, 0⟩, ⟨4, 0⟩, ⟨0, 4⟩, ⟨4, 4⟩], [⟨0, 1, 2, ⟨0, 0⟩, ⟨4, 0⟩, ⟨0, 4⟩⟩, ⟨1, 3, 2, ⟨4, 0⟩, ⟨4, 4⟩, ⟨0, 4⟩⟩],
      [1 / 2, 1]⟩ := by decide +kernel

/-- C86 refuted: a triangle whose vertices are on one line is kept although it is degenerate, and a mesh of such triangles
divides by zero. -/
theorem C86_degenerate_refuted :
    makeMesh Cmp.direct [(⟨0, 0⟩ : P2 ℚ), ⟨2, 0⟩, ⟨0, 2⟩, ⟨4, 0⟩] [0, 1, 2, 0, 1, 3] =
      .ok ⟨[⟨0, 0⟩, ⟨2, 0⟩, ⟨0, 2⟩, ⟨4, 0⟩], [⟨0, 1, 2, ⟨0, 0⟩, ⟨2, 0⟩, ⟨0, 2⟩⟩, ⟨0, 1, 3, ⟨0, 0⟩, ⟨2, 0⟩, ⟨4, 0⟩⟩],
        [1, 1]⟩ ∧
    area2 (⟨0, 0⟩ : P2 ℚ) ⟨2, 0⟩ ⟨4, 0⟩ = 0 ∧
    makeMesh Cmp.direct [(⟨0, 0⟩ : P2 ℚ), ⟨2, 0⟩, ⟨4, 0⟩] [0, 1, 2] = .error .divByZero := by decide +kernel

/-- C86, the table of areas: its entry for a triangle is the part of the total area that this triangle and those before it
make up. -/
theorem C86_integral {pts : List (P2 K)} {indices : List Nat} {m : MeshBase K}
    (h : makeMesh Cmp.direct pts indices = .ok m) :
    m.integral = (List.range m.tris.length).map fun n => areaShare m.tris (n + 1) := by
  obtain ⟨_, _, hi, _⟩ := makeMesh_inv h
  exact hi

end

/-! ## C87 -/

/-- C87: for three numbers between 0 and 1 and a mesh with a triangle, the position is in a triangle of the mesh, which is
the one whose part of the table of areas has the first number. -/
theorem C87_inside {pts : List (P2 ℝ)} {indices : List Nat} {m : MeshBase ℝ}
    (h : makeMesh Cmp.direct pts indices = .ok m) (hne : m.tris ≠ []) {rT r1 r2 : ℝ} (hT : 0 ≤ rT ∧ rT ≤ 1)
    (h1 : 0 ≤ r1 ∧ r1 ≤ 1) (h2 : 0 ≤ r2 ∧ r2 ≤ 1) :
    ∃ X n t, randomPosition m rT r1 r2 = .ok X ∧ m.tris[n]? = some t ∧ InTriangle t.a t.b t.c X ∧
      (areaShare m.tris n < rT ∨ n = 0) ∧ rT ≤ areaShare m.tris (n + 1) := by
  obtain ⟨_, _, hi, ha⟩ := makeMesh_inv h
  obtain ⟨n, t, e1, e2, e3, e4⟩ := randomPosition_ok (pts := m.points) (ha hne) hT.1 hT.2 h1.1 h2.1
  rw [← hi] at e4
  exact ⟨_, n, t, e4, e1, triPosition_mem t (Real.sqrt_nonneg _) (Real.sqrt_le_one.2 h1.2) h2.1 h2.2, e2, e3⟩

/-- C87, the choice of the triangle: the numbers that select a triangle fill an interval whose length is the part of the
total area that the triangle has. -/
theorem C87_share {pts : List (P2 ℝ)} {indices : List Nat} {m : MeshBase ℝ}
    (h : makeMesh Cmp.direct pts indices = .ok m) {n : Nat} {t : MeshTri ℝ} (ht : m.tris[n]? = some t) :
    0 ≤ areaShare m.tris n ∧ areaShare m.tris (n + 1) ≤ 1 ∧
    areaShare m.tris (n + 1) - areaShare m.tris n = (|area2 t.a t.b t.c| / 2) / (m.tris.map triArea).sum := by
  obtain ⟨_, _, hi, ha⟩ := makeMesh_inv h
  have hl := (List.getElem?_eq_some_iff.1 ht).1
  have hne : m.tris ≠ [] := by intro e; rw [e] at hl; simp at hl
  refine ⟨?_, ?_, areaShare_succ ht⟩
  · rw [← areaShare_zero m.tris]; exact areaShare_mono _ (by omega)
  · rw [← areaShare_length (ha hne)]; exact areaShare_mono _ (by omega)

/-- C87, the position in the triangle: cut the triangle parallel to the side opposite to the first vertex, at the ratio `s`,
and by a line through the first vertex to that side, at the ratio `v`. The position is in the part with the first vertex
and the second exactly if `r1` is at most `s ^ 2` and `r2` at most `v`, and `s ^ 2 * v` is the ratio of the areas: for
numbers that are uniformly distributed the part gets its share. -/
theorem C87_uniform {pts : List (P2 ℝ)} {indices : List Nat} {m : MeshBase ℝ}
    (h : makeMesh Cmp.direct pts indices = .ok m) (hne : m.tris ≠ []) {rT r1 r2 s v : ℝ} (hT : 0 ≤ rT ∧ rT ≤ 1)
    (h1 : 0 < r1 ∧ r1 ≤ 1) (h2 : 0 ≤ r2 ∧ r2 ≤ 1) (hs : 0 < s) (hv : 0 < v) :
    ∃ X n t, randomPosition m rT r1 r2 = .ok X ∧ m.tris[n]? = some t ∧
      (areaShare m.tris n < rT ∨ n = 0) ∧ rT ≤ areaShare m.tris (n + 1) ∧
      area2 t.a (t.a + s • (t.b - t.a)) (t.a + s • ((1 - v) • (t.b - t.a) + v • (t.c - t.a))) =
        s ^ 2 * v * area2 t.a t.b t.c ∧
      (area2 t.a t.b t.c ≠ 0 →
        (InTriangle t.a (t.a + s • (t.b - t.a)) (t.a + s • ((1 - v) • (t.b - t.a) + v • (t.c - t.a))) X ↔
          r1 ≤ s ^ 2 ∧ r2 ≤ v)) := by
  obtain ⟨_, _, hi, ha⟩ := makeMesh_inv h
  obtain ⟨n, t, e1, e2, e3, e4⟩ := randomPosition_ok (pts := m.points) (ha hne) hT.1 hT.2 h1.1.le h2.1
  rw [← hi] at e4
  refine ⟨_, n, t, e4, e1, e2, e3, area2_part _ _ _ _ _, fun hz => ?_⟩
  rw [triPosition_part hz (Real.sqrt_nonneg _) h2.1 h2.2 hs hv, Real.sqrt_le_left hs.le]
  have : Real.sqrt r1 ≠ 0 := (Real.sqrt_pos.2 h1.1).ne'
  tauto

example : ∃ m : MeshBase ℝ, makeMesh Cmp.direct [(⟨0, 0⟩ : P2 ℝ), ⟨4, 0⟩, ⟨0, 4⟩, ⟨4, 4⟩] [0, 2, 1, 1, 3, 2] = .ok m ∧
    m.tris ≠ [] ∧ ∃ t ∈ m.tris, area2 t.a t.b t.c ≠ 0 := by
  refine ⟨⟨[⟨0, 0⟩, ⟨4, 0⟩, ⟨0, 4⟩, ⟨4, 4⟩], [⟨0, 1, 2, ⟨0, 0⟩, ⟨4, 0⟩, ⟨0, 4⟩⟩, ⟨1, 3, 2, ⟨4, 0⟩, ⟨4, 4⟩, ⟨0, 4⟩⟩],
    [1 / 2, 1]⟩, ?_, by simp, ⟨0, 1, 2, ⟨0, 0⟩, ⟨4, 0⟩, ⟨0, 4⟩⟩, by simp, by norm_num [area2]⟩
  norm_num [makeMesh, meshTriples, meshLoop, meshStep, keepTri, getOrientation, getOrientationV, orientationOf, Cmp.direct,
    seqEquals, triWeights, triWeight, polygonArea, signedArea, areaLoop, cross, integralLoop, cdiv,
    (by decide : ¬ (Orient.left = Orient.right))]

/-- C87: without a triangle, or with a number below 0 or a first number above 1, an assertion fails. -/
theorem C87_rejects (m : MeshBase ℝ) (rT r1 r2 : ℝ)
    (h : m.tris = [] ∨ rT < 0 ∨ 1 < rT ∨ r1 < 0 ∨ r2 < 0) : randomPosition m rT r1 r2 = .error .assertFailed := by
  unfold randomPosition
  split_ifs with h1 h2 h3 h4 <;> try rfl
  exfalso
  rcases h with h | h | h | h | h
  · exact h1 h
  all_goals linarith [h2.1, h2.2, h3.1, h4.1]

/-- A negative second number for a mesh of one triangle. -/
example : randomPosition ⟨[⟨0, 0⟩, ⟨1, 0⟩, ⟨0, 1⟩], [⟨0, 1, 2, ⟨0, 0⟩, ⟨1, 0⟩, ⟨0, 1⟩⟩], [1]⟩ (1 / 2) (-1) 0 =
    .error .assertFailed := C87_rejects _ _ _ _ (by norm_num)

/-- C87 refuted where the assertions should stop a number above 1: they test the first number instead of the others, and
the position is outside of the mesh. -/
theorem C87_range_refuted :
    makeMesh Cmp.direct [(⟨0, 0⟩ : P2 ℝ), ⟨1, 0⟩, ⟨0, 1⟩] [0, 1, 2] =
      .ok ⟨[⟨0, 0⟩, ⟨1, 0⟩, ⟨0, 1⟩], [⟨0, 1, 2, ⟨0, 0⟩, ⟨1, 0⟩, ⟨0, 1⟩⟩], [1]⟩ ∧
    randomPosition ⟨[⟨0, 0⟩, ⟨1, 0⟩, ⟨0, 1⟩], [⟨0, 1, 2, ⟨0, 0⟩, ⟨1, 0⟩, ⟨0, 1⟩⟩], [1]⟩ 1 4 0 = .ok ⟨2, 0⟩ ∧
    ¬ InTriangle (⟨0, 0⟩ : P2 ℝ) ⟨1, 0⟩ ⟨0, 1⟩ ⟨2, 0⟩ := by
  have h4 : Real.sqrt 4 = 2 := by rw [show (4 : ℝ) = 2 ^ 2 by norm_num]; exact Real.sqrt_sq (by norm_num)
  refine ⟨?_, ?_, ?_⟩
  · norm_num [makeMesh, meshTriples, meshLoop, meshStep, keepTri, getOrientation, getOrientationV, orientationOf,
      Cmp.direct, seqEquals, triWeights, triWeight, polygonArea, signedArea, areaLoop, cross, integralLoop, cdiv,
    (by decide : ¬ (Orient.left = Orient.right))]
  · norm_num [randomPosition, lowerBound, csqrt, triPosition, h4]
    ext <;> norm_num
  · rintro ⟨a, b, c, ha, hb, hc, hs, e⟩
    have ex := congrArg P2.x e
    simp at ex
    linarith

end Geometrix
