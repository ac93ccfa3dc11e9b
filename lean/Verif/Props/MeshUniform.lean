import Verif.Lemmas.MeshUniform

/-!
# C87: random positions in a mesh are uniformly distributed
-/

set_option linter.unusedSectionVars false

namespace Geometrix

open Spec MeasureTheory

/-- C87: of all triples of numbers between 0 and 1, the part for which `get_random_position` gives a point of a set is the area of the set within the
triangles, divided by the total area of the triangles. The set is any set with an area (Lebesgue measure). -/
theorem C87_distribution {pts : List (P2 ℝ)} {indices : List Nat} {m : MeshBase ℝ} (h : makeMesh Cmp.direct pts indices = .ok m) (hne : m.tris ≠ [])
    {S : Set (ℝ × ℝ)} (hS : MeasurableSet S) :
    volume {r : ℝ × ℝ × ℝ | (0 ≤ r.1 ∧ r.1 ≤ 1) ∧ (0 ≤ r.2.1 ∧ r.2.1 ≤ 1) ∧ (0 ≤ r.2.2 ∧ r.2.2 ≤ 1) ∧
      ∃ X, randomPosition m r.1 r.2.1 r.2.2 = .ok X ∧ (X.x, X.y) ∈ S} =
    (m.tris.map fun t => volume (S ∩ {z : ℝ × ℝ | InTriangle t.a t.b t.c ⟨z.1, z.2⟩})).sum / ENNReal.ofReal (m.tris.map triArea).sum := by
  obtain ⟨_, _, hi, ha⟩ := makeMesh_inv h
  have := position_volume (pts := m.points) (ha hne) hS
  rw [← hi] at this
  exact this

/-- C87: if the triangles overlap in sets of area zero only, for example in sides, the positions are uniformly distributed in the mesh: the part of the
triples whose position is in a set is the part of the area of the mesh that is in the set. -/
theorem C87_uniform_mesh {pts : List (P2 ℝ)} {indices : List Nat} {m : MeshBase ℝ} (h : makeMesh Cmp.direct pts indices = .ok m) (hne : m.tris ≠ [])
    (hd : m.tris.Pairwise fun s t =>
      volume ({z : ℝ × ℝ | InTriangle s.a s.b s.c ⟨z.1, z.2⟩} ∩ {z | InTriangle t.a t.b t.c ⟨z.1, z.2⟩}) = 0)
    {S : Set (ℝ × ℝ)} (hS : MeasurableSet S) :
    volume {r : ℝ × ℝ × ℝ | (0 ≤ r.1 ∧ r.1 ≤ 1) ∧ (0 ≤ r.2.1 ∧ r.2.1 ≤ 1) ∧ (0 ≤ r.2.2 ∧ r.2.2 ≤ 1) ∧
      ∃ X, randomPosition m r.1 r.2.1 r.2.2 = .ok X ∧ (X.x, X.y) ∈ S} =
    volume (S ∩ {z : ℝ × ℝ | ∃ t ∈ m.tris, InTriangle t.a t.b t.c ⟨z.1, z.2⟩}) /
      volume {z : ℝ × ℝ | ∃ t ∈ m.tris, InTriangle t.a t.b t.c ⟨z.1, z.2⟩} := by
  rw [C87_distribution h hne hS, triangles_volume hd hS]
  congr 1
  have h1 := triangles_volume hd MeasurableSet.univ
  simp only [Set.univ_inter, triangle_volume] at h1
  rw [← h1, sum_map_fin, sum_map_fin]
  exact ENNReal.ofReal_sum_of_nonneg fun i _ => div_nonneg (abs_nonneg _) two_pos.le

/-- A square which is divided by a diagonal. -/
example : ∃ m : MeshBase ℝ, makeMesh Cmp.direct [(⟨0, 0⟩ : P2 ℝ), ⟨1, 0⟩, ⟨1, 1⟩, ⟨0, 1⟩] [0, 1, 2, 0, 2, 3] = .ok m ∧ m.tris.length = 2 ∧ m.tris ≠ [] ∧
    m.tris.Pairwise fun s t => volume ({z : ℝ × ℝ | InTriangle s.a s.b s.c ⟨z.1, z.2⟩} ∩ {z | InTriangle t.a t.b t.c ⟨z.1, z.2⟩}) = 0 := by
  refine ⟨⟨[⟨0, 0⟩, ⟨1, 0⟩, ⟨1, 1⟩, ⟨0, 1⟩], [⟨0, 1, 2, ⟨0, 0⟩, ⟨1, 0⟩, ⟨1, 1⟩⟩, ⟨0, 2, 3, ⟨0, 0⟩, ⟨1, 1⟩, ⟨0, 1⟩⟩], [1 / 2, 1]⟩, ?_, by simp, by simp, ?_⟩
  · norm_num [makeMesh, meshTriples, meshLoop, meshStep, keepTri, getOrientation, getOrientationV, orientationOf,
      Cmp.direct, seqEquals, triWeights, triWeight, polygonArea, signedArea, areaLoop, cross, integralLoop, cdiv,
      (by decide : ¬ (Orient.left = Orient.right))]
  · simp only [List.pairwise_cons, List.mem_cons, List.not_mem_nil, or_false, forall_eq, false_imp_iff, implies_true, List.Pairwise.nil, and_true]
    have h0 := triangle_volume (⟨0, 0, 0, ⟨0, 0⟩, ⟨1, 1⟩, ⟨1, 1⟩⟩ : MeshTri ℝ)
    norm_num [triArea, area2] at h0
    refine measure_mono_null ?_ h0
    rintro z ⟨⟨a, b, c, ha, hb, hc, hs, hz⟩, a', b', c', ha', hb', hc', hs', hz'⟩
    have e1 := congrArg P2.x hz
    have e2 := congrArg P2.y hz
    have e3 := congrArg P2.x hz'
    have e4 := congrArg P2.y hz'
    simp at e1 e2 e3 e4
    refine ⟨1 - c, c, 0, by linarith, hc, le_rfl, by ring, ?_⟩
    ext
    · simp; linarith
    · simp; linarith

end Geometrix
