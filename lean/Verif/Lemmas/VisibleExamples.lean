import Verif.Lemmas.VisibleLoop
import Verif.Spec.VisibleSearch
import Mathlib.Tactic.IntervalCases

/-!
# Meshes for the examples of the search
-/

set_option linter.unusedSectionVars false

namespace Geometrix
open Spec

/-- A point is on the border if one direction leads out of all triangles. -/
theorem border_of {tris : List (MeshTri ℝ)} {P d : P2 ℝ}
    (h : ∀ t ∈ tris, ∃ c : P2 ℝ, 0 < dot c d ∧ dot c (t.a - P) ≤ 0 ∧ dot c (t.b - P) ≤ 0 ∧ dot c (t.c - P) ≤ 0) :
    AtMeshBorder tris P := by
  intro r hr
  set n := d.x ^ 2 + d.y ^ 2 + 1 with hn
  have hn1 : 1 ≤ n := by nlinarith [sq_nonneg d.x, sq_nonneg d.y]
  have hn0 : 0 < n := by linarith
  set ε := min 1 (r / (n + 1)) with hε
  have e0 : 0 < ε := lt_min one_pos (by positivity)
  have e1 : ε ≤ 1 := min_le_left _ _
  have e2 : ε * (n + 1) ≤ r := (le_div_iff₀ (by linarith)).1 (min_le_right _ _)
  refine ⟨P + ε • d, ?_, ?_⟩
  · have e : ((P + ε • d).x - P.x) ^ 2 + ((P + ε • d).y - P.y) ^ 2 = ε * (ε * (n - 1)) := by
      simp [hn]; ring
    rw [e]
    have : ε * (n - 1) ≤ 1 * (n - 1) := mul_le_mul_of_nonneg_right e1 (by linarith)
    nlinarith
  · rintro ⟨t, ht, α, β, γ, hα, hβ, hγ, hs, hX⟩
    obtain ⟨c, c0, c1, c2, c3⟩ := h t ht
    have e : dot c (P + ε • d - P) = ε * dot c d := by simp [dot]; ring
    have e' : dot c (P + ε • d - P) = α * dot c (t.a - P) + β * dot c (t.b - P) + γ * dot c (t.c - P) := by
      rw [hX]
      have : γ = 1 - α - β := by linarith
      rw [this]; simp [dot]; ring
    have := mul_pos e0 c0
    nlinarith [mul_nonneg hα (neg_nonneg.2 c1), mul_nonneg hβ (neg_nonneg.2 c2), mul_nonneg hγ (neg_nonneg.2 c3)]

theorem vertex_cases {tris : List (MeshTri ℝ)} {n : Nat} (h : ∀ t ∈ tris, t.i0 < n ∧ t.i1 < n ∧ t.i2 < n) {v : Nat}
    (hv : IsMeshVertex tris v) : v < n := by
  obtain ⟨t, ht, h'⟩ := hv
  obtain ⟨h0, h1, h2⟩ := h t ht
  rcases h' with rfl | rfl | rfl <;> assumption

/-! ## A strip that bends -/

/-- Three triangles; the last vertex is not seen from the origin. -/
def bendMesh : List (MeshTri ℝ) :=
  [⟨0, 1, 2, ⟨-3, -1⟩, ⟨3, -2⟩, ⟨0, 2⟩⟩, ⟨1, 3, 2, ⟨3, -2⟩, ⟨5, 4⟩, ⟨0, 2⟩⟩, ⟨3, 4, 2, ⟨5, 4⟩, ⟨-2, 5⟩, ⟨0, 2⟩⟩]

def bendPoint : Nat → P2 ℝ
  | 0 => ⟨-3, -1⟩
  | 1 => ⟨3, -2⟩
  | 2 => ⟨0, 2⟩
  | 3 => ⟨5, 4⟩
  | _ => ⟨-2, 5⟩


theorem bend_mesh : IsTriMesh bendPoint bendMesh where
  points := by simp [bendMesh, bendPoint]
  ccw := by norm_num [bendMesh, area2]
  fit := by
    intro t ht u hu α β γ hα hβ hγ hs hX
    obtain ⟨a, b, c, ha, hb, hc, hs', e⟩ := hX
    have hx := congrArg P2.x e
    have hy := congrArg P2.y e
    simp only [bendMesh, List.mem_cons, List.not_mem_nil, or_false] at ht hu
    rcases ht with rfl | rfl | rfl <;> rcases hu with rfl | rfl | rfl <;>
      simp only [P2.add_x, P2.add_y, P2.smul_x, P2.smul_y] at hx hy <;>
      refine ⟨fun h => ?_, fun h => ?_, fun h => ?_⟩ <;>
      first
      | (unfold IsCorner; simp; done)
      | (exfalso; linarith)
  once := by
    intro i j s r t u p q hi hj hs hr
    have hi' : i < 3 := (List.getElem?_eq_some_iff.1 hi).1
    have hj' : j < 3 := (List.getElem?_eq_some_iff.1 hj).1
    unfold HasSide at hs hr
    interval_cases i <;> interval_cases j <;> simp [bendMesh, MeshTri.indices] at hi hj <;> subst hi <;> subst hj <;>
      simp only at hs hr <;> omega

theorem bend_line : NoneInLine bendPoint bendMesh ⟨0, 0⟩ := by
  intro v w hv hw hvw
  have hv := vertex_cases (n := 5) (by simp [bendMesh]) hv
  have hw := vertex_cases (n := 5) (by simp [bendMesh]) hw
  interval_cases v <;> interval_cases w <;> first
    | exact absurd rfl hvw
    | norm_num [area2, bendPoint]

theorem bend_border (v : Nat) (hv : IsMeshVertex bendMesh v) : AtMeshBorder bendMesh (bendPoint v) := by
  have hv := vertex_cases (n := 5) (by simp [bendMesh]) hv
  interval_cases v
  · apply border_of (d := ⟨-1, 0⟩)
    intro t ht
    refine ⟨⟨-1, 0⟩, ?_⟩
    simp only [bendMesh, List.mem_cons, List.not_mem_nil, or_false] at ht
    rcases ht with rfl | rfl | rfl <;> norm_num [dot, bendPoint]
  · apply border_of (d := ⟨0, -1⟩)
    intro t ht
    refine ⟨⟨0, -1⟩, ?_⟩
    simp only [bendMesh, List.mem_cons, List.not_mem_nil, or_false] at ht
    rcases ht with rfl | rfl | rfl <;> norm_num [dot, bendPoint]
  · apply border_of (d := ⟨-1, 0⟩)
    intro t ht
    simp only [bendMesh, List.mem_cons, List.not_mem_nil, or_false] at ht
    rcases ht with rfl | rfl | rfl
    · refine ⟨⟨-1, 1⟩, ?_⟩; norm_num [dot, bendPoint]
    · refine ⟨⟨-1, 0⟩, ?_⟩; norm_num [dot, bendPoint]
    · refine ⟨⟨-3, -2⟩, ?_⟩; norm_num [dot, bendPoint]
  · apply border_of (d := ⟨1, 0⟩)
    intro t ht
    refine ⟨⟨1, 0⟩, ?_⟩
    simp only [bendMesh, List.mem_cons, List.not_mem_nil, or_false] at ht
    rcases ht with rfl | rfl | rfl <;> norm_num [dot, bendPoint]
  · apply border_of (d := ⟨0, 1⟩)
    intro t ht
    refine ⟨⟨0, 1⟩, ?_⟩
    simp only [bendMesh, List.mem_cons, List.not_mem_nil, or_false] at ht
    rcases ht with rfl | rfl | rfl <;> norm_num [dot, bendPoint]

theorem bend_inside : InsideTri ⟨0, 1, 2, ⟨-3, -1⟩, ⟨3, -2⟩, ⟨0, 2⟩⟩ ⟨0, 0⟩ := by
  refine ⟨2 / 7, 2 / 7, 3 / 7, by norm_num, by norm_num, by norm_num, by norm_num, ?_⟩
  ext <;> norm_num

/-! ## The square -/

def squarePoint : Nat → P2 ℝ
  | 0 => ⟨-2, -2⟩
  | 1 => ⟨2, -2⟩
  | 2 => ⟨2, 2⟩
  | 3 => ⟨-2, 2⟩
  | _ => ⟨0, 0⟩

theorem square_mesh : IsTriMesh squarePoint squareMesh where
  points := by simp [squareMesh, squarePoint]
  ccw := by norm_num [squareMesh, area2]
  fit := by
    intro t ht u hu α β γ hα hβ hγ hs hX
    obtain ⟨a, b, c, ha, hb, hc, hs', e⟩ := hX
    have hx := congrArg P2.x e
    have hy := congrArg P2.y e
    simp only [squareMesh, List.mem_cons, List.not_mem_nil, or_false] at ht hu
    rcases ht with rfl | rfl | rfl | rfl <;> rcases hu with rfl | rfl | rfl | rfl <;>
      simp only [P2.add_x, P2.add_y, P2.smul_x, P2.smul_y] at hx hy <;>
      refine ⟨fun h => ?_, fun h => ?_, fun h => ?_⟩ <;>
      first
      | (unfold IsCorner; simp; done)
      | (exfalso; linarith)
  once := by
    intro i j s r t u p q hi hj hs hr
    have hi' : i < 4 := (List.getElem?_eq_some_iff.1 hi).1
    have hj' : j < 4 := (List.getElem?_eq_some_iff.1 hj).1
    unfold HasSide at hs hr
    interval_cases i <;> interval_cases j <;> simp [squareMesh, MeshTri.indices] at hi hj <;> subst hi <;> subst hj <;>
      simp only at hs hr <;> omega

theorem square_line : NoneInLine squarePoint squareMesh ⟨0, -1⟩ := by
  intro v w hv hw hvw
  have hv := vertex_cases (n := 5) (by simp [squareMesh]) hv
  have hw := vertex_cases (n := 5) (by simp [squareMesh]) hw
  interval_cases v <;> interval_cases w <;> first
    | exact absurd rfl hvw
    | norm_num [area2, squarePoint]

theorem square_inside : InsideTri ⟨0, 1, 4, ⟨-2, -2⟩, ⟨2, -2⟩, ⟨0, 0⟩⟩ ⟨0, -1⟩ := by
  refine ⟨1 / 4, 1 / 4, 1 / 2, by norm_num, by norm_num, by norm_num, by norm_num, ?_⟩
  ext <;> norm_num

/-! ## The hidden vertex -/

def hiddenPoint : Nat → P2 ℝ
  | 0 => ⟨-1, -2⟩
  | 1 => ⟨2, 1⟩
  | 2 => ⟨0, 1⟩
  | 3 => ⟨0, 2⟩
  | 4 => ⟨-2, 2⟩
  | _ => ⟨1, 4⟩

theorem hidden_mesh : IsTriMesh hiddenPoint hiddenMesh where
  points := by simp [hiddenMesh, hiddenPoint]
  ccw := by norm_num [hiddenMesh, area2]
  fit := by
    intro t ht u hu α β γ hα hβ hγ hs hX
    obtain ⟨a, b, c, ha, hb, hc, hs', e⟩ := hX
    have hx := congrArg P2.x e
    have hy := congrArg P2.y e
    simp only [hiddenMesh, List.mem_cons, List.not_mem_nil, or_false] at ht hu
    rcases ht with rfl | rfl | rfl | rfl <;> rcases hu with rfl | rfl | rfl | rfl <;>
      simp only [P2.add_x, P2.add_y, P2.smul_x, P2.smul_y] at hx hy <;>
      refine ⟨fun h => ?_, fun h => ?_, fun h => ?_⟩ <;>
      first
      | (unfold IsCorner; simp; done)
      | (exfalso; linarith)
  once := by
    intro i j s r t u p q hi hj hs hr
    have hi' : i < 4 := (List.getElem?_eq_some_iff.1 hi).1
    have hj' : j < 4 := (List.getElem?_eq_some_iff.1 hj).1
    unfold HasSide at hs hr
    interval_cases i <;> interval_cases j <;> simp [hiddenMesh, MeshTri.indices] at hi hj <;> subst hi <;> subst hj <;>
      simp only at hs hr <;> omega

theorem hidden_border (v : Nat) (hv : IsMeshVertex hiddenMesh v) : AtMeshBorder hiddenMesh (hiddenPoint v) := by
  have hv := vertex_cases (n := 6) (by simp [hiddenMesh]) hv
  interval_cases v
  · apply border_of (d := ⟨0, -1⟩)
    intro t ht
    refine ⟨⟨0, -1⟩, ?_⟩
    simp only [hiddenMesh, List.mem_cons, List.not_mem_nil, or_false] at ht
    rcases ht with rfl | rfl | rfl | rfl <;> norm_num [dot, hiddenPoint]
  · apply border_of (d := ⟨1, 0⟩)
    intro t ht
    refine ⟨⟨1, 0⟩, ?_⟩
    simp only [hiddenMesh, List.mem_cons, List.not_mem_nil, or_false] at ht
    rcases ht with rfl | rfl | rfl | rfl <;> norm_num [dot, hiddenPoint]
  · apply border_of (d := ⟨-1, 0⟩)
    intro t ht
    simp only [hiddenMesh, List.mem_cons, List.not_mem_nil, or_false] at ht
    rcases ht with rfl | rfl | rfl | rfl
    · refine ⟨⟨-1, 1⟩, ?_⟩; norm_num [dot, hiddenPoint]
    · refine ⟨⟨-1, 0⟩, ?_⟩; norm_num [dot, hiddenPoint]
    · refine ⟨⟨-1, -2⟩, ?_⟩; norm_num [dot, hiddenPoint]
    · refine ⟨⟨-1, -2⟩, ?_⟩; norm_num [dot, hiddenPoint]
  · apply border_of (d := ⟨1, 0⟩)
    intro t ht
    simp only [hiddenMesh, List.mem_cons, List.not_mem_nil, or_false] at ht
    rcases ht with rfl | rfl | rfl | rfl
    · refine ⟨⟨1, 2⟩, ?_⟩; norm_num [dot, hiddenPoint]
    · refine ⟨⟨1, 2⟩, ?_⟩; norm_num [dot, hiddenPoint]
    · refine ⟨⟨1, 2⟩, ?_⟩; norm_num [dot, hiddenPoint]
    · refine ⟨⟨2, -1⟩, ?_⟩; norm_num [dot, hiddenPoint]
  · apply border_of (d := ⟨-1, 0⟩)
    intro t ht
    refine ⟨⟨-1, 0⟩, ?_⟩
    simp only [hiddenMesh, List.mem_cons, List.not_mem_nil, or_false] at ht
    rcases ht with rfl | rfl | rfl | rfl <;> norm_num [dot, hiddenPoint]
  · apply border_of (d := ⟨0, 1⟩)
    intro t ht
    refine ⟨⟨0, 1⟩, ?_⟩
    simp only [hiddenMesh, List.mem_cons, List.not_mem_nil, or_false] at ht
    rcases ht with rfl | rfl | rfl | rfl <;> norm_num [dot, hiddenPoint]

theorem hidden_inside : InsideTri ⟨0, 1, 2, ⟨-1, -2⟩, ⟨2, 1⟩, ⟨0, 1⟩⟩ ⟨0, 0⟩ := by
  refine ⟨1 / 3, 1 / 6, 1 / 2, by norm_num, by norm_num, by norm_num, by norm_num, ?_⟩
  ext <;> norm_num

theorem hidden_unseen : ¬ SeenIn hiddenMesh ⟨0, 0⟩ (hiddenPoint 5) := by
  intro h
  obtain ⟨t, ht, a, b, c, ha, hb, hc, hs, e⟩ := h (1 / 2) (by norm_num) (by norm_num)
  have hx := congrArg P2.x e
  have hy := congrArg P2.y e
  simp only [hiddenMesh, List.mem_cons, List.not_mem_nil, or_false] at ht
  rcases ht with rfl | rfl | rfl | rfl <;> simp [hiddenPoint] at hx hy <;> linarith

end Geometrix
