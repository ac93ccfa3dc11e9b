import Verif.Lemmas.MeshCache

/-!
# C90: finding the triangle of a point
-/

set_option linter.unusedSectionVars false

namespace Geometrix
open Spec

/-- C90, the constructor of `mesh_2d`: with at least one triangle, of which one is not flat, and coordinates that differ by
less than about `2 ^ 32` the mesh is made. -/
theorem C90_construct {pts : List (P2 ℝ)} {indices : List Nat} {b : MeshBase ℝ}
    (h : makeMesh Cmp.direct pts indices = .ok b) (hne : b.tris ≠ [])
    (hext : ∀ p ∈ pts, ∀ q ∈ pts, p.x - q.x ≤ 2 ^ 32 - 6 ∧ p.y - q.y ≤ 2 ^ 32 - 6) :
    ∃ m, makeMesh2d Cmp.direct pts indices = .ok m ∧ m.base = b ∧ m.adj = adjacency (b.tris.map MeshTri.indices) := by
  obtain ⟨c, h1, _⟩ := makeMesh2d_ok h hne hext
  exact ⟨_, h1, rfl, rfl⟩

/-- C90, any mesh: `find_triangle` answers for every point. It answers with no triangle only if the point is in none. A
triangle that is the answer is the first that has the point, or it is flat, the point is on its line and in none of the
triangles before it. Missing from the full property: the latter does not happen. -/
theorem C90_find_partial {pts : List (P2 ℝ)} {indices : List Nat} {m : Mesh}
    (h : makeMesh2d Cmp.direct pts indices = .ok m)
    (hext : ∀ p ∈ pts, ∀ q ∈ pts, p.x - q.x ≤ 2 ^ 32 - 6 ∧ p.y - q.y ≤ 2 ^ 32 - 6) (p : P2 ℝ) :
    ∃ r, m.findTriangle Cmp.direct p = .ok r ∧
      (r = none → ∀ t ∈ m.base.tris, ¬ InMeshTri t p) ∧
      ∀ n, r = some n → (∃ t, m.base.tris[n]? = some t ∧
          (InMeshTri t p ∨ (area2 t.a t.b t.c = 0 ∧ area2 t.a t.b p = 0))) ∧
        ∀ k < n, ∀ t, m.base.tris[k]? = some t → ¬ InMeshTri t p := by
  obtain ⟨hb, hc⟩ := makeMesh2d_inv h hext
  have hT := mesh_vertices hb
  have h0 := mesh_area hb
  obtain ⟨s, e, h1, h2, h3, _⟩ := cache_find hc hT p
  have hin : ∀ t ∈ m.base.tris, InMeshTri t p → pointInTriangle Cmp.direct p t.a t.b t.c = true := by
    intro t ht hp
    rw [pointInTriangle_iff]
    exact inTriangle_area2 (h0 t ht) hp
  unfold Mesh.findTriangle
  rw [e]
  dsimp only
  rcases findTriangleLoop_ok p h1 h2 with ⟨e, hn⟩ | ⟨n, hn, t, e, e2, e3, hk⟩
  · refine ⟨none, e, fun _ t ht hp => ?_, fun n hn => by simp at hn⟩
    obtain ⟨k, hk⟩ := List.mem_iff_getElem?.1 ht
    have := hn k (h3 k t hk hp) t hk
    rw [hin t ht hp] at this
    simp at this
  · refine ⟨some n, e, fun h => by simp at h, fun n' hn' => ?_⟩
    obtain rfl := Option.some.inj hn'
    refine ⟨⟨t, e2, ?_⟩, fun k hlt u hu hp => ?_⟩
    · rw [pointInTriangle_iff] at e3
      rcases eq_or_lt_of_le (h0 t (List.mem_of_getElem? e2)) with hz | hz
      · refine Or.inr ⟨hz.symm, ?_⟩
        have hs : area2 t.a t.b p + area2 t.b t.c p + area2 t.c t.a p = area2 t.a t.b t.c := by unfold area2; ring
        linarith [e3.1, e3.2.1, e3.2.2]
      · exact Or.inl ((inTriangle_iff_signed (Or.inl rfl) (by rw [one_mul]; exact hz) p).2 (by simpa only [one_mul] using e3))
    · have := hk k (h3 k u hu hp) hlt u hu
      rw [hin u (List.mem_of_getElem? hu) hp] at this
      simp at this

/-- C90: in a mesh without flat triangles `find_triangle` answers with the first triangle that has the point, and with no
triangle if there is none. -/
theorem C90_find {pts : List (P2 ℝ)} {indices : List Nat} {m : Mesh}
    (h : makeMesh2d Cmp.direct pts indices = .ok m)
    (hext : ∀ p ∈ pts, ∀ q ∈ pts, p.x - q.x ≤ 2 ^ 32 - 6 ∧ p.y - q.y ≤ 2 ^ 32 - 6)
    (hflat : ∀ t ∈ m.base.tris, area2 t.a t.b t.c ≠ 0) (p : P2 ℝ) :
    ((∀ t ∈ m.base.tris, ¬ InMeshTri t p) → m.findTriangle Cmp.direct p = .ok none) ∧
    ∀ n t, m.base.tris[n]? = some t → InMeshTri t p → (∀ k < n, ∀ u, m.base.tris[k]? = some u → ¬ InMeshTri u p) →
      m.findTriangle Cmp.direct p = .ok (some n) := by
  obtain ⟨r, e, h1, h2⟩ := C90_find_partial h hext p
  have h3 : ∀ n, r = some n → (∃ t, m.base.tris[n]? = some t ∧ InMeshTri t p) ∧
      ∀ k < n, ∀ t, m.base.tris[k]? = some t → ¬ InMeshTri t p := by
    intro n hn
    obtain ⟨⟨t, k1, k2⟩, k3⟩ := h2 n hn
    exact ⟨⟨t, k1, k2.resolve_right fun hz => hflat t (List.mem_of_getElem? k1) hz.1⟩, k3⟩
  rw [e]
  refine ⟨fun hn => ?_, fun n t ht hp hf => ?_⟩
  · cases hr : r with
    | none => rfl
    | some n =>
      obtain ⟨⟨t, k1, k2⟩, _⟩ := h3 n hr
      exact absurd k2 (hn t (List.mem_of_getElem? k1))
  · cases hr : r with
    | none => exact absurd hp (h1 hr t (List.mem_of_getElem? ht))
    | some k =>
      obtain ⟨⟨u, k1, k2⟩, k3⟩ := h3 k hr
      rcases lt_trichotomy k n with hlt | rfl | hlt
      · exact absurd k2 (hf k hlt u k1)
      · rfl
      · exact absurd hp (k3 n hlt t ht)

/-- The hypotheses hold for a square of two triangles. -/
example : ∃ m, makeMesh2d Cmp.direct [(⟨0, 0⟩ : P2 ℝ), ⟨4, 0⟩, ⟨0, 4⟩, ⟨4, 4⟩] [0, 2, 1, 1, 3, 2] = .ok m ∧
    (∀ p ∈ [(⟨0, 0⟩ : P2 ℝ), ⟨4, 0⟩, ⟨0, 4⟩, ⟨4, 4⟩], ∀ q ∈ [(⟨0, 0⟩ : P2 ℝ), ⟨4, 0⟩, ⟨0, 4⟩, ⟨4, 4⟩],
      p.x - q.x ≤ 2 ^ 32 - 6 ∧ p.y - q.y ≤ 2 ^ 32 - 6) ∧ (∀ t ∈ m.base.tris, area2 t.a t.b t.c ≠ 0) ∧
    InMeshTri (⟨1, 3, 2, ⟨4, 0⟩, ⟨4, 4⟩, ⟨0, 4⟩⟩ : MeshTri ℝ) ⟨3, 3⟩ := by
  have h : makeMesh Cmp.direct [(⟨0, 0⟩ : P2 ℝ), ⟨4, 0⟩, ⟨0, 4⟩, ⟨4, 4⟩] [0, 2, 1, 1, 3, 2] =
      .ok ⟨[⟨0, 0⟩, ⟨4, 0⟩, ⟨0, 4⟩, ⟨4, 4⟩], [⟨0, 1, 2, ⟨0, 0⟩, ⟨4, 0⟩, ⟨0, 4⟩⟩, ⟨1, 3, 2, ⟨4, 0⟩, ⟨4, 4⟩, ⟨0, 4⟩⟩],
        [1 / 2, 1]⟩ := by
    norm_num [makeMesh, meshTriples, meshLoop, meshStep, keepTri, getOrientation, getOrientationV, orientationOf,
      Cmp.direct, seqEquals, triWeights, triWeight, polygonArea, signedArea, areaLoop, cross, integralLoop, cdiv,
      (by decide : ¬ (Orient.left = Orient.right))]
  have hext : ∀ p ∈ [(⟨0, 0⟩ : P2 ℝ), ⟨4, 0⟩, ⟨0, 4⟩, ⟨4, 4⟩], ∀ q ∈ [(⟨0, 0⟩ : P2 ℝ), ⟨4, 0⟩, ⟨0, 4⟩, ⟨4, 4⟩],
      p.x - q.x ≤ 2 ^ 32 - 6 ∧ p.y - q.y ≤ 2 ^ 32 - 6 := by
    norm_num
  obtain ⟨m, h1, h2, _⟩ := C90_construct h (by simp) hext
  refine ⟨m, h1, hext, ?_, 1 / 4, 1 / 2, 1 / 4, by norm_num, by norm_num, by norm_num, by norm_num, by ext <;> norm_num⟩
  rw [h2]
  norm_num [area2]

/-- C90 refuted: the point is in no triangle of the mesh, but on the line of a flat one, in whose cell it is; the flat triangle
is the answer. -/
theorem C90_flat_refuted :
    ∃ m, makeMesh2d Cmp.direct [(⟨1 / 5, 1 / 2⟩ : P2 ℝ), ⟨1 / 4, 1 / 2⟩, ⟨3 / 10, 1 / 2⟩, ⟨0, 0⟩, ⟨3, 4⟩, ⟨0, 4⟩]
        [0, 1, 2, 3, 4, 5] = .ok m ∧
      (∀ t ∈ m.base.tris, ¬ InMeshTri t ⟨1, 1 / 2⟩) ∧ m.findTriangle Cmp.direct ⟨1, 1 / 2⟩ = .ok (some 0) := by
  have h : makeMesh Cmp.direct [(⟨1 / 5, 1 / 2⟩ : P2 ℝ), ⟨1 / 4, 1 / 2⟩, ⟨3 / 10, 1 / 2⟩, ⟨0, 0⟩, ⟨3, 4⟩, ⟨0, 4⟩]
        [0, 1, 2, 3, 4, 5] =
      .ok ⟨[(⟨1 / 5, 1 / 2⟩ : P2 ℝ), ⟨1 / 4, 1 / 2⟩, ⟨3 / 10, 1 / 2⟩, ⟨0, 0⟩, ⟨3, 4⟩, ⟨0, 4⟩],
        [⟨0, 1, 2, ⟨1 / 5, 1 / 2⟩, ⟨1 / 4, 1 / 2⟩, ⟨3 / 10, 1 / 2⟩⟩, ⟨3, 4, 5, ⟨0, 0⟩, ⟨3, 4⟩, ⟨0, 4⟩⟩],
        [0, 1]⟩ := by
    norm_num [makeMesh, meshTriples, meshLoop, meshStep, keepTri, getOrientation, getOrientationV, orientationOf,
      Cmp.direct, seqEquals, triWeights, triWeight, polygonArea, signedArea, areaLoop, cross, integralLoop, cdiv,
      (by decide : ¬ (Orient.left = Orient.right)), (by decide : ¬ (Orient.collinear = Orient.right))]
  have hext : ∀ p ∈ [(⟨1 / 5, 1 / 2⟩ : P2 ℝ), ⟨1 / 4, 1 / 2⟩, ⟨3 / 10, 1 / 2⟩, ⟨0, 0⟩, ⟨3, 4⟩, ⟨0, 4⟩],
      ∀ q ∈ [(⟨1 / 5, 1 / 2⟩ : P2 ℝ), ⟨1 / 4, 1 / 2⟩, ⟨3 / 10, 1 / 2⟩, ⟨0, 0⟩, ⟨3, 4⟩, ⟨0, 4⟩],
      p.x - q.x ≤ 2 ^ 32 - 6 ∧ p.y - q.y ≤ 2 ^ 32 - 6 := by
    norm_num
  obtain ⟨c, h1, hc⟩ := makeMesh2d_ok h (by simp) hext
  obtain ⟨s, e, k1, k2, _, k4⟩ := cache_find hc (mesh_vertices h) ⟨1, 1 / 2⟩
  have hb : getBounds Cmp.direct [(⟨1 / 5, 1 / 2⟩ : P2 ℝ), ⟨1 / 4, 1 / 2⟩, ⟨3 / 10, 1 / 2⟩, ⟨0, 0⟩, ⟨3, 4⟩, ⟨0, 4⟩] =
      some ⟨⟨0, 0⟩, ⟨3, 4⟩⟩ := by
    norm_num [getBounds, boundsStep, Cmp.direct]
  have h5 : Real.sqrt (normSq ((⟨0, 0⟩ : P2 ℝ) - ⟨3, 4⟩)) = 5 := by
    have : normSq ((⟨0, 0⟩ : P2 ℝ) - ⟨3, 4⟩) = 5 ^ 2 := by norm_num [normSq, dot]
    rw [this]; exact Real.sqrt_sq (by norm_num)
  have hxy : c.traits.xmin = -(3 / 5) * Real.sqrt 2 ∧ c.traits.ymin = -(4 / 5) * Real.sqrt 2 := by
    obtain ⟨b, d, e1, e2, e3, e4⟩ := hc.corner
    rw [hb] at e1
    obtain rfl := Option.some.inj e1
    have e5 : normalize2 ((⟨0, 0⟩ : P2 ℝ) - ⟨3, 4⟩) = .ok ((1 / 5 : ℝ) • ((⟨0, 0⟩ : P2 ℝ) - ⟨3, 4⟩)) := by
      unfold normalize2
      rw [h5, if_neg (by norm_num)]
    unfold cacheBounds at e2
    dsimp only at e2
    rw [e5] at e2
    dsimp only at e2
    split at e2
    · simp at e2
    · obtain rfl := Except.ok.inj e2
      rw [e3, e4]
      constructor
      · simp only [P2.add_x, P2.smul_x, P2.sub_x]; ring
      · simp only [P2.add_y, P2.smul_y, P2.sub_y]; ring
  have s1 : (1.41 : ℝ) < Real.sqrt 2 := by rw [Real.lt_sqrt (by norm_num)]; norm_num
  have s2 : Real.sqrt 2 < 1.42 := by rw [Real.sqrt_lt' (by norm_num)]; norm_num
  have hbox : InBox (gridBox c.traits) ⟨1, 1 / 2⟩ := by
    have a := hc.inside ⟨0, 0⟩ (by simp)
    have b := hc.inside ⟨3, 4⟩ (by simp)
    unfold InBox at a b ⊢
    dsimp only at a b ⊢
    refine ⟨?_, ?_, ?_, ?_⟩ <;> linarith [a.1, a.2.2.1, b.2.1, b.2.2.2]
  have h0 := k4 0 ⟨0, 1, 2, ⟨1 / 5, 1 / 2⟩, ⟨1 / 4, 1 / 2⟩, ⟨3 / 10, 1 / 2⟩⟩ ⟨1 / 5, 1 / 2⟩ rfl
    ⟨1, 0, 0, by norm_num, by norm_num, by norm_num, by norm_num, by ext <;> simp⟩ hbox (by
      rw [hxy.1]
      dsimp only
      rw [(Nat.floor_eq_iff (n := 1) (by linarith)).2 ⟨by push_cast; linarith, by push_cast; linarith⟩,
        (Nat.floor_eq_iff (n := 1) (by linarith)).2 ⟨by push_cast; linarith, by push_cast; linarith⟩]) rfl
  have hp : pointInTriangle Cmp.direct (⟨1, 1 / 2⟩ : P2 ℝ) ⟨1 / 5, 1 / 2⟩ ⟨1 / 4, 1 / 2⟩ ⟨3 / 10, 1 / 2⟩ = true := by
    rw [pointInTriangle_iff]; norm_num [area2]
  refine ⟨_, h1, ?_, ?_⟩
  · intro t ht
    simp only [List.mem_cons, List.not_mem_nil, or_false] at ht
    rcases ht with rfl | rfl
    · rintro ⟨x, y, z, hx, hy, hz, hs, e⟩
      have ex := congrArg P2.x e
      simp at ex
      linarith
    · rintro ⟨x, y, z, hx, hy, hz, hs, e⟩
      have ex := congrArg P2.x e
      have ey := congrArg P2.y e
      simp at ex ey
      linarith
  · unfold Mesh.findTriangle
    dsimp only
    rw [e]
    dsimp only
    rcases findTriangleLoop_ok ⟨1, 1 / 2⟩ k1 k2 with ⟨_, hn⟩ | ⟨n, hn, t, e1, e2, e3, hk⟩
    · have := hn 0 h0 _ rfl
      rw [hp] at this
      simp at this
    · rcases Nat.eq_zero_or_pos n with rfl | hpos
      · exact e1
      · have := hk 0 h0 hpos _ rfl
        rw [hp] at this
        simp at this

end Geometrix
