import Verif.Lemmas.VisibleMesh

/-!
# One side in the search for the visible vertices
-/

set_option linter.unusedSectionVars false

namespace Geometrix
open Spec

/-- Every index has one point. -/
def PointsOf (p : Nat → P2 ℝ) (tris : List (MeshTri ℝ)) : Prop :=
  ∀ t ∈ tris, t.a = p t.i0 ∧ t.b = p t.i1 ∧ t.c = p t.i2

variable {p : Nat → P2 ℝ} {tris : List (MeshTri ℝ)} {O : P2 ℝ}

theorem vertex_eq (hp : PointsOf p tris) {t : MeshTri ℝ} (ht : t ∈ tris) {s : Nat} (hs : s < 3) :
    t.vertex s = p (triIndex t.indices s) := by
  obtain ⟨h0, h1, h2⟩ := hp t ht
  have : s = 0 ∨ s = 1 ∨ s = 2 := by omega
  rcases this with rfl | rfl | rfl
  · exact h0
  · exact h1
  · exact h2

theorem hasSide_index {t : Nat × Nat × Nat} {s u w : Nat} (h : HasSide t s u w) :
    s < 3 ∧ triIndex t s = u ∧ triIndex t ((s + 1) % 3) = w := by
  rcases h with ⟨rfl, rfl, rfl⟩ | ⟨rfl, rfl, rfl⟩ | ⟨rfl, rfl, rfl⟩
  · exact ⟨by omega, rfl, rfl⟩
  · exact ⟨by omega, rfl, rfl⟩
  · exact ⟨by omega, rfl, rfl⟩

theorem hasSide_unique {t : Nat × Nat × Nat} {s u w u' w' : Nat} (h : HasSide t s u w) (h' : HasSide t s u' w') :
    u = u' ∧ w = w' := by
  obtain ⟨-, a, b⟩ := hasSide_index h
  obtain ⟨-, a', b'⟩ := hasSide_index h'
  exact ⟨a.symm.trans a', b.symm.trans b'⟩

theorem map_get {n : Nat} {t : Nat × Nat × Nat} (h : (tris.map MeshTri.indices)[n]? = some t) :
    ∃ T, tris[n]? = some T ∧ T ∈ tris ∧ T.indices = t := by
  rw [List.getElem?_map, Option.map_eq_some_iff] at h
  obtain ⟨T, h1, h2⟩ := h
  exact ⟨T, h1, List.mem_of_getElem? h1, h2⟩

theorem adj_rot {ts : List (Nat × Nat × Nat)} {n s u w n' r : Nat} {t : Nat × Nat × Nat} (ht : ts[n]? = some t)
    (hs : HasSide t s u w) (h : Across ts n s n' r) : ∃ l, Rot ts n' w u l := by
  obtain ⟨t1, u1, a, b, h1, h2, h3, h4⟩ := h
  rw [ht, Option.some.injEq] at h1
  subst h1
  obtain ⟨rfl, rfl⟩ := hasSide_unique hs h3
  exact rot_of_side h2 h4

theorem side_none {I : SearchItem} {t : Nat × Nat × Nat} {s u w : Nat}
    (ht : (tris.map MeshTri.indices)[I.target]? = some t) (hs : HasSide t s u w)
    (h : ∀ n' l, Rot (tris.map MeshTri.indices) n' w u l → n' = I.source) : searchSide tris O I s = .ok [] := by
  unfold searchSide
  rw [if_neg]
  rintro ⟨h1, h2⟩
  rcases adjacency_sound (tris.map MeshTri.indices) I.target s with h' | ⟨r, h'⟩
  · exact h1 h'
  · obtain ⟨l, hl⟩ := adj_rot ht hs h'
    exact h2 (h _ _ hl)

/-- The side that two triangles have in common. -/
theorem mesh_common_side {q : Nat → P2 ℝ} {ts : List (Nat × Nat × Nat)} (M : VMesh q ts) {n n' u w k l : Nat}
    (h : Rot ts n u w k) (h' : Rot ts n' w u l) {t t' : Nat × Nat × Nat} (ht : ts[n]? = some t) (ht' : ts[n']? = some t')
    {s r a b : Nat} (h1 : HasSide t s a b) (h2 : HasSide t' r b a) : a = u ∧ b = w := by
  have c1 := h.ccw M
  have c2 := h'.ccw M
  have n1 := h.ne M
  have n2 := h.rotate.ne M
  have n3 := h.rotate.rotate.ne M
  have n4 := h'.rotate.ne M
  have n5 := h'.rotate.rotate.ne M
  have hkl : k ≠ l := by
    rintro rfl
    rw [area_flip] at c2
    linarith
  rcases rot_sides h ht h1 with ⟨rfl, rfl⟩ | ⟨rfl, rfl⟩ | ⟨rfl, rfl⟩
  · exact ⟨rfl, rfl⟩
  · exfalso
    rcases rot_sides h' ht' h2 with ⟨h3, h4⟩ | ⟨h3, h4⟩ | ⟨h3, h4⟩ <;> omega
  · exfalso
    rcases rot_sides h' ht' h2 with ⟨h3, h4⟩ | ⟨h3, h4⟩ | ⟨h3, h4⟩ <;> omega

theorem side_some (hp : PointsOf p tris) {q : Nat → P2 ℝ} (M : VMesh q (tris.map MeshTri.indices)) {I : SearchItem}
    {t : Nat × Nat × Nat} {s u w n' l : Nat} (ht : (tris.map MeshTri.indices)[I.target]? = some t) (hs : HasSide t s u w)
    (h : Rot (tris.map MeshTri.indices) n' w u l) (hne : n' ≠ I.source) :
    searchSide tris O I s =
      (match I.cone with
      | none => .ok (nextCone O I n' (orderSide O (p u) (p w)).1 (orderSide O (p u) (p w)).2).toList
      | some c =>
        match segInRange (orderSide O (p u) (p w)).1 (orderSide O (p u) (p w)).2 c.1 c.2 O with
        | .error e => .error e
        | .ok false => .ok []
        | .ok true => .ok (nextCone O I n' (orderSide O (p u) (p w)).1 (orderSide O (p u) (p w)).2).toList) := by
  obtain ⟨k, hk⟩ := rot_of_side ht hs
  obtain ⟨t', r, ht', hr3, hr⟩ := side_of_rot h
  have hac : Across (tris.map MeshTri.indices) I.target s n' r := ⟨t, t', u, w, ht, ht', hs, hr⟩
  obtain ⟨r', hr'⟩ := adjacency_complete hac
  have hadj : adjacency (tris.map MeshTri.indices) I.target s = n' := (across_unique M.once hr' hac).1
  have hno : n' ≠ noTriangle := by
    have := (across_lt hac).2.2.1
    have := M.len
    omega
  obtain ⟨T, hT, hTm, hTi⟩ := map_get ht
  obtain ⟨T', hT', hTm', hTi'⟩ := map_get ht'
  have hside : adjacentSide T.indices T'.indices = .ok s := by
    rw [hTi, hTi']
    rcases adjacentSide_spec t t' with ⟨s', e, ⟨r1, a, b, h1, h2⟩, -⟩ | ⟨-, h1⟩
    · rw [e]
      obtain ⟨rfl, rfl⟩ := mesh_common_side M hk h ht ht' h1 h2
      rw [(M.once _ _ s' s t t a b ht ht h1 hs).2]
    · exact absurd ⟨s, r, u, w, hs, hr⟩ h1
  obtain ⟨hs3, i1, i2⟩ := hasSide_index hs
  have v1 : T.vertex s = p u := by rw [vertex_eq hp hTm hs3, hTi, i1]
  have v2 : T.vertex ((s + 1) % 3) = p w := by rw [vertex_eq hp hTm (Nat.mod_lt _ (by omega)), hTi, i2]
  unfold searchSide
  simp only [hadj]
  rw [if_pos ⟨hno, hne⟩]
  unfold prepareAdjacent
  simp only [hT, hT', hside, v1, v2]
  cases I.cone with
  | none => rfl
  | some c =>
    obtain ⟨lo, hi⟩ := c
    dsimp only
    cases segInRange (orderSide O (p u) (p w)).1 (orderSide O (p u) (p w)).2 lo hi O with
    | error e => rfl
    | ok b => cases b <;> rfl

theorem orientV_left_iff (a b : P2 ℝ) : getOrientationV Cmp.direct a b = .left ↔ 0 < cross a b := by
  have h := (orientation_sign (0 : P2 ℝ) a b).1
  have e : getOrientation Cmp.direct (0 : P2 ℝ) a b = getOrientationV Cmp.direct a b := by
    unfold getOrientation
    congr 1 <;> (ext <;> simp)
  rw [e] at h
  rw [h]
  simp [area2, cross]

theorem orderSide_front {P Q : P2 ℝ} (h : 0 < cross (P - O) (Q - O)) : orderSide O P Q = (P, Q) := by
  unfold orderSide
  have e : cross (Q - P) (O - P) = cross (P - O) (Q - O) := by simp [cross]; ring
  rw [e, if_neg (not_lt.2 h.le)]

theorem orderSide_back {P Q : P2 ℝ} (h : cross (P - O) (Q - O) < 0) : orderSide O P Q = (Q, P) := by
  unfold orderSide
  have e : cross (Q - P) (O - P) = cross (P - O) (Q - O) := by simp [cross]; ring
  rw [e, if_pos h]

theorem ne_of_sub_ne {P : P2 ℝ} (h : P - O ≠ 0) : O ≠ P := by
  rintro rfl
  exact h (by ext <;> simp)

/-- Neither end is strictly in the cone: the cone does not change. -/
theorem nextCone_same {I : SearchItem} {lo hi P Q : P2 ℝ} {n' : Nat} (hc : I.cone = some (lo, hi)) (h : 0 < cross lo hi)
    (hP : P - O ≠ 0) (hQ : Q - O ≠ 0) (h1 : ¬ (0 < cross lo (P - O) ∧ 0 < cross (P - O) hi))
    (h2 : ¬ (0 < cross lo (Q - O) ∧ 0 < cross (Q - O) hi)) :
    nextCone O I n' P Q = some ⟨I.target, n', some (lo, hi)⟩ := by
  unfold nextCone
  rw [if_pos ⟨ne_of_sub_ne hP, ne_of_sub_ne hQ⟩]
  simp only [hc, strictly_between_iff h, h1, h2, if_false]
  rw [if_neg]
  rw [orientV_left_iff, cross_anti]
  linarith

theorem nextCone_hi {I : SearchItem} {lo hi P Q : P2 ℝ} {n' : Nat} (hc : I.cone = some (lo, hi)) (h : 0 < cross lo hi)
    (hP : P - O ≠ 0) (hQ : Q - O ≠ 0) (h1 : ¬ (0 < cross lo (P - O) ∧ 0 < cross (P - O) hi))
    (h2 : 0 < cross lo (Q - O) ∧ 0 < cross (Q - O) hi) :
    nextCone O I n' P Q = some ⟨I.target, n', some (lo, Q - O)⟩ := by
  unfold nextCone
  rw [if_pos ⟨ne_of_sub_ne hP, ne_of_sub_ne hQ⟩]
  simp only [hc, strictly_between_iff h, h1, if_false]
  rw [if_pos h2, if_neg]
  rw [orientV_left_iff, cross_anti]
  linarith [h2.1]

theorem nextCone_lo {I : SearchItem} {lo hi P Q : P2 ℝ} {n' : Nat} (hc : I.cone = some (lo, hi)) (h : 0 < cross lo hi)
    (hP : P - O ≠ 0) (hQ : Q - O ≠ 0) (h1 : 0 < cross lo (P - O) ∧ 0 < cross (P - O) hi)
    (h2 : ¬ (0 < cross lo (Q - O) ∧ 0 < cross (Q - O) hi)) :
    nextCone O I n' P Q = some ⟨I.target, n', some (P - O, hi)⟩ := by
  unfold nextCone
  rw [if_pos ⟨ne_of_sub_ne hP, ne_of_sub_ne hQ⟩]
  simp only [hc, strictly_between_iff h, h2, if_false]
  rw [if_pos h1, if_neg]
  rw [orientV_left_iff, cross_anti]
  linarith [h1.2]

theorem nextCone_start {I : SearchItem} {P Q : P2 ℝ} {n' : Nat} (hc : I.cone = none) (h : 0 < cross (P - O) (Q - O))
    (hP : P - O ≠ 0) (hQ : Q - O ≠ 0) : nextCone O I n' P Q = some ⟨I.target, n', some (P - O, Q - O)⟩ := by
  unfold nextCone
  rw [if_pos ⟨ne_of_sub_ne hP, ne_of_sub_ne hQ⟩]
  simp only [hc]
  rw [if_neg]
  rw [orientV_left_iff, cross_anti]
  linarith

/-- An end in the cone. -/
theorem range_first {P Q lo hi : P2 ℝ} (h1 : 0 ≤ cross lo (P - O)) (h2 : 0 ≤ cross (P - O) hi) :
    segInRange P Q lo hi O = .ok true := by
  unfold segInRange
  rw [if_pos ⟨h1, by rw [cross_anti]; linarith⟩]

theorem range_second {P Q lo hi : P2 ℝ} (h1 : 0 ≤ cross lo (Q - O)) (h2 : 0 ≤ cross (Q - O) hi) :
    segInRange P Q lo hi O = .ok true := by
  unfold segInRange
  have h3 : cross lo (Q - O) ≥ 0 ∧ cross hi (Q - O) ≤ 0 := ⟨h1, by rw [cross_anti]; linarith⟩
  dsimp only
  rw [if_pos h3, ite_self]

theorem range_right {P Q lo hi : P2 ℝ} (h1 : cross lo (P - O) < 0) (h2 : cross lo (Q - O) < 0) :
    segInRange P Q lo hi O = .ok false := by
  unfold segInRange
  rw [if_neg (fun h => absurd h.1 (not_le.2 h1)), if_neg (fun h => absurd h.1 (not_le.2 h2)), if_pos (Or.inr ⟨h1, h2⟩)]

theorem range_left {P Q lo hi : P2 ℝ} (h1 : cross (P - O) hi < 0) (h2 : cross (Q - O) hi < 0) :
    segInRange P Q lo hi O = .ok false := by
  have h1' : 0 < cross hi (P - O) := by rw [cross_anti]; linarith
  have h2' : 0 < cross hi (Q - O) := by rw [cross_anti]; linarith
  unfold segInRange
  rw [if_neg (fun h => absurd h.2 (not_le.2 h1')), if_neg (fun h => absurd h.2 (not_le.2 h2')),
    if_pos (Or.inl ⟨h1', h2'⟩)]

/-- A segment that surrounds the cone. -/
theorem range_around {P Q lo hi : P2 ℝ} (h : 0 < cross lo hi) (hPQ : 0 < cross (P - O) (Q - O))
    (h1 : 0 ≤ cross (P - O) lo) (h2 : 0 < cross lo (Q - O)) : segInRange P Q lo hi O = .ok true := by
  obtain ⟨r, e, hr⟩ := segInRange_spec (A := P) (B := Q) (O := O) h
  rw [e]
  congr 1
  rw [hr]
  left
  -- the point in which the ray meets the segment
  have hs : 0 < cross (P - O) lo + cross lo (Q - O) := by linarith
  refine ⟨P + (cross (P - O) lo / (cross (P - O) lo + cross lo (Q - O))) • (Q - P), ⟨_, by positivity,
    (div_le_one hs).2 (by linarith), rfl⟩, cross (P - O) (Q - O) / (cross (P - O) lo + cross lo (Q - O)), 0,
    by positivity, le_rfl, ?_⟩
  ext
  · simp only [P2.add_x, P2.smul_x, P2.sub_x, zero_mul, add_zero]
    field_simp
    simp only [cross, P2.sub_x, P2.sub_y]; ring
  · simp only [P2.add_y, P2.smul_y, P2.sub_y, zero_mul, add_zero]
    field_simp
    simp only [cross, P2.sub_x, P2.sub_y]; ring

/-- The vertices that the visit of a triangle reports. -/
theorem visit_spec (hp : PointsOf p tris) {I : SearchItem} {lo hi : P2 ℝ} (hc : I.cone = some (lo, hi))
    (h : 0 < cross lo hi) {t f : Nat × Nat × Nat} (ht : (tris.map MeshTri.indices)[I.target]? = some t)
    (hf : (tris.map MeshTri.indices)[I.source]? = some f) : ∃ L, searchVisit tris O I = .ok L ∧
    ∀ v, v ∈ L ↔ IsIdx t v ∧ ¬ IsIdx f v ∧ 0 ≤ cross lo (p v - O) ∧ 0 ≤ cross (p v - O) hi := by
  obtain ⟨T, hT, hTm, rfl⟩ := map_get ht
  obtain ⟨F, hF, hFm, rfl⟩ := map_get hf
  unfold searchVisit
  simp only [hT, hc, hF]
  refine ⟨_, rfl, fun v => ?_⟩
  have hrep : ∀ i, i < 3 → (reportsVertex O lo hi F T i = true ↔ ¬ IsIdx F.indices (triIndex T.indices i) ∧
      0 ≤ cross lo (p (triIndex T.indices i) - O) ∧ 0 ≤ cross (p (triIndex T.indices i) - O) hi) := by
    intro i hi
    unfold reportsVertex IsIdx
    dsimp only [MeshTri.indices]
    split_ifs with hx
    · simp only [Bool.false_eq_true, false_iff, not_and]
      intro hc; exact absurd hx hc
    · rw [between_iff h, vertex_eq hp hTm hi]
      exact ⟨fun h' => ⟨hx, h'⟩, fun h' => h'.2⟩
  simp only [List.mem_map, List.mem_filter, List.mem_cons, List.not_mem_nil, or_false]
  constructor
  · rintro ⟨i, ⟨hi, hr⟩, rfl⟩
    have hi3 : i < 3 := by omega
    refine ⟨?_, (hrep i hi3).1 hr⟩
    unfold IsIdx
    rcases hi with rfl | rfl | rfl <;> simp [triIndex]
  · rintro ⟨h1, h2⟩
    rcases h1 with h1 | h1 | h1
    · exact ⟨0, ⟨Or.inl rfl, (hrep 0 (by omega)).2 (by rw [show triIndex T.indices 0 = v from h1]; exact h2)⟩, h1⟩
    · exact ⟨1, ⟨Or.inr (Or.inl rfl), (hrep 1 (by omega)).2 (by rw [show triIndex T.indices 1 = v from h1]; exact h2)⟩, h1⟩
    · exact ⟨2, ⟨Or.inr (Or.inr rfl), (hrep 2 (by omega)).2 (by rw [show triIndex T.indices 2 = v from h1]; exact h2)⟩, h1⟩

end Geometrix
