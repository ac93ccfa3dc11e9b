import Verif.Lemmas.VisibleSearch
import Verif.Lemmas.Convex
import Verif.Spec.VisibleSearch

/-!
# The start of the search, and what it finds
-/

set_option linter.unusedSectionVars false

namespace Geometrix
open Spec

variable {p q : Nat → P2 ℝ} {tris : List (MeshTri ℝ)} {O : P2 ℝ}

/-! ## The first triangle -/

/-- In the cone of a side of a triangle about the origin the points up to the side are in the triangle. -/
theorem start_in {A B C X : P2 ℝ} (hA : 0 < cross A B) (hB : 0 ≤ cross B C) (hC : 0 ≤ cross C A) (ht : 0 ≤ area2 A B C)
    (h1 : 0 ≤ cross A X) (h2 : 0 ≤ cross X B) (h3 : 0 ≤ area2 A B X) :
    0 ≤ area2 A B X ∧ 0 ≤ area2 B C X ∧ 0 ≤ area2 C A X := by
  refine ⟨h3, ?_, ?_⟩
  · have e : area2 B C X * cross A B = area2 A B X * cross B C + cross X B * area2 A B C := by simp [cross, area2]; ring
    by_contra hc
    nlinarith [mul_pos (neg_pos.2 (not_le.1 hc)) hA, mul_nonneg h3 hB, mul_nonneg h2 ht]
  · have e : area2 C A X * cross A B = area2 A B X * cross C A + cross A X * area2 A B C := by simp [cross, area2]; ring
    by_contra hc
    nlinarith [mul_pos (neg_pos.2 (not_le.1 hc)) hA, mul_nonneg h3 hC, mul_nonneg h1 ht]

section
variable {start i j k : Nat}

theorem lt_of_rot {ts : List (Nat × Nat × Nat)} {n i j k : Nat} (h : Rot ts n i j k) : n < ts.length := by
  obtain ⟨t, g, -⟩ := h.get (q := fun _ => 0)
  exact (List.getElem?_eq_some_iff.1 g).1

theorem start_side (hp : PointsOf p tris) (hq : ∀ i, q i = p i - O) (M : VMesh q (tris.map MeshTri.indices))
    (hr : Rot (tris.map MeshTri.indices) start i j k) (h1 : 0 < cross (q i) (q j)) (h2 : 0 < cross (q j) (q k))
    (h3 : 0 < cross (q k) (q i)) {t : Nat × Nat × Nat} {s : Nat}
    (hget : (tris.map MeshTri.indices)[start]? = some t) (hside : HasSide t s i j) :
    ∃ l rep, searchSide tris O (searchStart start) s = .ok l ∧ Runs tris O l.reverse rep ∧ rep.Nodup ∧
      (∀ v ∈ rep, Vert (tris.map MeshTri.indices) v ∧ SeenV q (tris.map MeshTri.indices) v ∧ CloseBy q i j i j (q v)) ∧
      ∀ v, Vert (tris.map MeshTri.indices) v → SeenV q (tris.map MeshTri.indices) v → Beyond q i j i j (q v) → v ∈ rep := by
  have zi := vert_nz M hr.vert
  have zj := vert_nz M hr.rotate.vert
  have hno : ∀ n' l', Rot (tris.map MeshTri.indices) n' j i l' → n' ≠ (searchStart start).source := by
    intro n' l' hr'
    have h1 := lt_of_rot hr'
    have h2 := M.len
    show n' ≠ noTriangle
    omega
  by_cases hex : ∃ n' l', Rot (tris.map MeshTri.indices) n' j i l'
  · obtain ⟨n', l', hr'⟩ := hex
    have hN : NInv q (tris.map MeshTri.indices) ⟨start, n', some (q i, q j)⟩ i j i j l' :=
      { src := ⟨k, hr⟩, tgt := hr', cone := rfl, va := hr.vert, vb := hr.rotate.vert, front := h1
        lo1 := by rw [cross_self], lo2 := h1, hi1 := h1, hi2 := by rw [cross_self], lohi := h1
        lo3 := by simp [area2], hi3 := by rw [area_rot]; simp [area2]
        cov := fun X x1 x2 x3 => by
          obtain ⟨y1, y2, y3⟩ := start_in h1 h2.le h3.le (hr.ccw M).le x1 x2 x3
          exact hr.cov y1 y2 y3 }
    obtain ⟨rep, hrun, hg⟩ := NInv.runs hp hq M _ hN (Nat.lt_succ_self _)
    refine ⟨[⟨start, n', some (q i, q j)⟩], rep, ?_, hrun, hg.once, hg.sound, hg.full⟩
    rw [side_some (O := O) (I := searchStart start) hp M hget hside hr' (hno _ _ hr')]
    have hc : (searchStart start).cone = none := rfl
    rw [hc]
    dsimp only
    rw [orderSide_front (by rw [← hq, ← hq]; exact h1)]
    dsimp only
    rw [nextCone_start rfl (by rw [← hq, ← hq]; exact h1) (by rw [← hq]; exact zi) (by rw [← hq]; exact zj), ← hq, ← hq]
    rfl
  · refine ⟨[], [], side_none (O := O) (I := searchStart start) hget hside fun n' l' hr' => absurd ⟨n', l', hr'⟩ hex,
      runs_nil, List.nodup_nil, fun v hv => absurd hv List.not_mem_nil, fun v hv hs hb => ?_⟩
    exact absurd (exit_side M hr hs h1 hb.1 hb.2.1 hb.2.2) hex

/-- A vector is in one of the three cones. -/
theorem three_cones {A B C X : P2 ℝ} (h1 : 0 < cross A B) (h2 : 0 < cross B C) (h3 : 0 < cross C A)
    (n1 : cross A X ≠ 0) (n2 : cross B X ≠ 0) (n3 : cross C X ≠ 0) :
    (0 < cross A X ∧ 0 < cross X B) ∨ (0 < cross B X ∧ 0 < cross X C) ∨ (0 < cross C X ∧ 0 < cross X A) := by
  have e : cross A X * cross B C + cross B X * cross C A + cross C X * cross A B = 0 := by simp [cross]; ring
  rw [cross_anti X B, cross_anti X C, cross_anti X A]
  simp only [Left.neg_pos_iff]
  rcases lt_or_gt_of_ne n1 with a | a <;> rcases lt_or_gt_of_ne n2 with b | b <;> rcases lt_or_gt_of_ne n3 with c | c
  · nlinarith [mul_pos (neg_pos.2 a) h2, mul_pos (neg_pos.2 b) h3, mul_pos (neg_pos.2 c) h1]
  · exact Or.inr (Or.inr ⟨c, a⟩)
  · exact Or.inr (Or.inl ⟨b, c⟩)
  · exact Or.inr (Or.inr ⟨c, a⟩)
  · exact Or.inl ⟨a, b⟩
  · exact Or.inl ⟨a, b⟩
  · exact Or.inr (Or.inl ⟨b, c⟩)
  · nlinarith [mul_pos a h2, mul_pos b h3, mul_pos c h1]

theorem not_closeBy {A B C X : P2 ℝ} (h1 : 0 < cross A B) (h2 : 0 < cross B C) (n2 : cross B X ≠ 0)
    (ha : 0 ≤ cross A X) (hb : 0 ≤ cross X B) (hc : 0 ≤ cross B X) : False := by
  rw [cross_anti] at hb
  exact n2 (le_antisymm (by linarith) hc)

theorem seen_corner (hr : Rot (tris.map MeshTri.indices) start i j k) (M : VMesh q (tris.map MeshTri.indices))
    (h1 : 0 < cross (q i) (q j)) (h2 : 0 < cross (q j) (q k)) (h3 : 0 < cross (q k) (q i)) :
    SeenV q (tris.map MeshTri.indices) i := by
  intro s s0 s1
  have ht := hr.ccw M
  apply hr.cov
  · have e : area2 (q i) (q j) (s • q i) = (1 - s) * cross (q i) (q j) := by simp [area2, cross]; ring
    rw [e]; exact mul_nonneg (by linarith) h1.le
  · have e : area2 (q j) (q k) (s • q i) = (1 - s) * cross (q j) (q k) + s * area2 (q i) (q j) (q k) := by
      simp [area2, cross]; ring
    rw [e]; exact add_nonneg (mul_nonneg (by linarith) h2.le) (mul_nonneg s0 ht.le)
  · have e : area2 (q k) (q i) (s • q i) = (1 - s) * cross (q k) (q i) := by simp [area2, cross]; ring
    rw [e]; exact mul_nonneg (by linarith) h3.le

theorem start_runs (hp : PointsOf p tris) (hq : ∀ i, q i = p i - O) (M : VMesh q (tris.map MeshTri.indices))
    (hr : Rot (tris.map MeshTri.indices) start i j k) (h1 : 0 < cross (q i) (q j)) (h2 : 0 < cross (q j) (q k))
    (h3 : 0 < cross (q k) (q i)) : ∃ rep, Runs tris O [searchStart start] rep ∧ rep.Nodup ∧
      ∀ v, v ∈ rep ↔ Vert (tris.map MeshTri.indices) v ∧ SeenV q (tris.map MeshTri.indices) v := by
  obtain ⟨t, hget, htm, hidx, hin⟩ := hr.get (q := q)
  obtain ⟨T, hT, hTm, rfl⟩ := map_get hget
  have hij := hr.ne M
  have hjk := hr.rotate.ne M
  have hki := hr.rotate.rotate.ne M
  have ht := hr.ccw M
  have vi := hr.vert
  have vj := hr.rotate.vert
  have vk := hr.rotate.rotate.vert
  have hvisit : searchVisit tris O (searchStart start) = .ok [T.i0, T.i1, T.i2] := by
    unfold searchVisit searchStart
    simp only [hT]
  have hnd0 : [T.i0, T.i1, T.i2].Nodup := by
    have hr : Rot (tris.map MeshTri.indices) start T.i0 T.i1 T.i2 := Or.inl hget
    have n1 := hr.ne M
    have n2 := hr.rotate.ne M
    have n3 := hr.rotate.rotate.ne M
    simp only [List.nodup_cons, List.mem_cons, List.not_mem_nil, or_false, not_false_iff, List.nodup_nil, and_true, not_or]
    exact ⟨⟨n1, n3.symm⟩, n2⟩
  have hmem0 : ∀ v, v ∈ [T.i0, T.i1, T.i2] ↔ v = i ∨ v = j ∨ v = k := by
    intro v
    rw [← hidx]
    simp only [IsIdx, MeshTri.indices, List.mem_cons, List.not_mem_nil, or_false]
    simp only [eq_comm]
  have hcorner : ∀ v, v = i ∨ v = j ∨ v = k → ∀ a b c, Rot (tris.map MeshTri.indices) start a b c →
      (0 < cross (q a) (q b)) → 0 ≤ cross (q b) (q c) → 0 ≤ cross (q c) (q a) → ¬ area2 (q a) (q b) (q v) < 0 := by
    intro v hv a b c hr' g1 g2 g3
    have ht' := hr'.ccw M
    obtain ⟨t', e1, -, e3, -⟩ := hr'.get (q := q)
    rw [hget, Option.some.injEq] at e1
    subst e1
    rcases (e3 v).1 ((hidx v).2 hv) with rfl | rfl | rfl
    · simp [area2]
    · rw [area_rot]; simp [area2]
    · linarith
  obtain ⟨items, rep, r1, r2, r3, ep, hrun, hnd, p1, p2, p3, hmem⟩ := three_sides (tris := tris) (O := O)
    (tris.map MeshTri.indices) (I := searchStart start) hr
    (P := fun u w rep =>
      (∀ v ∈ rep, Vert (tris.map MeshTri.indices) v ∧ SeenV q (tris.map MeshTri.indices) v ∧ CloseBy q u w u w (q v)) ∧
      ∀ v, Vert (tris.map MeshTri.indices) v → SeenV q (tris.map MeshTri.indices) v → Beyond q u w u w (q v) → v ∈ rep)
    (by
      intro t s u w hget hside hc
      rcases hc with ⟨rfl, rfl⟩ | ⟨rfl, rfl⟩ | ⟨rfl, rfl⟩
      · exact start_side hp hq M hr h1 h2 h3 hget hside
      · exact start_side hp hq M hr.rotate h2 h3 h1 hget hside
      · exact start_side hp hq M hr.rotate.rotate h3 h1 h2 hget hside)
    (by
      have key : ∀ a b c, Rot (tris.map MeshTri.indices) start a b c → 0 < cross (q a) (q b) → 0 < cross (q b) (q c) →
          0 < cross (q c) (q a) → ∀ r r' : List Nat,
          (∀ v ∈ r, Vert (tris.map MeshTri.indices) v ∧ SeenV q (tris.map MeshTri.indices) v ∧ CloseBy q a b a b (q v)) →
          (∀ v ∈ r', Vert (tris.map MeshTri.indices) v ∧ SeenV q (tris.map MeshTri.indices) v ∧ CloseBy q b c b c (q v)) →
          ∀ v ∈ r, v ∉ r' := by
        intro a b c hr g1 g2 g3 r r' x1 x2 v hv hv'
        obtain ⟨y1, -, y2, y3, y4⟩ := x1 v hv
        obtain ⟨-, -, y5, y6, y7⟩ := x2 v hv'
        refine not_closeBy g1 g2 (M.gen b v hr.rotate.vert y1 ?_) y2 y3 y5
        rintro rfl
        rw [area_rot] at y4; simp [area2] at y4
      rintro s1 s2 s3 ⟨d1, -⟩ ⟨d2, -⟩ ⟨d3, -⟩
      exact ⟨key _ _ _ hr h1 h2 h3 _ _ d1 d2, key _ _ _ hr.rotate h2 h3 h1 _ _ d2 d3,
        key _ _ _ hr.rotate.rotate h3 h1 h2 _ _ d3 d1⟩)
  refine ⟨_, runs_item hvisit ep hrun, ?_, fun v => ?_⟩
  · rw [List.nodup_append]
    refine ⟨hnd0, hnd, fun v hv w hw hvw => ?_⟩
    subst hvw
    have hv := (hmem0 v).1 hv
    rcases (hmem v).1 hw with hw | hw | hw
    · exact hcorner v hv i j k hr h1 h2.le h3.le (p1.1 v hw).2.2.2.2
    · exact hcorner v hv j k i hr.rotate h2 h3.le h1.le (p2.1 v hw).2.2.2.2
    · exact hcorner v hv k i j hr.rotate.rotate h3 h1.le h2.le (p3.1 v hw).2.2.2.2
  · rw [List.mem_append, hmem0, hmem]
    constructor
    · rintro ((rfl | rfl | rfl) | hw | hw | hw)
      · exact ⟨vi, seen_corner hr M h1 h2 h3⟩
      · exact ⟨vj, seen_corner hr.rotate M h2 h3 h1⟩
      · exact ⟨vk, seen_corner hr.rotate.rotate M h3 h1 h2⟩
      · exact ⟨(p1.1 v hw).1, (p1.1 v hw).2.1⟩
      · exact ⟨(p2.1 v hw).1, (p2.1 v hw).2.1⟩
      · exact ⟨(p3.1 v hw).1, (p3.1 v hw).2.1⟩
    · rintro ⟨hv, hs⟩
      by_cases hc : v = i ∨ v = j ∨ v = k
      · exact Or.inl hc
      · right
        have hout : ¬ (0 ≤ area2 (q i) (q j) (q v) ∧ 0 ≤ area2 (q j) (q k) (q v) ∧ 0 ≤ area2 (q k) (q i) (q v)) :=
          fun hx => hc ((hidx v).1 (vert_conf M hv htm ((hin _).2 hx)))
        simp only [not_or] at hc
        rcases three_cones h1 h2 h3 (M.gen i v vi hv (Ne.symm hc.1)) (M.gen j v vj hv (Ne.symm hc.2.1))
          (M.gen k v vk hv (Ne.symm hc.2.2)) with ⟨g1, g2⟩ | ⟨g1, g2⟩ | ⟨g1, g2⟩
        · left
          refine p1.2 v hv hs ⟨g1, g2, ?_⟩
          by_contra hn
          exact hout (start_in h1 h2.le h3.le ht.le g1.le g2.le (not_lt.1 hn))
        · right; left
          refine p2.2 v hv hs ⟨g1, g2, ?_⟩
          by_contra hn
          obtain ⟨y1, y2, y3⟩ := start_in h2 h3.le h1.le (hr.rotate.ccw M).le g1.le g2.le (not_lt.1 hn)
          exact hout ⟨y3, y1, y2⟩
        · right; right
          refine p3.2 v hv hs ⟨g1, g2, ?_⟩
          by_contra hn
          obtain ⟨y1, y2, y3⟩ := start_in h3 h1.le h2.le (hr.rotate.rotate.ccw M).le g1.le g2.le (not_lt.1 hn)
          exact hout ⟨y2, y3, y1⟩

end

/-! ## The border -/

theorem side_keeps (u w B : P2 ℝ) : ∃ r : ℝ, 0 < r ∧ ∀ X : P2 ℝ, (X.x - B.x) ^ 2 + (X.y - B.y) ^ 2 < r →
    0 < area2 u w B → 0 < area2 u w X := by
  by_cases h : 0 < area2 u w B
  · set n := (w.x - u.x) ^ 2 + (w.y - u.y) ^ 2 + 1 with hn
    have hn0 : 0 < n := by positivity
    refine ⟨area2 u w B ^ 2 / n, by positivity, fun X hX _ => ?_⟩
    rw [lt_div_iff₀ hn0] at hX
    set c := (w.x - u.x) * (X.y - B.y) - (w.y - u.y) * (X.x - B.x) with hc
    have e : area2 u w X = area2 u w B + c := by simp only [area2, hc]; ring
    have hb : c ^ 2 ≤ ((X.x - B.x) ^ 2 + (X.y - B.y) ^ 2) * n := by
      have : ((X.x - B.x) ^ 2 + (X.y - B.y) ^ 2) * n - c ^ 2 =
          ((w.x - u.x) * (X.x - B.x) + (w.y - u.y) * (X.y - B.y)) ^ 2 + ((X.x - B.x) ^ 2 + (X.y - B.y) ^ 2) := by
        simp only [hn, hc]; ring
      have h0 : 0 ≤ ((w.x - u.x) * (X.x - B.x) + (w.y - u.y) * (X.y - B.y)) ^ 2 + ((X.x - B.x) ^ 2 + (X.y - B.y) ^ 2) := by
        positivity
      linarith
    rw [e]
    have := abs_lt_of_sq_lt_sq (lt_of_le_of_lt hb hX) h.le
    linarith [(abs_lt.1 this).1]
  · exact ⟨1, one_pos, fun X _ h' => absurd h' h⟩

theorem tris_keep (q : Nat → P2 ℝ) (B : P2 ℝ) : ∀ l : List (Nat × Nat × Nat), ∃ r : ℝ, 0 < r ∧ ∀ t ∈ l, ∀ X : P2 ℝ,
    (X.x - B.x) ^ 2 + (X.y - B.y) ^ 2 < r →
    (0 < area2 (q t.1) (q t.2.1) B → 0 < area2 (q t.1) (q t.2.1) X) ∧
    (0 < area2 (q t.2.1) (q t.2.2) B → 0 < area2 (q t.2.1) (q t.2.2) X) ∧
    (0 < area2 (q t.2.2) (q t.1) B → 0 < area2 (q t.2.2) (q t.1) X)
  | [] => ⟨1, one_pos, fun t ht => absurd ht List.not_mem_nil⟩
  | t :: l => by
    obtain ⟨r, hr, h⟩ := tris_keep q B l
    obtain ⟨r1, hr1, k1⟩ := side_keeps (q t.1) (q t.2.1) B
    obtain ⟨r2, hr2, k2⟩ := side_keeps (q t.2.1) (q t.2.2) B
    obtain ⟨r3, hr3, k3⟩ := side_keeps (q t.2.2) (q t.1) B
    refine ⟨min (min r r1) (min r2 r3), by positivity, fun u hu X hX => ?_⟩
    simp only [lt_min_iff] at hX
    rcases List.mem_cons.1 hu with rfl | hu
    · exact ⟨k1 X hX.1.2, k2 X hX.2.1, k3 X hX.2.2⟩
    · exact h u hu X hX.1.1

/-- If the mesh goes on from a point in all directions, it contains a disc about it. -/
theorem disc_of_dirs {q : Nat → P2 ℝ} {ts : List (Nat × Nat × Nat)} {B : P2 ℝ} (h : ∀ e, DirCov q ts B e) :
    ∃ r : ℝ, 0 < r ∧ ∀ X : P2 ℝ, (X.x - B.x) ^ 2 + (X.y - B.y) ^ 2 < r → MeshCov q ts X := by
  obtain ⟨r, hr, hk⟩ := tris_keep q B ts
  refine ⟨r, hr, fun X hX => ?_⟩
  obtain ⟨δ, hδ, hc⟩ := h (X - B)
  obtain ⟨t, ht, hB, ε, hε, hin⟩ := cov_near hδ fun s h1 h2 => hc s h1.le h2
  refine ⟨t, ht, ?_⟩
  obtain ⟨k1, k2, k3⟩ := hk t ht X hX
  have e : X = B + (1 : ℝ) • (X - B) := by ext <;> simp
  have key : ∀ u w : P2 ℝ, 0 ≤ area2 u w B → 0 ≤ area2 u w (B + ε • (X - B)) → (0 < area2 u w B → 0 < area2 u w X) →
      0 ≤ area2 u w X := by
    intro u w h1 h2 h3
    rcases h1.eq_or_lt with h1 | h1
    · rw [area_along, ← h1, zero_add] at h2
      rw [e, area_along, ← h1, zero_add, one_mul]
      by_contra hn
      nlinarith [mul_pos hε (neg_pos.2 (not_le.1 hn))]
    · exact (h3 h1).le
  obtain ⟨m1, m2, m3⟩ := hin ε hε le_rfl
  exact ⟨key _ _ hB.1 m1 k1, key _ _ hB.2.1 m2 k2, key _ _ hB.2.2 m3 k3⟩

/-! ## The whole search -/

theorem area_shift (A B C O : P2 ℝ) : area2 (A - O) (B - O) (C - O) = area2 A B C := by simp [area2]

theorem tri_shift (hm : IsTriMesh p tris) (hq : ∀ i, q i = p i - O) {t : MeshTri ℝ} (ht : t ∈ tris) (X : P2 ℝ) :
    TriIn q t.indices (X - O) ↔ InMeshTri t X := by
  obtain ⟨e1, e2, e3⟩ := hm.points t ht
  unfold InMeshTri
  rw [inTriangle_iff (hm.ccw t ht)]
  unfold TriIn MeshTri.indices
  simp only [hq, area_shift, ← e1, ← e2, ← e3]

theorem cov_shift (hm : IsTriMesh p tris) (hq : ∀ i, q i = p i - O) (X : P2 ℝ) :
    MeshCov q (tris.map MeshTri.indices) (X - O) ↔ InMesh tris X := by
  constructor
  · rintro ⟨t, ht, h⟩
    obtain ⟨T, hT, rfl⟩ := List.mem_map.1 ht
    exact ⟨T, hT, (tri_shift hm hq hT X).1 h⟩
  · rintro ⟨T, hT, h⟩
    exact ⟨_, List.mem_map_of_mem hT, (tri_shift hm hq hT X).2 h⟩

theorem vert_iff (v : Nat) : Vert (tris.map MeshTri.indices) v ↔ IsMeshVertex tris v := by
  constructor
  · rintro ⟨t, ht, h⟩
    obtain ⟨T, hT, rfl⟩ := List.mem_map.1 ht
    exact ⟨T, hT, h⟩
  · rintro ⟨T, hT, h⟩
    exact ⟨_, List.mem_map_of_mem hT, h⟩

theorem seen_iff (hm : IsTriMesh p tris) (hq : ∀ i, q i = p i - O) (v : Nat) :
    SeenV q (tris.map MeshTri.indices) v ↔ SeenIn tris O (p v) := by
  unfold SeenV SeenIn
  refine forall_congr' fun s => forall_congr' fun _ => forall_congr' fun _ => ?_
  rw [← cov_shift hm hq, hq]
  have : O + s • (p v - O) - O = s • (p v - O) := by ext <;> simp
  rw [this]

theorem vmesh_of (hm : IsTriMesh p tris) (hq : ∀ i, q i = p i - O) (hg : NoneInLine p tris O)
    (hb : ∀ v, IsMeshVertex tris v → SeenIn tris O (p v) → AtMeshBorder tris (p v)) (hl : tris.length < noTriangle) :
    VMesh q (tris.map MeshTri.indices) where
  ccw := by
    intro t ht
    obtain ⟨T, hT, rfl⟩ := List.mem_map.1 ht
    obtain ⟨e1, e2, e3⟩ := hm.points T hT
    have := hm.ccw T hT
    simp only [MeshTri.indices, hq, area_shift, ← e1, ← e2, ← e3]
    exact this
  once := hm.once
  conf := by
    intro t ht u hu α β γ hα hβ hγ hs hX
    obtain ⟨T, hT, rfl⟩ := List.mem_map.1 ht
    obtain ⟨U, hU, rfl⟩ := List.mem_map.1 hu
    obtain ⟨e1, e2, e3⟩ := hm.points T hT
    refine hm.fit T hT U hU α β γ hα hβ hγ hs ?_
    rw [← tri_shift hm hq hU]
    convert hX using 1
    simp only [MeshTri.indices, hq, ← e1, ← e2, ← e3]
    have hγ' : γ = 1 - α - β := by linarith
    rw [hγ']
    ext <;> simp <;> ring
  gen := by
    intro v w hv hw hvw h0
    apply hg v w ((vert_iff v).1 hv) ((vert_iff w).1 hw) hvw
    rw [hq, hq] at h0
    rw [← h0]; simp [area2, cross]
  border := by
    intro v hv hs hd
    obtain ⟨r, hr, hX⟩ := disc_of_dirs hd
    obtain ⟨X, h1, h2⟩ := hb v ((vert_iff v).1 hv) ((seen_iff hm hq v).1 hs) r hr
    apply h2
    rw [← cov_shift hm hq]
    apply hX
    rw [hq]
    simp only [P2.sub_x, P2.sub_y]
    convert h1 using 1; ring
  len := by rw [List.length_map]; exact hl

theorem search_full (hm : IsTriMesh p tris) (hl : tris.length < noTriangle) {start : Nat} {T : MeshTri ℝ}
    (hT : tris[start]? = some T) (hO : InsideTri T O) (hg : NoneInLine p tris O)
    (hb : ∀ v, IsMeshVertex tris v → SeenIn tris O (p v) → AtMeshBorder tris (p v)) :
    ∃ N vs, (∀ rounds, N ≤ rounds → visibleSearch rounds tris O start = .ok vs) ∧ vs.Nodup ∧
      ∀ v, v ∈ vs ↔ IsMeshVertex tris v ∧ SeenIn tris O (p v) := by
  have hq : ∀ i, (fun i => p i - O) i = p i - O := fun _ => rfl
  have M := vmesh_of hm hq hg hb hl
  have hTm := List.mem_of_getElem? hT
  have hr : Rot (tris.map MeshTri.indices) start T.i0 T.i1 T.i2 := Or.inl (by rw [List.getElem?_map, hT]; rfl)
  obtain ⟨e1, e2, e3⟩ := hm.points T hTm
  have hc := hm.ccw T hTm
  obtain ⟨α, β, γ, hα, hβ, hγ, hs, rfl⟩ := hO
  have hα' : α = 1 - β - γ := by linarith
  obtain ⟨rep, ⟨N, hN⟩, hnd, hmem⟩ := start_runs hm.points hq M hr
    (by
      have : cross (p T.i0 - (α • T.a + β • T.b + γ • T.c)) (p T.i1 - (α • T.a + β • T.b + γ • T.c)) =
          γ * area2 T.a T.b T.c := by
        rw [← e1, ← e2, hα']; simp [cross, area2]; ring
      rw [this]; positivity)
    (by
      have : cross (p T.i1 - (α • T.a + β • T.b + γ • T.c)) (p T.i2 - (α • T.a + β • T.b + γ • T.c)) =
          α * area2 T.a T.b T.c := by
        rw [← e2, ← e3, hα']; simp [cross, area2]; ring
      rw [this]; positivity)
    (by
      have : cross (p T.i2 - (α • T.a + β • T.b + γ • T.c)) (p T.i0 - (α • T.a + β • T.b + γ • T.c)) =
          β * area2 T.a T.b T.c := by
        rw [← e1, ← e3, hα']; simp [cross, area2]; ring
      rw [this]; positivity)
  refine ⟨N, rep, fun rounds hle => ?_, hnd, fun v => ?_⟩
  · obtain ⟨n, rfl⟩ := Nat.exists_eq_add_of_le' hle
    have := hN n [] []
    rw [List.append_nil, List.nil_append] at this
    unfold visibleSearch
    rw [this]
    cases n <;> rfl
  · rw [hmem, vert_iff, seen_iff hm hq]

end Geometrix
