import Verif.Lemmas.VisibleStep
import Mathlib.Data.Finset.Card

/-!
# The search around a vertex on the border of the cone
-/

set_option linter.unusedSectionVars false

namespace Geometrix
open Spec

/-! ## The loop -/

/-- The loop works through the items and adds these vertices. -/
def Runs (tris : List (MeshTri ℝ)) (O : P2 ℝ) (Q : List SearchItem) (rep : List Nat) : Prop :=
  ∃ N, ∀ n R vs, meshSearchLoop tris O (n + N) (Q ++ R) vs = meshSearchLoop tris O n R (vs ++ rep)

variable {p q : Nat → P2 ℝ} {tris : List (MeshTri ℝ)} {O : P2 ℝ}

theorem runs_nil : Runs tris O [] [] := ⟨0, fun n R vs => by simp⟩

theorem runs_append {Q1 Q2 : List SearchItem} {r1 r2 : List Nat} (h1 : Runs tris O Q1 r1) (h2 : Runs tris O Q2 r2) :
    Runs tris O (Q1 ++ Q2) (r1 ++ r2) := by
  obtain ⟨N1, h1⟩ := h1
  obtain ⟨N2, h2⟩ := h2
  refine ⟨N2 + N1, fun n R vs => ?_⟩
  rw [← Nat.add_assoc, List.append_assoc, h1, h2, List.append_assoc]

theorem runs_item {I : SearchItem} {new rep : List Nat} {items : List SearchItem} (h1 : searchVisit tris O I = .ok new)
    (h2 : searchPushed tris O I = .ok items) (h3 : Runs tris O items.reverse rep) : Runs tris O [I] (new ++ rep) := by
  obtain ⟨N, h3⟩ := h3
  refine ⟨N + 1, fun n R vs => ?_⟩
  show meshSearchLoop tris O (n + N + 1) (I :: R) vs = _
  simp only [meshSearchLoop, h1, h2]
  rw [h3, List.append_assoc]

theorem runs_all {P : SearchItem → List Nat → Prop} : ∀ {Q : List SearchItem},
    (∀ I ∈ Q, ∃ rep, Runs tris O [I] rep ∧ P I rep) →
    ∃ rep, Runs tris O Q rep ∧ (∀ I ∈ Q, ∃ r, P I r ∧ ∀ v ∈ r, v ∈ rep) ∧ ∀ v ∈ rep, ∃ I ∈ Q, ∃ r, P I r ∧ v ∈ r
  | [], _ => ⟨[], runs_nil, fun I hI => absurd hI List.not_mem_nil, fun v hv => absurd hv List.not_mem_nil⟩
  | I :: Q, h => by
    obtain ⟨r1, a1, b1⟩ := h I List.mem_cons_self
    obtain ⟨r2, a2, b2, c2⟩ := runs_all (Q := Q) fun J hJ => h J (List.mem_cons_of_mem _ hJ)
    refine ⟨r1 ++ r2, runs_append a1 a2, fun J hJ => ?_, fun v hv => ?_⟩
    · rcases List.mem_cons.1 hJ with rfl | hJ
      · exact ⟨r1, b1, fun v hv => List.mem_append_left _ hv⟩
      · obtain ⟨r, x, y⟩ := b2 J hJ
        exact ⟨r, x, fun v hv => List.mem_append_right _ (y v hv)⟩
    · rcases List.mem_append.1 hv with hv | hv
      · exact ⟨I, List.mem_cons_self, r1, b1, hv⟩
      · obtain ⟨J, hJ, x⟩ := c2 v hv
        exact ⟨J, List.mem_cons_of_mem _ hJ, x⟩

theorem pushed_of {I : SearchItem} {P : SearchItem → Prop}
    (h : ∀ s, s < 3 → ∃ l, searchSide tris O I s = .ok l ∧ ∀ J ∈ l, P J) :
    ∃ l, searchPushed tris O I = .ok l ∧ (∀ J ∈ l, P J) ∧
      ∀ s J l', s < 3 → searchSide tris O I s = .ok l' → J ∈ l' → J ∈ l := by
  obtain ⟨l0, e0, h0⟩ := h 0 (by omega)
  obtain ⟨l1, e1, h1⟩ := h 1 (by omega)
  obtain ⟨l2, e2, h2⟩ := h 2 (by omega)
  refine ⟨l0 ++ l1 ++ l2, by simp only [searchPushed, e0, e1, e2], fun J hJ => ?_, fun s J l' hs e hJ => ?_⟩
  · simp only [List.mem_append] at hJ
    rcases hJ with (hJ | hJ) | hJ
    · exact h0 J hJ
    · exact h1 J hJ
    · exact h2 J hJ
  · have : s = 0 ∨ s = 1 ∨ s = 2 := by omega
    simp only [List.mem_append]
    rcases this with rfl | rfl | rfl
    · rw [e0, Except.ok.injEq] at e; rw [e]; exact Or.inl (Or.inl hJ)
    · rw [e1, Except.ok.injEq] at e; rw [e]; exact Or.inl (Or.inr hJ)
    · rw [e2, Except.ok.injEq] at e; rw [e]; exact Or.inr hJ

/-- There is no triangle to go to, or one. -/
theorem side_cases (M : VMesh q (tris.map MeshTri.indices)) {I : SearchItem} {t : Nat × Nat × Nat} {s u w : Nat}
    (ht : (tris.map MeshTri.indices)[I.target]? = some t) (hs : HasSide t s u w) :
    searchSide tris O I s = .ok [] ∨ ∃ n' l, Rot (tris.map MeshTri.indices) n' w u l ∧ n' ≠ I.source := by
  by_cases h : ∃ n' l, Rot (tris.map MeshTri.indices) n' w u l ∧ n' ≠ I.source
  · exact Or.inr h
  · exact Or.inl (side_none ht hs fun n' l hr => by
      by_contra hne
      exact h ⟨n', l, hr, hne⟩)

theorem get_of_lt {ts : List (Nat × Nat × Nat)} {n i j k : Nat} (h : Rot ts n i j k) {s : Nat} (hs : s < 3) :
    ∃ t u w, ts[n]? = some t ∧ HasSide t s u w := by
  obtain ⟨t, h1, -⟩ := h.get (q := fun _ => 0)
  refine ⟨t, triIndex t s, triIndex t ((s + 1) % 3), h1, ?_⟩
  have : s = 0 ∨ s = 1 ∨ s = 2 := by omega
  unfold HasSide
  rcases this with rfl | rfl | rfl <;> simp [triIndex]

/-! ## The fan -/

/-- Directions into a triangle. -/
theorem dir_of_rot {ts : List (Nat × Nat × Nat)} (M : VMesh q ts) {n x y z : Nat} (h : Rot ts n x y z) {e : P2 ℝ}
    (h1 : 0 ≤ cross (q y - q x) e) (h2 : 0 ≤ cross (q z - q y) e) : DirCov q ts (q y) e := by
  have hc : 0 < area2 (q z) (q x) (q y) := h.rotate.rotate.ccw M
  obtain ⟨δ, hδ, k⟩ := pos_near hc (cross (q x - q z) e)
  refine ⟨δ, hδ, fun t t0 t1 => h.cov ?_ ?_ ?_⟩
  · rw [area_along]
    have : area2 (q x) (q y) (q y) = 0 := by simp [area2]; ring
    rw [this]; nlinarith [mul_nonneg t0 h1]
  · rw [area_along]
    have : area2 (q y) (q z) (q y) = 0 := by simp [area2]
    rw [this]; nlinarith [mul_nonneg t0 h2]
  · rw [area_along]
    exact (k t t0 t1).le

/-- The item goes round the vertex `β` on the border of the cone, with the spoke to the vertex `C`. -/
structure FInv (q : Nat → P2 ℝ) (ts : List (Nat × Nat × Nat)) (I : SearchItem) (σ : ℝ) (a b β C D : Nat) : Prop where
  rot : (σ = 1 ∧ β = a ∧ (∃ l, Rot ts I.source β C l) ∧ Rot ts I.target C β D) ∨
    (σ = -1 ∧ β = b ∧ (∃ l, Rot ts I.source C β l) ∧ Rot ts I.target β C D)
  cone : I.cone = some (q a, q b)
  lohi : 0 < cross (q a) (q b)
  va : Vert ts a
  vb : Vert ts b
  spoke : σ * cross (q β) (q C) < 0
  cov1 : ∀ e, 0 ≤ σ * cross (q β) e → DirCov q ts (q β) e
  cov2 : ∀ e, σ * cross (q β) e ≤ 0 → 0 ≤ σ * cross (q C - q β) e → DirCov q ts (q β) e
  bord : ¬ ∀ e, DirCov q ts (q β) e

theorem sub_self_P2 (a : P2 ℝ) : a - a = 0 := by ext <;> simp

/-- The third vertex of the next triangle is on the same side as the spoke. -/
theorem FInv.third {ts : List (Nat × Nat × Nat)} (M : VMesh q ts) {I : SearchItem} {σ : ℝ} {a b β C D : Nat}
    (h : FInv q ts I σ a b β C D) : σ * cross (q β) (q D) < 0 := by
  by_contra hn
  have hn := not_lt.1 hn
  apply h.bord
  intro e
  rcases le_or_gt 0 (σ * cross (q β) e) with h1 | h1
  · exact h.cov1 e h1
  rcases le_or_gt 0 (σ * cross (q C - q β) e) with h2 | h2
  · exact h.cov2 e h1.le h2
  have hsp := h.spoke
  have pl : cross (q β) (q C - q β) * cross (q D - q β) e - cross (q β) (q D - q β) * cross (q C - q β) e +
      cross (q β) e * cross (q C - q β) (q D - q β) = 0 := plucker _ _ _ _
  rw [cross_sub_right (q β) (q C) (q β), cross_sub_right (q β) (q D) (q β), cross_self, sub_zero, sub_zero] at pl
  have hcr : cross (q C - q β) (q D - q β) = area2 (q β) (q C) (q D) := by simp [cross, area2]
  rcases h.rot with ⟨rfl, rfl, -, hr⟩ | ⟨rfl, rfl, -, hr⟩
  · rw [one_mul] at hn h1 h2 hsp
    have hc := hr.ccw M
    rw [area_flip, ← hcr] at hc
    refine dir_of_rot M hr ?_ ?_
    · have : cross (q β - q C) e = -cross (q C - q β) e := by simp [cross]; ring
      rw [this]; linarith
    · by_contra hx
      nlinarith [mul_pos_of_neg_of_neg hsp (not_le.1 hx), mul_nonneg hn (neg_nonneg.2 h2.le),
        mul_pos (neg_pos.2 h1) hc]
  · have hc := hr.ccw M
    rw [← hcr] at hc
    refine dir_of_rot M hr.rotate.rotate ?_ ?_
    · by_contra hx
      have hx' : 0 < cross (q D - q β) e := by
        have : cross (q β - q D) e = -cross (q D - q β) e := by simp [cross]; ring
        rw [this] at hx; linarith
      have a1 : 0 < cross (q β) (q C) := by linarith
      have a2 : cross (q β) (q D) ≤ 0 := by linarith
      have a3 : 0 < cross (q β) e := by linarith
      have a4 : 0 < cross (q C - q β) e := by linarith
      nlinarith [mul_pos a1 hx', mul_nonneg (neg_nonneg.2 a2) a4.le, mul_pos a3 hc]
    · linarith

/-- The rest of the fan. -/
theorem FInv.next {ts : List (Nat × Nat × Nat)} (M : VMesh q ts) {I : SearchItem} {σ : ℝ} {a b β C D : Nat}
    (h : FInv q ts I σ a b β C D) {n' l : Nat}
    (hr : (σ = 1 ∧ Rot ts n' D β l) ∨ (σ = -1 ∧ Rot ts n' β D l)) :
    FInv q ts ⟨I.target, n', some (q a, q b)⟩ σ a b β D l := by
  have hthird := h.third M
  have hsp := h.spoke
  refine ⟨?_, rfl, h.lohi, h.va, h.vb, hthird, h.cov1, fun e h1 h2 => ?_, h.bord⟩
  · rcases h.rot with ⟨rfl, e, -, ht⟩ | ⟨rfl, e, -, ht⟩
    · rcases hr with ⟨-, hr⟩ | ⟨hr, -⟩
      · exact Or.inl ⟨rfl, e, ⟨C, ht.rotate⟩, hr⟩
      · norm_num at hr
    · rcases hr with ⟨hr, -⟩ | ⟨-, hr⟩
      · norm_num at hr
      · exact Or.inr ⟨rfl, e, ⟨C, ht.rotate.rotate⟩, hr⟩
  · rcases le_or_gt 0 (σ * cross (q C - q β) e) with h3 | h3
    · exact h.cov2 e h1 h3
    rcases h.rot with ⟨rfl, rfl, -, ht⟩ | ⟨rfl, rfl, -, ht⟩
    · rw [one_mul] at h2 h3
      refine dir_of_rot M ht ?_ h2
      have : cross (q β - q C) e = -cross (q C - q β) e := by simp [cross]; ring
      rw [this]; linarith
    · refine dir_of_rot M ht.rotate.rotate ?_ (by linarith)
      have : cross (q β - q D) e = -cross (q D - q β) e := by simp [cross]; ring
      rw [this]; linarith

open Classical in
/-- The vertices that the fan has yet to pass. -/
noncomputable def fanRank (q : Nat → P2 ℝ) (ts : List (Nat × Nat × Nat)) (σ : ℝ) (β C : Nat) : Nat :=
  ((ts.flatMap fun t => [t.1, t.2.1, t.2.2]).toFinset.filter fun v =>
    σ * cross (q β) (q v - q β) < 0 ∧ σ * cross (q C - q β) (q v - q β) < 0).card

theorem mem_verts {ts : List (Nat × Nat × Nat)} {v : Nat} :
    v ∈ (ts.flatMap fun t => [t.1, t.2.1, t.2.2]).toFinset ↔ Vert ts v := by
  simp only [List.mem_toFinset, List.mem_flatMap, List.mem_cons, List.not_mem_nil, or_false]
  unfold Vert IsIdx
  simp only [eq_comm]

theorem FInv.rank {ts : List (Nat × Nat × Nat)} (M : VMesh q ts) {I : SearchItem} {σ : ℝ} {a b β C D : Nat}
    (h : FInv q ts I σ a b β C D) : fanRank q ts σ β D < fanRank q ts σ β C := by
  have hthird := h.third M
  have hsp := h.spoke
  have hlo : ∀ v, cross (q β) (q v - q β) = cross (q β) (q v) := fun v => by
    rw [cross_sub_right, cross_self, sub_zero]
  have hcr : cross (q C - q β) (q D - q β) = area2 (q β) (q C) (q D) := by simp [cross, area2]
  have hcd : σ * cross (q C - q β) (q D - q β) < 0 := by
    rw [hcr]
    rcases h.rot with ⟨rfl, rfl, -, ht⟩ | ⟨rfl, rfl, -, ht⟩
    · have := ht.ccw M
      rw [area_flip] at this; linarith
    · have := ht.ccw M
      linarith
  have hσ : σ * σ = 1 := by rcases h.rot with ⟨rfl, -⟩ | ⟨rfl, -⟩ <;> norm_num
  have hvD : Vert ts D := by
    rcases h.rot with ⟨-, -, -, ht⟩ | ⟨-, -, -, ht⟩
    · exact ht.rotate.rotate.vert
    · exact ht.rotate.rotate.vert
  unfold fanRank
  apply Finset.card_lt_card
  rw [Finset.ssubset_iff_of_subset]
  · refine ⟨D, ?_, ?_⟩
    · rw [Finset.mem_filter, mem_verts, hlo]
      exact ⟨hvD, hthird, hcd⟩
    · rw [Finset.mem_filter, cross_self]
      simp
  · intro v hv
    rw [Finset.mem_filter] at hv ⊢
    obtain ⟨h0, h1, h2⟩ := hv
    refine ⟨h0, h1, ?_⟩
    have pl : cross (q β) (q C - q β) * cross (q D - q β) (q v - q β) - cross (q β) (q D - q β) * cross (q C - q β) (q v - q β) +
      cross (q β) (q v - q β) * cross (q C - q β) (q D - q β) = 0 := plucker _ _ _ _
    rw [hlo C, hlo D] at pl
    by_contra hc
    have e : (σ * cross (q β) (q C)) * (σ * cross (q D - q β) (q v - q β)) -
        (σ * cross (q β) (q D)) * (σ * cross (q C - q β) (q v - q β)) +
        (σ * cross (q β) (q v - q β)) * (σ * cross (q C - q β) (q D - q β)) = 0 := by
      linear_combination (σ * σ) * pl
    nlinarith [mul_pos_of_neg_of_neg hsp h2, mul_nonneg (neg_nonneg.2 hthird.le) (not_lt.1 hc),
      mul_pos_of_neg_of_neg h1 hcd]

theorem FInv.side (hp : PointsOf p tris) (hq : ∀ i, q i = p i - O) (M : VMesh q (tris.map MeshTri.indices))
    {I : SearchItem} {σ : ℝ} {a b β C D : Nat} (h : FInv q (tris.map MeshTri.indices) I σ a b β C D) {s : Nat} (hs : s < 3) :
    ∃ l, searchSide tris O I s = .ok l ∧ ∀ J ∈ l, ∃ l', FInv q (tris.map MeshTri.indices) J σ a b β D l' := by
  have hthird := h.third M
  have hsp := h.spoke
  have hlohi := h.lohi
  have empty : searchSide tris O I s = .ok [] →
      ∃ l, searchSide tris O I s = .ok l ∧ ∀ J ∈ l, ∃ l', FInv q (tris.map MeshTri.indices) J σ a b β D l' :=
    fun e => ⟨[], e, fun J hJ => absurd hJ List.not_mem_nil⟩
  rcases h.rot with ⟨rfl, rfl, ⟨l0, hsrc⟩, ht⟩ | ⟨rfl, rfl, ⟨l0, hsrc⟩, ht⟩
  · obtain ⟨t, u, w, hget, hside⟩ := get_of_lt ht hs
    rw [one_mul] at hthird hsp
    have zD := vert_nz M ht.rotate.rotate.vert
    have zC := vert_nz M ht.vert
    have zB := vert_nz M ht.rotate.vert
    rcases rot_sides ht hget hside with ⟨rfl, rfl⟩ | ⟨rfl, rfl⟩ | ⟨rfl, rfl⟩
    · exact empty (side_none hget hside fun n' l' hr => rot_unique M hr hsrc)
    · rcases side_cases (O := O) M hget hside with e | ⟨n', l', hr, hne⟩
      · exact empty e
      · rw [side_some (O := O) hp M hget hside hr hne, h.cone]
        dsimp only
        rw [orderSide_back (by rw [← hq, ← hq]; exact hthird)]
        dsimp only
        rw [range_second (by rw [← hq, cross_self]) (by rw [← hq]; exact hlohi.le)]
        dsimp only
        rw [nextCone_same h.cone hlohi (by rw [← hq]; exact zD) (by rw [← hq]; exact zB)
          (by rw [← hq]; intro hx; linarith [hx.1]) (by rw [← hq, cross_self]; simp)]
        refine ⟨_, rfl, fun J hJ => ?_⟩
        simp only [Option.toList_some, List.mem_singleton] at hJ
        rw [hJ]
        exact ⟨l', h.next M (Or.inl ⟨rfl, hr⟩)⟩
    · rcases side_cases (O := O) M hget hside with e | ⟨n', l', hr, hne⟩
      · exact empty e
      · apply empty
        rw [side_some (O := O) hp M hget hside hr hne, h.cone]
        dsimp only
        rcases gen_pos M ht.rotate.rotate.vert ht.vert (ht.rotate.rotate.ne M) with g | g
        · rw [orderSide_back (by rw [← hq, ← hq]; exact g)]
          dsimp only
          rw [range_right (by rw [← hq]; exact hsp) (by rw [← hq]; exact hthird)]
        · rw [orderSide_front (by rw [← hq, ← hq]; exact g)]
          dsimp only
          rw [range_right (by rw [← hq]; exact hthird) (by rw [← hq]; exact hsp)]
  · obtain ⟨t, u, w, hget, hside⟩ := get_of_lt ht hs
    have hthird' : cross (q D) (q β) < 0 := by rw [cross_anti]; linarith
    have hsp' : cross (q C) (q β) < 0 := by rw [cross_anti]; linarith
    have zD := vert_nz M ht.rotate.rotate.vert
    have zB := vert_nz M ht.vert
    have zC := vert_nz M ht.rotate.vert
    rcases rot_sides ht hget hside with ⟨rfl, rfl⟩ | ⟨rfl, rfl⟩ | ⟨rfl, rfl⟩
    · exact empty (side_none hget hside fun n' l' hr => rot_unique M hr hsrc)
    · rcases side_cases (O := O) M hget hside with e | ⟨n', l', hr, hne⟩
      · exact empty e
      · apply empty
        rw [side_some (O := O) hp M hget hside hr hne, h.cone]
        dsimp only
        rcases gen_pos M ht.rotate.vert ht.rotate.rotate.vert (ht.rotate.ne M) with g | g
        · rw [orderSide_back (by rw [← hq, ← hq]; exact g)]
          dsimp only
          rw [range_left (by rw [← hq]; exact hthird') (by rw [← hq]; exact hsp')]
        · rw [orderSide_front (by rw [← hq, ← hq]; exact g)]
          dsimp only
          rw [range_left (by rw [← hq]; exact hsp') (by rw [← hq]; exact hthird')]
    · rcases side_cases (O := O) M hget hside with e | ⟨n', l', hr, hne⟩
      · exact empty e
      · rw [side_some (O := O) hp M hget hside hr hne, h.cone]
        dsimp only
        rw [orderSide_back (by rw [← hq, ← hq]; exact hthird')]
        dsimp only
        rw [range_first (by rw [← hq]; exact hlohi.le) (by rw [← hq, cross_self])]
        dsimp only
        rw [nextCone_same h.cone hlohi (by rw [← hq]; exact zB) (by rw [← hq]; exact zD)
          (by rw [← hq, cross_self]; simp) (by rw [← hq]; intro hx; linarith [hx.2])]
        refine ⟨_, rfl, fun J hJ => ?_⟩
        simp only [Option.toList_some, List.mem_singleton] at hJ
        rw [hJ]
        exact ⟨l', h.next M (Or.inr ⟨rfl, hr⟩)⟩

theorem FInv.visit (hp : PointsOf p tris) (hq : ∀ i, q i = p i - O) (M : VMesh q (tris.map MeshTri.indices))
    {I : SearchItem} {σ : ℝ} {a b β C D : Nat} (h : FInv q (tris.map MeshTri.indices) I σ a b β C D) :
    searchVisit tris O I = .ok [] := by
  have hthird := h.third M
  rcases h.rot with ⟨rfl, rfl, ⟨l0, hsrc⟩, ht⟩ | ⟨rfl, rfl, ⟨l0, hsrc⟩, ht⟩
  · obtain ⟨t, g1, -, i1, -⟩ := ht.get (q := q)
    obtain ⟨f, g2, -, i2, -⟩ := hsrc.get (q := q)
    obtain ⟨L, e, hL⟩ := visit_spec hp (O := O) h.cone h.lohi g1 g2
    rw [e]
    congr 1
    apply List.eq_nil_iff_forall_not_mem.2
    intro v hv
    obtain ⟨k1, k2, k3, k4⟩ := (hL v).1 hv
    rw [← hq] at k3
    rcases (i1 v).1 k1 with rfl | rfl | rfl
    · exact k2 ((i2 _).2 (Or.inr (Or.inl rfl)))
    · exact k2 ((i2 _).2 (Or.inl rfl))
    · linarith
  · obtain ⟨t, g1, -, i1, -⟩ := ht.get (q := q)
    obtain ⟨f, g2, -, i2, -⟩ := hsrc.get (q := q)
    obtain ⟨L, e, hL⟩ := visit_spec hp (O := O) h.cone h.lohi g1 g2
    rw [e]
    congr 1
    apply List.eq_nil_iff_forall_not_mem.2
    intro v hv
    obtain ⟨k1, k2, k3, k4⟩ := (hL v).1 hv
    rw [← hq, cross_anti] at k4
    rcases (i1 v).1 k1 with rfl | rfl | rfl
    · exact k2 ((i2 _).2 (Or.inr (Or.inl rfl)))
    · exact k2 ((i2 _).2 (Or.inl rfl))
    · linarith

/-- The search round the vertex ends and reports nothing. -/
theorem FInv.runs (hp : PointsOf p tris) (hq : ∀ i, q i = p i - O) (M : VMesh q (tris.map MeshTri.indices)) :
    ∀ (r : Nat) {I : SearchItem} {σ : ℝ} {a b β C D : Nat}, FInv q (tris.map MeshTri.indices) I σ a b β C D →
      fanRank q (tris.map MeshTri.indices) σ β C < r → Runs tris O [I] []
  | 0, _, _, _, _, _, _, _, _, hr => absurd hr (Nat.not_lt_zero _)
  | r + 1, I, σ, a, b, β, C, D, h, hr => by
    obtain ⟨l, e, hl, -⟩ := pushed_of (P := fun J => ∃ l', FInv q (tris.map MeshTri.indices) J σ a b β D l')
      fun s hs => h.side hp hq M hs
    have hrank := h.rank M
    obtain ⟨rep, h1, -, h3⟩ := runs_all (tris := tris) (O := O) (P := fun _ r => r = []) (Q := l.reverse) fun J hJ => by
      obtain ⟨l', hJ⟩ := hl J (List.mem_reverse.1 hJ)
      exact ⟨[], FInv.runs hp hq M r hJ (by omega), rfl⟩
    have : rep = [] := by
      apply List.eq_nil_iff_forall_not_mem.2
      intro v hv
      obtain ⟨J, -, r, rfl, hv⟩ := h3 v hv
      exact absurd hv List.not_mem_nil
    rw [this] at h1
    exact runs_item (h.visit hp hq M) e h1

end Geometrix
